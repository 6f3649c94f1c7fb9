import Verif.Proofs.Merge
/-!
# C64: the parallel hull of several chunks, for points in general position
-/
set_option linter.unusedSectionVars false
set_option linter.unusedVariables false
set_option linter.unusedSimpArgs false
namespace Verif.Props
open Verif Verif.Spec Verif.Model Verif.Hull

/-- No task of the schedule folds more than one of the `n` items (chunks): rayon has split the work
completely, as it does if there are not more chunks than threads. -/
def OneChunkPerTask : Sched → Nat → Prop
  | .leaf, n => n ≤ 1
  | .node k l r, n => OneChunkPerTask l (min k n) ∧ OneChunkPerTask r (n - k)

section
variable {K : Type} [Scalar K] [Field K] [LinearOrder K] [ExactScalar K]

theorem ring_open (vertices : List (V2 K)) (pt : Nat → V2 K) (S h : List Nat) (s : Nat) (hr : Ring pt S h)
    (hget : ∀ i ∈ S, idx vertices i = .ok (pt i)) (hgen : General pt S) (hs : h[0]? = some s) (hl : 2 ≤ h.length) :
    OpenHull vertices pt h s := by
  have hsS := hr.sub s (List.mem_of_getElem? hs)
  refine ⟨hs, fun i hi => hget i (hr.sub i hi), hr.nodup, hl,
    fun i hi j hj => hgen.inj i (hr.sub i hi) j (hr.sub j hj), ?_, ?_⟩
  · intro k i j hk hi hj
    have hlt := (List.getElem?_eq_some_iff.1 hj).1
    refine hr.left k i j hi (by rw [Nat.mod_eq_of_lt hlt]; exact hj) s hsS ?_ ?_
    · rintro rfl
      have := hr.get_inj hi hs
      omega
    · rintro rfl
      have := hr.get_inj hj hs
      omega
  · intro i j hi hj
    have hlt := (List.getElem?_eq_some_iff.1 hj).1
    refine hr.left 0 s i hs (by rw [Nat.mod_eq_of_lt (by omega)]; exact hi) j (hr.sub j (List.mem_of_getElem? hj)) ?_ ?_
    · rintro rfl
      have := hr.get_inj hj hs
      omega
    · rintro rfl
      have := hr.get_inj hj hi
      omega

/-- merging two partial results that start at the start point -/
theorem merge_parts (vertices : List (V2 K)) (pt : Nat → V2 K) (Sa Sb a b : List Nat) (s : Nat)
    (ha : Ring pt Sa a) (hb : Ring pt Sb b) (ha0 : a[0]? = some s) (hb0 : b[0]? = some s)
    (hget : ∀ i ∈ Sa ++ Sb, idx vertices i = .ok (pt i)) (hgen : General pt (Sa ++ Sb))
    (hlow : ∀ j ∈ Sa ++ Sb, pt j = pt s ∨ LexLt (pt s) (pt j)) (fuel : Nat) (hf : a.length + b.length < fuel) :
    ∃ r, combineHulls fuel vertices (.ok a) (.ok b) = .ok r ∧ Ring pt (Sa ++ Sb) r ∧ r[0]? = some s := by
  have hap := ha.pos
  have hbp := hb.pos
  have one : ∀ {g : List Nat}, g[0]? = some s → g.length = 1 → g = [s] := by
    intro g h0 h1
    obtain ⟨x, rfl⟩ := List.length_eq_one_iff.1 h1
    simp at h0
    rw [h0]
  by_cases hal : 2 ≤ a.length
  · by_cases hbl : 2 ≤ b.length
    · exact merge_ring vertices pt Sa Sb a b s ha hb (Or.inl ⟨ha0, hb0, hal, hbl⟩) hget hgen hlow fuel hf
    · have e := one hb0 (by omega)
      subst e
      refine ⟨a, combine_hull_start vertices pt a s fuel (ring_open vertices pt Sa a s ha
        (fun i hi => hget i (List.mem_append_left _ hi)) (hgen.mono (fun i hi => List.mem_append_left _ hi)) ha0 hal)
        (by omega), ha.congr (fun x => ?_), ha0⟩
      simp only [List.mem_append]
      exact ⟨Or.inl, fun h => h.elim id (fun h => by rw [hb.single x h]; exact ha.sub s (List.mem_of_getElem? ha0))⟩
  · have e := one ha0 (by omega)
    subst e
    have hmem : ∀ x, x ∈ Sb ↔ x ∈ Sa ++ Sb := by
      intro x
      simp only [List.mem_append]
      exact ⟨Or.inr, fun h => h.elim (fun h => by rw [ha.single x h]; exact hb.sub s (List.mem_of_getElem? hb0)) id⟩
    by_cases hbl : 2 ≤ b.length
    · exact ⟨b, combine_start_hull vertices pt b s fuel (ring_open vertices pt Sb b s hb
        (fun i hi => hget i (List.mem_append_right _ hi)) (hgen.mono (fun i hi => List.mem_append_right _ hi)) hb0 hbl)
        (by omega), hb.congr hmem, hb0⟩
    · have e := one hb0 (by omega)
      subst e
      obtain ⟨fuel, rfl⟩ : ∃ m, fuel = m + 1 := ⟨fuel - 1, by omega⟩
      exact ⟨[s], combine_start_start vertices s fuel, hb.congr hmem, rfl⟩

theorem ring_start (pt : Nat → V2 K) (s : Nat) : Ring pt [s] [s] := by
  refine ⟨by simp, by simp, fun x hx => hx, fun k i j hi hj x hx hxi hxj => ?_⟩
  have hi' := List.mem_of_getElem? hi
  simp at hx hi'
  exact absurd (hx.trans hi'.symm) hxi

/-- a task with one chunk: the hull of the chunk and the start point -/
theorem merge_leaf (vertices : List (V2 K)) (pt : Nat → V2 K) (C g : List Nat) (s : Nat) (hg : Ring pt C g)
    (hget : ∀ i ∈ s :: C, idx vertices i = .ok (pt i)) (hgen : General pt (s :: C))
    (hlow : ∀ j ∈ s :: C, pt j = pt s ∨ LexLt (pt s) (pt j)) (fuel : Nat) (hf : 1 + g.length < fuel) :
    ∃ r, combineHulls fuel vertices (.ok [s]) (.ok g) = .ok r ∧ Ring pt (s :: C) r ∧ r[0]? = some s := by
  obtain ⟨o, ho⟩ : ∃ o, g[0]? = some o := ⟨_, List.getElem?_eq_getElem hg.pos⟩
  by_cases hos : o = s
  · subst hos
    exact merge_parts vertices pt [o] C [o] g o (ring_start pt o) hg rfl ho hget hgen hlow fuel hf
  · exact merge_ring vertices pt [s] C [s] g s (ring_start pt s) hg (Or.inr ⟨rfl, o, ho, hos⟩) hget hgen hlow fuel hf

/-- the hull of a chunk, however small it is -/
theorem chunk_ring [ExactAtan2 K] (srt : List (Nat × K × K) → List (Nat × K × K)) (hsrt : Sorts angleCmp srt)
    (vertices : List (V2 K)) (pt : Nat → V2 K) (C : List Nat) (hne : C ≠ []) (hnd : C.Nodup)
    (hget : ∀ i ∈ C, idx vertices i = .ok (pt i)) (hgen : General pt C) :
    ∃ g, indexedGrahamNoLoop srt vertices C none = .ok g ∧ Ring pt C g := by
  by_cases h4 : 4 ≤ C.length
  · have hself := openIndices_self hnd (by omega)
    have hshort := indexedShort_long vertices C (by rw [hself]; exact h4)
    rw [hself] at hshort
    obtain ⟨k, s, h, -, e1, e2, hno, hhd, hlen, hhsub, hh, -⟩ := indexedGrahamNoLoop_core srt hsrt vertices C C pt
      hshort hne hget hgen.inj (by
        refine ⟨C[0], List.getElem_mem _, C[1], List.getElem_mem _, fun e => ?_⟩
        exact absurd ((List.Nodup.getElem_inj_iff hnd).1 e) (by omega))
    exact ⟨h, hno, Ring.of_hull hgen hh (by rw [← List.head?_eq_getElem?]; exact hhd) hlen hhsub⟩
  · have hpos := List.length_pos_iff.2 hne
    by_cases h1 : C.length = 1
    · obtain ⟨x, rfl⟩ := List.length_eq_one_iff.1 h1
      exact ⟨[x], by simp [indexedGrahamNoLoop, indexedShort], ring_start pt x⟩
    · have hself := openIndices_self hnd (by omega)
      by_cases h2 : C.length = 2
      · obtain ⟨x, y, rfl⟩ := List.length_eq_two.1 h2
        refine ⟨[x, y], by simp [indexedGrahamNoLoop, indexedShort, hself], by simp, hnd, fun z hz => hz, ?_⟩
        intro k i j hi hj z hz hzi hzj
        exfalso
        have hk := (List.getElem?_eq_some_iff.1 hi).1
        simp at hk hz
        interval_cases k
        · simp at hi hj
          subst hi; subst hj
          exact hz.elim hzi hzj
        · simp at hi hj
          subst hi; subst hj
          exact hz.elim hzj hzi
      · obtain ⟨x, y, z, rfl⟩ := List.length_eq_three.1 (show C.length = 3 by omega)
        have hx := hget x (by simp)
        have hy := hget y (by simp)
        have hz := hget z (by simp)
        have hnd' := hnd
        simp only [List.nodup_cons, List.mem_cons, List.not_mem_nil, or_false, not_or] at hnd'
        obtain ⟨⟨hxy, hxz⟩, hyz, -⟩ := hnd'
        have hno : indexedGrahamNoLoop srt vertices [x, y, z] none =
            if isPointLeft (pt x) (pt y) (pt z) then .ok [x, y, z] else .ok [x, z, y] := by
          simp [indexedGrahamNoLoop, indexedShort, hself, hx, hy, hz, bind, Except.bind]
        have hgp := hgen.gp x (by simp) y (by simp) z (by simp) hxy hxz hyz
        have key : ∀ u v w : Nat, 0 < orient (pt u) (pt v) (pt w) → [u, v, w].Nodup →
            (∀ t ∈ [x, y, z], t ∈ [u, v, w]) → (∀ t ∈ [u, v, w], t ∈ [x, y, z]) → Ring pt [x, y, z] [u, v, w] := by
          intro u v w ho hn hsub hsub'
          refine ⟨by simp, hn, hsub', ?_⟩
          intro k i j hi hj t ht hti htj
          have ht := hsub t ht
          have hk := (List.getElem?_eq_some_iff.1 hi).1
          have r1 := orient_rot (pt u) (pt v) (pt w)
          have r2 := orient_rot (pt v) (pt w) (pt u)
          simp at hk ht
          interval_cases k
          · simp at hi hj
            subst hi; subst hj
            rcases ht with rfl | rfl | rfl
            · exact absurd rfl hti
            · exact absurd rfl htj
            · exact ho
          · simp at hi hj
            subst hi; subst hj
            rcases ht with rfl | rfl | rfl
            · rw [← r1]; exact ho
            · exact absurd rfl hti
            · exact absurd rfl htj
          · simp at hi hj
            subst hi; subst hj
            rcases ht with rfl | rfl | rfl
            · exact absurd rfl htj
            · rw [← r2, ← r1]; exact ho
            · exact absurd rfl hti
        rw [hno]
        by_cases hl : 0 < orient (pt x) (pt y) (pt z)
        · rw [if_pos ((isPointLeft_iff _ _ _).2 hl)]
          exact ⟨_, rfl, key x y z hl hnd (fun t h => h) (fun t h => h)⟩
        · rw [if_neg (fun h => hl ((isPointLeft_iff _ _ _).1 h))]
          refine ⟨_, rfl, key x z y ?_ ?_ ?_ ?_⟩
          · rw [orient_swap]
            have := lt_of_le_of_ne (not_lt.1 hl) hgp
            linarith
          · simp [hxy, hxz, Ne.symm hyz]
          · intro t ht; simp at ht ⊢; tauto
          · intro t ht; simp at ht ⊢; tauto

theorem chunksOf_spec {A : Type} (size : Nat) (hs : 0 < size) : ∀ (fuel : Nat) (l : List A), l.length ≤ fuel →
    (chunksOf size fuel l).flatten = l ∧ ∀ c ∈ chunksOf size fuel l, c ≠ [] := by
  intro fuel
  induction fuel with
  | zero =>
    intro l hl
    have : l = [] := List.length_eq_zero_iff.1 (by omega)
    subst this
    simp [chunksOf]
  | succ fuel ih =>
    intro l hl
    cases l with
    | nil => simp [chunksOf]
    | cons a l =>
      simp only [chunksOf]
      obtain ⟨h1, h2⟩ := ih ((a :: l).drop size) (by simp at hl ⊢; omega)
      refine ⟨by rw [List.flatten_cons, h1, List.take_append_drop], fun c hc => ?_⟩
      rcases List.mem_cons.1 hc with rfl | hc
      · obtain ⟨m, rfl⟩ : ∃ m, size = m + 1 := ⟨size - 1, by omega⟩
        simp
      · exact h2 c hc

/-- the start index is the lowest of all points -/
theorem parStart_lowest (vertices : List (V2 K)) (pt : Nat → V2 K) (cs : List (List Nat)) (hne : cs ≠ [])
    (hcs : ∀ c ∈ cs, c ≠ []) (hget : ∀ i ∈ cs.flatten, idx vertices i = .ok (pt i)) :
    ∃ s, parStart vertices cs = .ok s ∧ s ∈ cs.flatten ∧ ∀ j ∈ cs.flatten, pt j = pt s ∨ LexLt (pt s) (pt j) := by
  have hv : vertices.isEmpty = false := by
    obtain ⟨c, hc⟩ := List.exists_mem_of_ne_nil _ hne
    obtain ⟨i, hi⟩ := List.exists_mem_of_ne_nil _ (hcs c hc)
    have := hget i (List.mem_flatten.2 ⟨c, hc, hi⟩)
    cases vertices with
    | nil => simp [idx] at this
    | cons => rfl
  have hchunk : ∀ c : List Nat, c ∈ cs → ∃ s, (do
      let (ii, _) ← findLowest vertices.isEmpty (idx vertices) c
      idx c ii : Except Err Nat) = .ok s ∧ s ∈ c ∧ ∀ j ∈ c, pt j = pt s ∨ LexLt (pt s) (pt j) := by
    intro c hc
    obtain ⟨k, s, e1, e2, e3⟩ := findLowest_ok (idx vertices) pt c (hcs c hc)
      (fun i hi => hget i (List.mem_flatten.2 ⟨c, hc, hi⟩))
    refine ⟨s, ?_, List.mem_of_getElem? e2, e3⟩
    rw [hv, e1]
    simp [bind, Except.bind, idx, e2]
  let low : List Nat → Nat := fun c => if h : c ∈ cs then (hchunk c h).choose else 0
  have hlowc : ∀ c, c ∈ cs → (do
      let (ii, _) ← findLowest vertices.isEmpty (idx vertices) c
      idx c ii : Except Err Nat) = .ok (low c) ∧ low c ∈ c ∧ ∀ j ∈ c, pt j = pt (low c) ∨ LexLt (pt (low c)) (pt j) := by
    intro c hc
    simp only [low, dif_pos hc]
    exact (hchunk c hc).choose_spec
  have hstarts : cs.mapM (fun c => do
      let (ii, _) ← findLowest vertices.isEmpty (idx vertices) c
      idx c ii : List Nat → Except Err Nat) = .ok (cs.map low) := mapM_ok _ low cs (fun c hc => (hlowc c hc).1)
  have hin : ∀ i ∈ cs.map low, i ∈ cs.flatten := by
    intro i hi
    obtain ⟨c, hc, rfl⟩ := List.mem_map.1 hi
    exact List.mem_flatten.2 ⟨c, hc, (hlowc c hc).2.1⟩
  obtain ⟨k, s, e1, e2, e3⟩ := findLowest_ok (idx vertices) pt (cs.map low) (by simpa using hne)
    (fun i hi => hget i (hin i hi))
  refine ⟨s, ?_, hin s (List.mem_of_getElem? e2), ?_⟩
  · unfold parStart
    rw [hstarts]
    simp only [bind, Except.bind]
    rw [hv, e1]
    simp [idx, e2]
  · intro j hj
    obtain ⟨c, hc, hjc⟩ := List.mem_flatten.1 hj
    have h1 := (hlowc c hc).2.2 j hjc
    have h2 := e3 (low c) (List.mem_map_of_mem hc)
    rcases h1 with h1 | h1
    · rw [h1]; exact h2
    · rcases h2 with h2 | h2
      · rw [h2] at h1; exact Or.inr h1
      · exact Or.inr (lexLt_trans h2 h1)

theorem reduce_ring [ExactAtan2 K] (srt : List (Nat × K × K) → List (Nat × K × K)) (hsrt : Sorts angleCmp srt)
    (vertices : List (V2 K)) (pt : Nat → V2 K) (all : List Nat) (s : Nat) (hs : s ∈ all)
    (hget : ∀ i ∈ all, idx vertices i = .ok (pt i)) (hgen : General pt all)
    (hlow : ∀ j ∈ all, pt j = pt s ∨ LexLt (pt s) (pt j)) (fuel : Nat) (hf : 2 * all.length < fuel) :
    ∀ (sched : Sched) (cs : List (List Nat)), OneChunkPerTask sched cs.length → (∀ c ∈ cs, c ≠ [] ∧ c.Nodup) →
      (∀ i ∈ cs.flatten, i ∈ all) →
      ∃ r, parReduce (.ok [s]) (combineOp fuel vertices) sched
          (cs.map (fun c => indexedGrahamNoLoop srt vertices c none)) = .ok r ∧
        Ring pt (s :: cs.flatten) r ∧ r[0]? = some s := by
  have hsmall : ∀ {S r : List Nat}, Ring pt S r → (∀ i ∈ S, i ∈ all) → r.length ≤ all.length := by
    intro S r hr hS
    exact (hr.nodup.subperm (fun x hx => hS x (hr.sub x hx))).length_le
  have hcons : ∀ {S : List Nat}, (∀ i ∈ S, i ∈ all) → ∀ i ∈ s :: S, i ∈ all := by
    intro S hS i hi
    rcases List.mem_cons.1 hi with rfl | hi
    · exact hs
    · exact hS i hi
  have hall : 0 < all.length := List.length_pos_of_mem hs
  intro sched
  induction sched with
  | leaf =>
    intro cs h1 hcs hsub
    cases cs with
    | nil => exact ⟨[s], rfl, ring_start pt s, rfl⟩
    | cons c cs =>
      simp only [OneChunkPerTask, List.length_cons] at h1
      have : cs = [] := List.length_eq_zero_iff.1 (by omega)
      subst this
      have hfl : [c].flatten = c := by simp
      rw [hfl] at hsub ⊢
      obtain ⟨hne, hnd⟩ := hcs c (by simp)
      obtain ⟨g, hg, hring⟩ := chunk_ring srt hsrt vertices pt c hne hnd (fun i hi => hget i (hsub i hi)) (hgen.mono hsub)
      have hgl : g.length ≤ all.length := hsmall hring hsub
      have hgl0 := hring.pos
      obtain ⟨r, e, h⟩ := merge_leaf vertices pt c g s hring (fun i hi => hget i (hcons hsub i hi)) (hgen.mono (hcons hsub))
        (fun i hi => hlow i (hcons hsub i hi)) fuel (by omega)
      refine ⟨r, ?_, h⟩
      simp only [parReduce, List.map_cons, List.map_nil, List.foldl_cons, List.foldl_nil, combineOp, hg, e]
  | node k l r ihl ihr =>
    intro cs h1 hcs hsub
    simp only [OneChunkPerTask] at h1
    have hsubl : ∀ i ∈ (cs.take k).flatten, i ∈ all := by
      intro i hi
      obtain ⟨c, hc, hic⟩ := List.mem_flatten.1 hi
      exact hsub i (List.mem_flatten.2 ⟨c, List.mem_of_mem_take hc, hic⟩)
    have hsubr : ∀ i ∈ (cs.drop k).flatten, i ∈ all := by
      intro i hi
      obtain ⟨c, hc, hic⟩ := List.mem_flatten.1 hi
      exact hsub i (List.mem_flatten.2 ⟨c, List.mem_of_mem_drop hc, hic⟩)
    obtain ⟨a, ea, ra, a0⟩ := ihl (cs.take k) (by rw [List.length_take]; exact h1.1)
      (fun c hc => hcs c (List.mem_of_mem_take hc)) hsubl
    obtain ⟨b, eb, rb, b0⟩ := ihr (cs.drop k) (by rw [List.length_drop]; exact h1.2)
      (fun c hc => hcs c (List.mem_of_mem_drop hc)) hsubr
    have hsubA : ∀ i ∈ (s :: (cs.take k).flatten) ++ (s :: (cs.drop k).flatten), i ∈ all := by
      intro i hi
      rcases List.mem_append.1 hi with h | h
      · exact hcons hsubl i h
      · exact hcons hsubr i h
    have hal := hsmall ra (hcons hsubl)
    have hbl := hsmall rb (hcons hsubr)
    obtain ⟨m, em, rm, m0⟩ := merge_parts vertices pt _ _ a b s ra rb a0 b0 (fun i hi => hget i (hsubA i hi))
      (hgen.mono hsubA) (fun i hi => hlow i (hsubA i hi)) fuel (by omega)
    refine ⟨m, ?_, rm.congr (fun x => ?_), m0⟩
    · simp only [parReduce]
      rw [← List.map_take, ← List.map_drop, ea, eb]
      simp only [combineOp]
      exact em
    · have hfl : cs.flatten = (cs.take k).flatten ++ (cs.drop k).flatten := by
        rw [← List.flatten_append, List.take_append_drop]
      rw [hfl]
      simp only [List.mem_append, List.mem_cons]
      tauto

/-- **C64** If no three points are on a line and every task of the reduction gets at most one chunk,
`convex_hull_par` returns the convex hull, closed and starting at the lowest point, for every number and
size of the chunks, and it is the answer of the sequential `indexed_graham_scan`. -/
theorem C64_several_chunks_is_hull [ExactAtan2 K] (srt : List (Nat × K × K) → List (Nat × K × K))
    (hsrt : Sorts angleCmp srt) (vertices : List (V2 K)) (indices : List Nat) (pt : Nat → V2 K)
    (hpt : ∀ i ∈ indices, vertices[i]? = some (pt i)) (h4 : 4 ≤ indices.length)
    (h5 : indices.head? = indices.getLast? → 5 ≤ indices.length)
    (hdiff : ∀ i ∈ indices, ∀ j ∈ indices, pt i = pt j → i = j)
    (hline : ∀ i ∈ indices, ∀ j ∈ indices, ∀ k ∈ indices, i ≠ j → i ≠ k → j ≠ k →
      orient (pt i) (pt j) (pt k) ≠ 0)
    (hnd : indices.dropLast.Nodup) (hnd2 : indices.head? ≠ indices.getLast? → indices.Nodup)
    (chunk : Nat) (hchunk : 0 < chunk) (sched : Sched)
    (hsched : OneChunkPerTask sched (chunksOf chunk (openIndices indices).length (openIndices indices)).length)
    (fuel : Nat) (hfuel : 2 * indices.length < fuel) :
    ∃ hull, convexHullPar fuel sched srt vertices indices chunk = .ok hull ∧ (∀ i ∈ hull, i ∈ indices) ∧
      IsHullLoop (indices.map pt) (hull.map pt) ∧ StartsLowest (indices.map pt) (hull.map pt) ∧
      indexedGrahamScan srt vertices indices = .ok hull := by
  have hl := openIndices_length indices h4 h5
  have hmem := openIndices_mem indices h4
  have hsub := openIndices_sub indices
  have hshort := indexedShort_long vertices indices hl
  have hn : (openIndices indices).Nodup := by
    unfold openIndices
    split
    · exact hnd
    · rename_i h; exact hnd2 h
  obtain ⟨is, his⟩ : ∃ is, is = openIndices indices := ⟨_, rfl⟩
  rw [← his] at hl hmem hsub hshort hn hsched
  have hget : ∀ i ∈ is, idx vertices i = .ok (pt i) := fun i hi => by simp [idx, hpt i ((hmem i).1 hi)]
  have hgen : General pt is := ⟨fun i hi j hj => hdiff i ((hmem i).1 hi) j ((hmem j).1 hj),
    fun i hi j hj k hk => hline i ((hmem i).1 hi) j ((hmem j).1 hj) k ((hmem k).1 hk)⟩
  obtain ⟨cs, hcs⟩ : ∃ cs, cs = chunksOf chunk is.length is := ⟨_, rfl⟩
  obtain ⟨c1, c2⟩ := chunksOf_spec chunk hchunk is.length is (le_refl _)
  rw [← hcs] at c1 c2 hsched
  have hcne : cs ≠ [] := by
    rintro rfl
    rw [← c1] at hl
    simp at hl
  obtain ⟨s, es, hs, hlow⟩ := parStart_lowest vertices pt cs hcne c2 (by rw [c1]; exact hget)
  rw [c1] at hs hlow
  obtain ⟨r, er, hr, hr0⟩ := reduce_ring srt hsrt vertices pt is s hs hget hgen hlow fuel (by omega) sched cs hsched
    (fun c hc => ⟨c2 c hc, by
      have : c.Sublist cs.flatten := List.sublist_flatten_of_mem hc
      rw [c1] at this
      exact hn.sublist this⟩) (by rw [c1]; exact fun i hi => hi)
  rw [c1] at hr
  have hr : Ring pt is r := hr.congr (fun x => by
    simp only [List.mem_cons]
    exact ⟨fun h => h.elim (fun e => by rw [e]; exact hs) id, Or.inr⟩)
  have hrl : 2 ≤ r.length := by
    by_contra hc
    have h1 : r.length = 1 := by have := hr.pos; omega
    obtain ⟨x, rfl⟩ := List.length_eq_one_iff.1 h1
    have e0 := hr.single is[0] (List.getElem_mem _)
    have e1 := hr.single is[1] (List.getElem_mem _)
    exact absurd ((List.Nodup.getElem_inj_iff hn).1 (e0.trans e1.symm)) (by omega)
  have hclose : closeLoop r = r ++ [s] := by
    unfold closeLoop
    rw [if_pos (by omega), List.head?_eq_getElem?, hr0]
    rfl
  have hpar : convexHullPar fuel sched srt vertices indices chunk = .ok (r ++ [s]) := by
    unfold convexHullPar
    rw [hshort]
    simp only
    rw [if_neg (by omega), ← hcs]
    simp only [bind, Except.bind, es, er, hclose]
  have hH := hr.hull hgen hr0 hrl
  have hH' : IsHullLoop (indices.map pt) ((r ++ [s]).map pt) := IsHullLoop.congr hH (fun p => by
    simp only [List.mem_map, hmem])
  have hS : StartsLowest (indices.map pt) ((r ++ [s]).map pt) := by
    refine startsLowest_of hH'.closed (s := pt s) (by simp) (fun p hp => ?_)
    obtain ⟨i, hi, rfl⟩ := List.mem_map.1 hp
    exact hlow i ((hmem i).2 hi)
  have hmemr : ∀ i ∈ r ++ [s], i ∈ indices := by
    intro i hi
    rcases List.mem_append.1 hi with h | h
    · exact (hmem i).1 (hr.sub i h)
    · simp at h; rw [h]; exact (hmem s).1 hs
  refine ⟨r ++ [s], hpar, hmemr, hH', hS, ?_⟩
  obtain ⟨hull, g1, g2, g3, g4⟩ := C40_indexed_graham_scan_is_hull srt hsrt vertices indices pt hpt h4 h5 hdiff (by
    refine ⟨is[0], (hmem _).1 (List.getElem_mem _), is[1], (hmem _).1 (List.getElem_mem _), fun e => ?_⟩
    exact absurd ((List.Nodup.getElem_inj_iff hn).1 e) (by omega))
  rw [g1]
  have e := C62_hull_is_unique (fun _ => Iff.rfl) g3 g4 hH' hS
  have : hull = r ++ [s] := by
    have hinj : ∀ (x y : List Nat), (∀ i ∈ x, i ∈ indices) → (∀ i ∈ y, i ∈ indices) → x.map pt = y.map pt → x = y := by
      intro x
      induction x with
      | nil => intro y _ _ e; cases y <;> simp_all
      | cons a x ih =>
        intro y hx hy e
        cases y with
        | nil => simp at e
        | cons b y =>
          simp only [List.map_cons, List.cons.injEq] at e
          rw [hdiff a (hx a (by simp)) b (hy b (by simp)) e.1,
            ih y (fun i hi => hx i (by simp [hi])) (fun i hi => hy i (by simp [hi])) e.2]
    exact hinj _ _ g2 hmemr e
  rw [this]

/-- The same for `LineString2::convex_hull_par`, whose points must differ (so the line is not closed). -/
theorem C64_line_several_chunks_is_hull [ExactAtan2 K] (srt : List (Nat × K × K) → List (Nat × K × K))
    (hsrt : Sorts angleCmp srt) (pts : List (V2 K)) (h4 : 4 ≤ pts.length) (hnd : pts.Nodup)
    (hline : ∀ (i j k : Nat) (a b c : V2 K), pts[i]? = some a → pts[j]? = some b → pts[k]? = some c →
      i < j → j < k → orient a b c ≠ 0)
    (chunk : Nat) (hchunk : 1 < chunk) (sched : Sched)
    (hsched : OneChunkPerTask sched ((pts.length + chunk - 1) / chunk))
    (fuel : Nat) (hfuel : 2 * pts.length < fuel) :
    ∃ hull, lineConvexHullPar fuel sched srt pts chunk = .ok hull ∧ IsHullLoop pts hull ∧ StartsLowest pts hull := by
  have hlen : ∀ (fuel : Nat) (l : List Nat), l.length ≤ fuel →
      (chunksOf chunk fuel l).length = (l.length + chunk - 1) / chunk := by
    intro fuel
    induction fuel with
    | zero =>
      intro l hl
      have : l = [] := List.length_eq_zero_iff.1 (by omega)
      subst this
      simp only [chunksOf, List.length_nil, Nat.zero_add]
      exact (Nat.div_eq_of_lt (by omega)).symm
    | succ fuel ih =>
      intro l hl
      cases l with
      | nil =>
        simp only [chunksOf, List.length_nil, Nat.zero_add]
        exact (Nat.div_eq_of_lt (by omega)).symm
      | cons a l =>
        simp only [chunksOf]
        rw [List.length_cons, ih _ (by simp only [List.length_drop, List.length_cons] at hl ⊢; omega), List.length_drop]
        by_cases hc : (a :: l).length ≤ chunk
        · have e0 : (a :: l).length - chunk = 0 := by omega
          have hp : 0 < (a :: l).length := by simp
          rw [e0, Nat.div_eq_of_lt (show 0 + chunk - 1 < chunk by omega)]
          have : (a :: l).length + chunk - 1 = ((a :: l).length - 1) + chunk := by omega
          rw [this, Nat.add_div_right _ (by omega), Nat.div_eq_of_lt (by omega)]
        · have : (a :: l).length + chunk - 1 = ((a :: l).length - chunk + chunk - 1) + chunk := by omega
          rw [this, Nat.add_div_right _ (by omega)]
  obtain ⟨d⟩ : Nonempty (V2 K) := ⟨⟨0, 0⟩⟩
  have hgetD : ∀ i : Nat, i < pts.length → pts[i]? = some (pts.getD i d) := by
    intro i hi
    rw [List.getD_eq_getElem?_getD, List.getElem?_eq_getElem hi]
    rfl
  have hself : openIndices (List.range pts.length) = List.range pts.length :=
    openIndices_self List.nodup_range (by simp; omega)
  have hends : (List.range pts.length).head? ≠ (List.range pts.length).getLast? := by
    rw [List.head?_eq_getElem?, List.getLast?_eq_getElem?, List.length_range, List.getElem?_range (by omega),
      List.getElem?_range (by omega)]
    simp only [ne_eq, Option.some_inj]
    omega
  have hor : ∀ i j k : Nat, i < pts.length → j < pts.length → k < pts.length → i ≠ j → i ≠ k → j ≠ k →
      orient (pts.getD i d) (pts.getD j d) (pts.getD k d) ≠ 0 := by
    intro i j k hi hj hk hij hik hjk
    have gi := hgetD i hi
    have gj := hgetD j hj
    have gk := hgetD k hk
    have e1 : ∀ A B C : V2 K, orient A B C = - orient A C B := fun A B C => by simp only [orient]; ring
    have e2 : ∀ A B C : V2 K, orient A B C = orient C A B := fun A B C => by simp only [orient]; ring
    have e3 : ∀ A B C : V2 K, orient A B C = - orient B A C := fun A B C => by simp only [orient]; ring
    have e4 : ∀ A B C : V2 K, orient A B C = orient B C A := fun A B C => by simp only [orient]; ring
    have e5 : ∀ A B C : V2 K, orient A B C = - orient C B A := fun A B C => by simp only [orient]; ring
    rcases Nat.lt_or_gt_of_ne hij with a1 | a1 <;> rcases Nat.lt_or_gt_of_ne hik with a2 | a2 <;>
      rcases Nat.lt_or_gt_of_ne hjk with a3 | a3
    · exact hline i j k _ _ _ gi gj gk a1 a3
    · rw [e1]; exact neg_ne_zero.2 (hline i k j _ _ _ gi gk gj a2 a3)
    · omega
    · rw [e2]; exact hline k i j _ _ _ gk gi gj a2 a1
    · rw [e3]; exact neg_ne_zero.2 (hline j i k _ _ _ gj gi gk a1 a2)
    · omega
    · rw [e4]; exact hline j k i _ _ _ gj gk gi a3 a2
    · rw [e5]; exact neg_ne_zero.2 (hline k j i _ _ _ gk gj gi a3 a1)
  obtain ⟨hull, e, hm, hH, hS, -⟩ := C64_several_chunks_is_hull srt hsrt pts (List.range pts.length)
    (fun i => pts.getD i d) (fun i hi => hgetD i (List.mem_range.1 hi)) (by simpa using h4)
    (fun h => absurd h hends)
    (by
      intro i hi j hj e
      have hi := List.mem_range.1 hi
      have hj := List.mem_range.1 hj
      simp only [List.getD_eq_getElem?_getD, List.getElem?_eq_getElem hi, List.getElem?_eq_getElem hj, Option.getD_some] at e
      exact (List.Nodup.getElem_inj_iff hnd).1 e)
    (fun i hi j hj k hk => hor i j k (List.mem_range.1 hi) (List.mem_range.1 hj) (List.mem_range.1 hk))
    (List.nodup_range.sublist (List.dropLast_sublist _)) (fun _ => List.nodup_range) chunk (by omega) sched
    (by rw [hself, hlen _ _ le_rfl]; simpa using hsched) fuel (by simpa using hfuel)
  have hr : (List.range pts.length).map (fun i => pts.getD i d) = pts := range_map_getD pts d
  rw [hr] at hH hS
  refine ⟨hull.map (fun i => pts.getD i d), ?_, hH, hS⟩
  unfold lineConvexHullPar
  rw [if_pos hchunk, e]
  simp only [bind, Except.bind]
  exact mapM_ok _ _ hull (fun i hi => by
    have := hgetD i (List.mem_range.1 (hm i hi))
    simp only [idx, this])
end

/-- seven points, no three on a line -/
def mergePts : List (V2 ℚ) := [⟨3, 1⟩, ⟨0, 5⟩, ⟨1, 0⟩, ⟨7, 4⟩, ⟨4, 9⟩, ⟨6, 0⟩, ⟨2, 4⟩]

/-- the three chunks of three, three and one points over three tasks -/
def mergeSched : Sched := .node 1 .leaf (.node 1 .leaf .leaf)

/-- The hypotheses of the theorems of C64 are met, and the answer is not trivial: the merge drops points
and inserts others. -/
example : mergePts.Nodup ∧ (∀ i ∈ List.range 7, ∀ j ∈ List.range i, ∀ k ∈ List.range j,
      orient (mergePts.getD k ⟨0, 0⟩) (mergePts.getD j ⟨0, 0⟩) (mergePts.getD i ⟨0, 0⟩) ≠ 0) ∧
    chunksOf 3 7 (List.range 7) = [[0, 1, 2], [3, 4, 5], [6]] ∧
    convexHullPar 100 mergeSched ratSort mergePts (List.range 7) 3 = .ok [1, 2, 5, 3, 4, 1] ∧
    indexedGrahamScan ratSort mergePts (List.range 7) = .ok [1, 2, 5, 3, 4, 1] := by
  decide +kernel

example : OneChunkPerTask mergeSched ((mergePts.length + 3 - 1) / 3) := by
  simp [OneChunkPerTask, mergeSched, mergePts]

end Verif.Props
