import Verif.Props.HullPar
import Verif.Proofs.HullFan
/-!
# C41: the parallel hull with one and with several chunks
-/
set_option linter.unusedSectionVars false
set_option linter.unusedVariables false
set_option linter.unusedSimpArgs false
namespace Verif.Props
open Verif Verif.Spec Verif.Model Verif.Hull

section
variable {K : Type} [Scalar K] [Field K] [LinearOrder K] [ExactScalar K]

/-- Walking along the own hull `h` when the other one is only the start point. -/
theorem combineLoop_walk (vertices : List (V2 K)) (pt : Nat → V2 K) (a b h : List Nat) (s : Nat) (f : Bool)
    (hown : (if f then a else b) = h) (hother : (if f then b else a) = [s]) (hs : h[0]? = some s)
    (hget : ∀ i ∈ h, idx vertices i = .ok (pt i)) (hnd : h.Nodup) (h2 : 2 ≤ h.length)
    (hfan : ∀ (k i j : Nat), 0 < k → h[k]? = some i → h[k + 1]? = some j → 0 < orient (pt i) (pt j) (pt s)) :
    ∀ (d k i fuel : Nat), h[k]? = some i → k + 1 + d = h.length → d < fuel →
      combineLoop vertices a b s fuel ⟨f, i, k⟩ (h.take k).reverse = .ok h := by
  have inj : ∀ {k l i : Nat}, h[k]? = some i → h[l]? = some i → k = l := by
    intro k l i hk hl
    obtain ⟨h1, e1⟩ := List.getElem?_eq_some_iff.1 hk
    obtain ⟨h2, e2⟩ := List.getElem?_eq_some_iff.1 hl
    exact (List.Nodup.getElem_inj_iff hnd).1 (e1.trans e2.symm)
  have hsm : s ∈ h := List.mem_of_getElem? hs
  intro d
  induction d with
  | zero =>
    intro k i fuel hk hd hf
    obtain ⟨fuel, rfl⟩ : ∃ m, fuel = m + 1 := ⟨fuel - 1, by omega⟩
    have hi : i ≠ s := by
      rintro rfl
      have := inj hk hs
      omega
    have hidx : idx h ((k + 1) % h.length) = .ok s := by
      rw [show k + 1 = h.length by omega, Nat.mod_self]
      simp [idx, hs]
    have hrev : (i :: (h.take k).reverse).reverse = h := by
      have hkl : k < h.length := by omega
      have e : h = h.take k ++ h.drop k := (List.take_append_drop k h).symm
      have e2 : h.drop k = [i] := by
        rw [List.drop_eq_getElem_cons hkl, List.drop_of_length_le (by omega)]
        rw [List.getElem?_eq_getElem hkl] at hk
        simp only [Option.some_inj] at hk
        rw [hk]
      rw [List.reverse_cons, List.reverse_reverse, ← e2, ← e]
    simp only [combineLoop, hown, hother, combineFirst, bind, Except.bind, hidx]
    rw [if_pos (by simpa using hi.symm)]
    simp only [combineScan, beq_self_eq_true, Bool.or_true, if_true]
    rw [hrev]
  | succ d ih =>
    intro k i fuel hk hd hf
    obtain ⟨fuel, rfl⟩ : ∃ m, fuel = m + 1 := ⟨fuel - 1, by omega⟩
    obtain ⟨j, hj⟩ : ∃ j, h[k + 1]? = some j := ⟨_, List.getElem?_eq_getElem (by omega)⟩
    have hij : j ≠ i := by
      rintro rfl
      have := inj hk hj
      omega
    have hjs : j ≠ s := by
      rintro rfl
      have := inj hj hs
      omega
    have hidx : idx h ((k + 1) % h.length) = .ok j := by
      rw [Nat.mod_eq_of_lt (by omega)]
      simp [idx, hj]
    have hscan : combineScan vertices ⟨f, i, k⟩ [s] 0 ⟨f, j, k + 1⟩ false = .ok ⟨f, j, k + 1⟩ := by
      unfold combineScan
      by_cases h0 : s = i
      · simp [h0, combineScan]
      · have hk0 : 0 < k := by
          rcases Nat.eq_zero_or_pos k with rfl | h'
          · rw [hs] at hk; exact absurd (by simpa using hk) h0
          · exact h'
        rw [if_neg (by simp [h0, Ne.symm hjs])]
        simp only [hget i (List.mem_of_getElem? hk), hget j (List.mem_of_getElem? hj), hget s hsm, bind, Except.bind]
        rw [pointOrientation_eq, if_pos (hfan k i j hk0 hk hj)]
        simp [combineScan]
    have hstack : i :: (h.take k).reverse = (h.take (k + 1)).reverse := by
      rw [List.take_add_one, hk]
      simp
    simp only [combineLoop, hown, hother, combineFirst, bind, Except.bind, hidx]
    rw [if_pos (by simpa using hij), Nat.mod_eq_of_lt (by omega)]
    simp only [hscan]
    rw [if_neg (by simpa using hjs), hstack]
    exact ih (k + 1) j fuel hj (by omega) (by omega)

/-- `h` is a hull without its closing index: every walk along it is as for the gift wrapping -/
structure OpenHull (vertices : List (V2 K)) (pt : Nat → V2 K) (h : List Nat) (s : Nat) : Prop where
  first : h[0]? = some s
  get : ∀ i ∈ h, idx vertices i = .ok (pt i)
  nodup : h.Nodup
  len : 2 ≤ h.length
  inj : ∀ i ∈ h, ∀ j ∈ h, pt i = pt j → i = j
  fan : ∀ (k i j : Nat), 0 < k → h[k]? = some i → h[k + 1]? = some j → 0 < orient (pt i) (pt j) (pt s)
  turn : ∀ i j : Nat, h[1]? = some i → h[2]? = some j → 0 < orient (pt s) (pt i) (pt j)

theorem combine_start_start (vertices : List (V2 K)) (s fuel : Nat) :
    combineHulls (fuel + 1) vertices (.ok [s]) (.ok [s]) = .ok [s] := by
  simp [combineHulls, bind, Except.bind, combineLoop, combineFirst, idx, combineScan, Nat.mod_one]

theorem combine_hull_start (vertices : List (V2 K)) (pt : Nat → V2 K) (h : List Nat) (s fuel : Nat)
    (H : OpenHull vertices pt h s) (hf : h.length < fuel) : combineHulls fuel vertices (.ok h) (.ok [s]) = .ok h := by
  obtain ⟨t, rfl⟩ : ∃ t, h = s :: t := by
    cases h with
    | nil => have := H.len; simp at this
    | cons a t => have := H.first; simp at this; exact ⟨t, by rw [this]⟩
  simp only [combineHulls, bind, Except.bind]
  have := combineLoop_walk vertices pt (s :: t) [s] (s :: t) s true rfl rfl H.first H.get H.nodup H.len H.fan t.length 0 s
    fuel H.first (by simp; omega) (by simp at hf; omega)
  simpa using this

theorem combine_start_hull (vertices : List (V2 K)) (pt : Nat → V2 K) (h : List Nat) (s fuel : Nat)
    (H : OpenHull vertices pt h s) (hf : h.length < fuel) : combineHulls fuel vertices (.ok [s]) (.ok h) = .ok h := by
  obtain ⟨e, t, rfl⟩ : ∃ e t, h = s :: e :: t := by
    match h, H.len, H.first with
    | a :: b :: t, _, h => simp at h; exact ⟨b, t, by rw [h]⟩
  obtain ⟨fuel, rfl⟩ : ∃ m, fuel = m + 1 := ⟨fuel - 1, by omega⟩
  have hne : e ≠ s := by
    have := H.nodup
    simp at this
    exact fun h => this.1.1 h.symm
  have hgs := H.get s (by simp)
  have hge := H.get e (by simp)
  have hpp : pt s ≠ pt e := fun h => hne (H.inj s (by simp) e (by simp) h).symm
  have hscan : combineScan vertices ⟨true, s, 0⟩ (s :: e :: t) 0 ⟨false, s, 0⟩ false = .ok ⟨false, e, 1⟩ := by
    unfold combineScan
    rw [if_pos (by simp)]
    unfold combineScan
    rw [if_neg (by simp [hne])]
    simp only [hgs, hge, bind, Except.bind]
    have ho : orient (pt s) (pt s) (pt e) = 0 := by simp only [orient]; ring
    rw [pointOrientation_eq, if_neg (by rw [ho]; exact lt_irrefl _), if_pos ho]
    simp only [distSq_eq]
    rw [if_pos (by
      simp only [exact_simp]
      rw [sqDist2_self]
      exact sqDist2_pos hpp)]
    cases t with
    | nil => rfl
    | cons j t =>
      have hnd := H.nodup
      simp only [List.nodup_cons, List.mem_cons, not_or] at hnd
      unfold combineScan
      have h1 : (j == s) = false := by simpa using Ne.symm hnd.1.2.1
      have h2 : (j == e) = false := by simpa using Ne.symm hnd.2.1.1
      rw [if_neg (by simp [h1, h2])]
      simp only [hgs, hge, H.get j (by simp), bind, Except.bind]
      rw [pointOrientation_eq, if_pos (H.turn e j rfl rfl)]
      rfl
  simp only [combineHulls, bind, Except.bind]
  rw [show combineLoop vertices [s] (s :: e :: t) s (fuel + 1) ⟨true, s, 0⟩ [] =
      combineLoop vertices [s] (s :: e :: t) s fuel ⟨false, e, 1⟩ [s] from by
    simp only [combineLoop, combineFirst, bind, Except.bind, idx, if_true]
    simp [hscan, hne, Nat.mod_one]]
  have := combineLoop_walk vertices pt [s] (s :: e :: t) (s :: e :: t) s false rfl rfl H.first H.get H.nodup H.len H.fan
    t.length 1 e fuel rfl (by simp; omega) (by simp at hf; omega)
  simpa using this

theorem reduce_start (vertices : List (V2 K)) (s fuel : Nat) : ∀ sched : Sched,
    parReduce (.ok [s]) (combineOp (fuel + 1) vertices) sched [] = .ok [s] := by
  intro sched
  induction sched with
  | leaf => rfl
  | node k l r ihl ihr => simp only [parReduce, List.take_nil, List.drop_nil, ihl, ihr, combineOp, combine_start_start]

theorem reduce_one (vertices : List (V2 K)) (pt : Nat → V2 K) (h : List Nat) (s fuel : Nat)
    (H : OpenHull vertices pt h s) (hf : h.length < fuel) : ∀ sched : Sched,
    parReduce (.ok [s]) (combineOp fuel vertices) sched [.ok h] = .ok h := by
  obtain ⟨fuel, rfl⟩ : ∃ m, fuel = m + 1 := ⟨fuel - 1, by omega⟩
  intro sched
  induction sched with
  | leaf => simp only [parReduce, List.foldl_cons, List.foldl_nil, combineOp, combine_start_hull vertices pt h s _ H hf]
  | node k l r ihl ihr =>
    cases k with
    | zero =>
      simp only [parReduce, List.take_zero, List.drop_zero, ihr, reduce_start, combineOp,
        combine_start_hull vertices pt h s _ H hf]
    | succ k =>
      simp only [parReduce, List.take_succ_cons, List.take_nil, List.drop_succ_cons, List.drop_nil, ihl, reduce_start,
        combineOp, combine_hull_start vertices pt h s _ H hf]

/-- If all indices fit in one chunk, `convex_hull_par` returns the hull, which is the answer of
`indexed_graham_scan`, for every schedule of the reduction (also those with idle tasks). -/
theorem C41_one_chunk_is_hull [ExactAtan2 K] (srt : List (Nat × K × K) → List (Nat × K × K))
    (hsrt : Sorts angleCmp srt) (vertices : List (V2 K)) (indices : List Nat) (pt : Nat → V2 K)
    (hpt : ∀ i ∈ indices, vertices[i]? = some (pt i)) (h4 : 4 ≤ indices.length)
    (h5 : indices.head? = indices.getLast? → 5 ≤ indices.length)
    (hdiff : ∀ i ∈ indices, ∀ j ∈ indices, pt i = pt j → i = j)
    (hnd : indices.dropLast.Nodup) (hnd2 : indices.head? ≠ indices.getLast? → indices.Nodup)
    (chunk : Nat) (hchunk : indices.length ≤ chunk) (sched : Sched) (fuel : Nat) (hfuel : indices.length < fuel) :
    convexHullPar fuel sched srt vertices indices chunk = indexedGrahamScan srt vertices indices ∧
    ∃ hull, convexHullPar fuel sched srt vertices indices chunk = .ok hull ∧ (∀ i ∈ hull, i ∈ indices) ∧
      IsHullLoop (indices.map pt) (hull.map pt) ∧ StartsLowest (indices.map pt) (hull.map pt) := by
  have hl := openIndices_length indices h4 h5
  have hmem := openIndices_mem indices h4
  have hsub := openIndices_sub indices
  have hshort := indexedShort_long vertices indices hl
  have hn : (openIndices indices).Nodup := by
    unfold openIndices
    split
    · exact hnd
    · rename_i h; exact hnd2 h
  have hself := openIndices_self hn (by omega)
  have hshort2 := indexedShort_long vertices (openIndices indices) (by rw [hself]; exact hl)
  rw [hself] at hshort2
  have hget : ∀ i ∈ openIndices indices, idx vertices i = .ok (pt i) :=
    fun i hi => by simp [idx, hpt i ((hmem i).1 hi)]
  have hdiff' : ∀ i ∈ openIndices indices, ∀ j ∈ openIndices indices, pt i = pt j → i = j :=
    fun i hi j hj => hdiff i ((hmem i).1 hi) j ((hmem j).1 hj)
  have hne' : ∃ i ∈ openIndices indices, ∃ j ∈ openIndices indices, i ≠ j := by
    refine ⟨(openIndices indices)[0], List.getElem_mem _, (openIndices indices)[1], List.getElem_mem _, fun e => ?_⟩
    exact absurd ((List.Nodup.getElem_inj_iff hn).1 e) (by omega)
  have h0 : openIndices indices ≠ [] := by intro e; rw [e] at hl; simp at hl
  obtain ⟨k, s, h, hv, e1, e2, hno, hhd, hlen, hhsub, hh, -⟩ := indexedGrahamNoLoop_core srt hsrt vertices
    (openIndices indices) (openIndices indices) pt hshort2 h0 hget hdiff' hne'
  have hno0 : indexedGrahamNoLoop srt vertices indices none = .ok h := by
    rw [← hno]
    unfold indexedGrahamNoLoop
    rw [hshort, hshort2]
  have hscan : indexedGrahamScan srt vertices indices = .ok (closeLoop h) := by
    unfold indexedGrahamScan
    rw [hno0]
    rfl
  have hpl : ∀ {k i : Nat}, h[k]? = some i → ((h ++ [s]).map pt)[k]? = some (pt i) := by
    intro k i hk
    have := (List.getElem?_eq_some_iff.1 hk).1
    rw [List.getElem?_map, List.getElem?_append_left this, hk]
    rfl
  have hlt : ((h ++ [s]).map pt).length = h.length + 1 := by simp
  have hs0 : h[0]? = some s := by rw [← List.head?_eq_getElem?]; exact hhd
  have hsis : s ∈ openIndices indices := List.mem_of_getElem? e2
  have H : OpenHull vertices pt h s := by
    refine ⟨hs0, fun i hi => hget i (hhsub i hi), ?_, hlen, fun i hi j hj => hdiff' i (hhsub i hi) j (hhsub j hj), ?_, ?_⟩
    · obtain ⟨t, rfl⟩ : ∃ t, h = s :: t := by
        cases h with
        | nil => simp at hlen
        | cons a t => simp at hhd; exact ⟨t, by rw [hhd]⟩
      have h1 := hh.once
      have h2 : (t ++ [s]).Nodup := by
        have : ((s :: t ++ [s]).map pt).tail = (t ++ [s]).map pt := by simp
        rw [this] at h1
        exact List.Nodup.of_map _ h1
      rw [List.nodup_append] at h2
      rw [List.nodup_cons]
      exact ⟨fun hm => h2.2.2 s hm s (by simp) rfl, h2.1⟩
    · intro k i j hk hi hj
      rw [← orient_rot]
      exact hh.fan (hpl hs0) (hpl hi) (hpl hj) hk (by
        rw [hlt]
        have := (List.getElem?_eq_some_iff.1 hj).1
        omega)
    · intro i j hi hj
      exact hh.turn (by
        rw [hlt]
        have := (List.getElem?_eq_some_iff.1 hj).1
        omega) 0 _ _ _ (hpl hs0) (hpl hi) (hpl hj)
  have hhle : h.length ≤ indices.length := by
    exact le_trans (List.Subperm.length_le (List.subperm_of_subset H.nodup hhsub)) hsub.2
  have hpar : convexHullPar fuel sched srt vertices indices chunk = .ok (closeLoop h) := by
    unfold convexHullPar
    rw [hshort]
    simp only
    rw [if_neg (by omega)]
    have hchunks : chunksOf chunk (openIndices indices).length (openIndices indices) = [openIndices indices] := by
      obtain ⟨m, hm⟩ : ∃ m, (openIndices indices).length = m + 1 := ⟨(openIndices indices).length - 1, by omega⟩
      have h1 : (openIndices indices).take chunk = openIndices indices := List.take_of_length_le (by omega)
      have h2 : (openIndices indices).drop chunk = [] := List.drop_of_length_le (by omega)
      rw [hm]
      cases ho : openIndices indices with
      | nil => exact absurd ho h0
      | cons a l =>
        rw [ho] at h1 h2
        simp only [chunksOf, h1, h2]
    have hstart : parStart vertices [openIndices indices] = .ok s := by
      have hk : idx (openIndices indices) k = .ok s := by simp [idx, e2]
      simp only [parStart, List.mapM_cons, List.mapM_nil, bind, Except.bind, hv, e1, hk, pure, Except.pure]
      simp only [findLowest, lowestLoop, hget s hsis, bind, Except.bind]
      rfl
    rw [hchunks]
    simp only [bind, Except.bind, hstart, List.map_cons, List.map_nil, hno]
    rw [reduce_one vertices pt h s fuel H (by omega) sched]
  refine ⟨by rw [hpar, hscan], ?_⟩
  obtain ⟨hull, g1, g2, g3⟩ := C40_indexed_graham_scan_is_hull srt hsrt vertices indices pt hpt h4 h5 hdiff
    (by obtain ⟨i, hi, j, hj, hij⟩ := hne'; exact ⟨i, (hmem i).1 hi, j, (hmem j).1 hj, hij⟩)
  rw [hscan] at g1
  simp only [Except.ok.injEq] at g1
  subst g1
  exact ⟨_, hpar, g2, g3⟩
end

/-! ## several chunks -/

section
variable {α : Type} [Scalar α]

/-- one round of the loop of `combineHulls` -/
def combineNext (vertices : List (V2 α)) (a b : List Nat) (p : VertexIndex) : Except Err VertexIndex := do
  let e ← combineFirst (if p.fromA then a else b) (if p.fromA then b else a) p
  combineScan vertices p (if p.fromA then b else a) 0 e false

theorem combineLoop_next (vertices : List (V2 α)) (a b : List Nat) (start fuel : Nat) (p e : VertexIndex)
    (hull : List Nat) (h : combineNext vertices a b p = .ok e) :
    combineLoop vertices a b start (fuel + 1) p hull =
      if e.index == start then .ok (p.index :: hull).reverse
      else combineLoop vertices a b start fuel e (p.index :: hull) := by
  unfold combineNext at h
  obtain ⟨e1, h1, h2⟩ := except_bind_ok h
  simp only [combineLoop, h1, h2, bind, Except.bind]

/-- rounds that never reach the start -/
theorem combineLoop_forever (vertices : List (V2 α)) (a b : List Nat) (start : Nat) (S : List VertexIndex)
    (hS : ∀ p ∈ S, ∃ e ∈ S, combineNext vertices a b p = .ok e ∧ e.index ≠ start) :
    ∀ (fuel : Nat) (p : VertexIndex) (hull : List Nat), p ∈ S →
      combineLoop vertices a b start fuel p hull = .error .diverge := by
  intro fuel
  induction fuel with
  | zero => intro p hull _; rfl
  | succ fuel ih =>
    intro p hull hp
    obtain ⟨e, he, h1, h2⟩ := hS p hp
    rw [combineLoop_next vertices a b start fuel p e hull h1, if_neg (by simpa using h2)]
    exact ih e _ he

/-- more rounds do not change an answer -/
theorem combineLoop_det (vertices : List (V2 α)) (a b : List Nat) (start : Nat) (r : List Nat) :
    ∀ (c : Nat) (p : VertexIndex) (hull : List Nat), combineLoop vertices a b start c p hull = .ok r →
      ∀ fuel, combineLoop vertices a b start fuel p hull = .ok r ∨
        combineLoop vertices a b start fuel p hull = .error .diverge := by
  intro c
  induction c with
  | zero => intro p hull h; simp [combineLoop] at h
  | succ c ih =>
    intro p hull h fuel
    cases fuel with
    | zero => exact Or.inr rfl
    | succ fuel =>
      cases hn : combineNext vertices a b p with
      | error x =>
        exfalso
        unfold combineLoop at h
        obtain ⟨e1, h1, h2⟩ := except_bind_ok h
        obtain ⟨e2, h2, h3⟩ := except_bind_ok h2
        unfold combineNext at hn
        rw [h1] at hn
        simp only [bind, Except.bind] at hn
        rw [h2] at hn
        simp at hn
      | ok e =>
        rw [combineLoop_next _ _ _ _ _ _ _ _ hn] at h ⊢
        by_cases hs : (e.index == start) = true
        · rw [if_pos hs] at h ⊢; exact Or.inl h
        · rw [if_neg hs] at h ⊢; exact ih e _ h fuel

theorem combineHulls_det (vertices : List (V2 α)) (a b r : List Nat) (c : Nat)
    (h : combineHulls c vertices (.ok a) (.ok b) = .ok r) (fuel : Nat) :
    combineHulls fuel vertices (.ok a) (.ok b) = .ok r ∨ combineHulls fuel vertices (.ok a) (.ok b) = .error .diverge := by
  cases a with
  | nil => left; simpa [combineHulls, bind, Except.bind] using h
  | cons s a =>
    cases b with
    | nil => left; simpa [combineHulls, bind, Except.bind] using h
    | cons t b =>
      simp only [combineHulls, bind, Except.bind] at h ⊢
      exact combineLoop_det vertices _ _ s r c _ _ h fuel
end

/-- a sort by angle and distance on rational points, for evaluation -/
def ratSort : List (Nat × ℚ × ℚ) → List (Nat × ℚ × ℚ) := insSort (fun a b => angleCmp a b != .gt)

/-- The hypotheses of `C41_one_chunk_is_hull` are met. -/
example : (fun (vertices : List (V2 ℚ)) (indices : List Nat) (pt : Nat → V2 ℚ) =>
    (∀ i ∈ indices, vertices[i]? = some (pt i)) ∧ 4 ≤ indices.length ∧
    (indices.head? = indices.getLast? → 5 ≤ indices.length) ∧
    (∀ i ∈ indices, ∀ j ∈ indices, pt i = pt j → i = j) ∧ indices.dropLast.Nodup ∧
    (indices.head? ≠ indices.getLast? → indices.Nodup) ∧
    convexHullPar 100 .leaf ratSort vertices indices 6 = .ok [0, 2, 3, 4, 0])
    [⟨0, 0⟩, ⟨1, 1⟩, ⟨2, 0⟩, ⟨2, 2⟩, ⟨0, 2⟩, ⟨7, 0⟩] [4, 3, 2, 1, 0, 4]
    (fun i => [⟨0, 0⟩, ⟨1, 1⟩, ⟨2, 0⟩, ⟨2, 2⟩, ⟨0, 2⟩, ⟨7, 0⟩].getD i ⟨0, 0⟩) := by
  decide +kernel

/-- With two chunks and one task the loop `combine_indexed_convex_hull` stops searching too early: the
result does not contain all points (the point `(0, 3)` is outside), although no three of the points are
on a line. -/
theorem C41_two_chunks_one_task_lose_points :
    convexHullPar 100 .leaf ratSort [⟨0, 0⟩, ⟨0, 3⟩, ⟨4, 1⟩, ⟨3, 4⟩, ⟨2, 4⟩] [0, 1, 2, 3, 4] 3 = .ok [0, 2, 3, 4, 0] ∧
    orient (⟨2, 4⟩ : V2 ℚ) ⟨0, 0⟩ ⟨0, 3⟩ < 0 := by
  decide +kernel

/-- The same input with one task for every chunk: the answer is the hull.  So the result depends on the
schedule. -/
theorem C41_result_depends_on_schedule :
    convexHullPar 100 (.node 1 .leaf .leaf) ratSort ([⟨0, 0⟩, ⟨0, 3⟩, ⟨4, 1⟩, ⟨3, 4⟩, ⟨2, 4⟩] : List (V2 ℚ)) [0, 1, 2, 3, 4] 3 =
      .ok [0, 2, 3, 4, 1, 0] := by
  decide +kernel

/-- Also with one task for every chunk the result can be wrong, if points are on a line: here the loop
goes back on itself along `y = 4`, and `(4, 0)` is not left of the edge from `(2, 4)` to `(4, 4)`. -/
theorem C41_two_chunks_two_tasks_not_convex :
    convexHullPar 100 (.node 1 .leaf .leaf) ratSort
      [⟨3, 4⟩, ⟨4, 0⟩, ⟨1, 0⟩, ⟨4, 4⟩, ⟨1, 4⟩, ⟨2, 4⟩, ⟨5, 4⟩] [0, 1, 2, 3, 4, 5, 6] 4 = .ok [2, 1, 6, 5, 3, 4, 2] ∧
    orient (⟨2, 4⟩ : V2 ℚ) ⟨4, 4⟩ ⟨4, 0⟩ < 0 := by
  decide +kernel

def divergePts : List (V2 ℚ) := [⟨3, 4⟩, ⟨3, 0⟩, ⟨3, 5⟩, ⟨3, 1⟩, ⟨2, 3⟩, ⟨0, 4⟩]

/-- `convex_hull_par` does not terminate for six points (four of them on a line) in two chunks, with one
task for every chunk. -/
theorem C41_two_chunks_diverge (fuel : Nat) :
    convexHullPar fuel (.node 1 .leaf .leaf) ratSort divergePts [0, 1, 2, 3, 4, 5] 3 = .error .diverge := by
  have e0 : indexedShort divergePts [0, 1, 2, 3, 4, 5] = .inr [0, 1, 2, 3, 4, 5] := rfl
  have e1 : chunksOf 3 ([0, 1, 2, 3, 4, 5] : List Nat).length [0, 1, 2, 3, 4, 5] = [[0, 1, 2], [3, 4, 5]] := rfl
  have e2 : parStart divergePts [[0, 1, 2], [3, 4, 5]] = .ok 5 := by decide +kernel
  have e3 : indexedGrahamNoLoop ratSort divergePts [0, 1, 2] none = .ok [0, 2, 1] := by decide +kernel
  have e4 : indexedGrahamNoLoop ratSort divergePts [3, 4, 5] none = .ok [3, 4, 5] := by decide +kernel
  have l : combineHulls 10 divergePts (.ok [5]) (.ok [0, 2, 1]) = .ok [5, 1, 0, 2] := by decide +kernel
  have r : combineHulls 10 divergePts (.ok [5]) (.ok [3, 4, 5]) = .ok [5, 3, 4] := by decide +kernel
  have d : combineHulls fuel divergePts (.ok [5, 1, 0, 2]) (.ok [5, 3, 4]) = .error .diverge := by
    simp only [combineHulls, bind, Except.bind]
    refine combineLoop_forever divergePts _ _ 5 [⟨true, 5, 0⟩, ⟨true, 1, 1⟩, ⟨true, 0, 2⟩, ⟨false, 4, 2⟩] ?_ fuel _ _ (by decide)
    decide +kernel
  unfold convexHullPar
  rw [e0]
  simp only
  rw [if_neg (by decide), e1, e2]
  simp only [bind, Except.bind, List.map_cons, List.map_nil, e3, e4, parReduce, List.take_succ_cons, List.take_zero,
    List.drop_succ_cons, List.drop_zero, List.foldl_cons, List.foldl_nil]
  simp only [combineOp]
  rcases combineHulls_det _ _ _ _ _ l fuel with hl | hl <;> rcases combineHulls_det _ _ _ _ _ r fuel with hr | hr <;>
    rw [hl, hr] <;> simp only [d] <;> rfl

end Verif.Props
