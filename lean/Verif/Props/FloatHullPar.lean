import Verif.Props.FloatGraham
import Verif.Props.FloatContain
import Verif.Proofs.HullTransferPar
import Verif.Props.HullMerge
/-!
# C85: `indexed_graham_scan` and the parallel hull in floating point

As in C74, for points on a grid on which the tests of the scans are exact, and an `atan2` that orders
directions well enough.
-/
namespace Verif.Props
open Verif Verif.Model Verif.Spec Scalar Verif.Proofs.Transfer Verif.Proofs.FloatHull
set_option linter.unusedSectionVars false
set_option linter.unusedVariables false

section
variable {f : Fmt} [Libm f]

/-- the lowest of the indexed points -/
theorem findLowest_indexed {s B : ℤ} (G : GoodGrid f s B) (vertices : List (V2 (Flt f)))
    (hin : ∀ p ∈ vertices, OnGrid s B p) (pt : Nat → V2 (Flt f)) (js : List Nat) (h0 : js ≠ [])
    (hpt : ∀ i ∈ js, vertices[i]? = some (pt i)) :
    ∃ k st o, findLowest vertices.isEmpty (idx vertices) js = .ok (k, o) ∧
      findLowest vertices.isEmpty (idx (vertices.map exact)) js = .ok (k, exact o) ∧ js[k]? = some st ∧
      OnGrid s B o ∧ exact o = exact (pt st) ∧ ∀ i ∈ js, LeftOrBelow (exact o) (exact (pt i)) := by
  obtain ⟨e1, e2⟩ := findLowest_eq (get := idx vertices) (get' := idx (vertices.map exact)) (g := id) (agreeQ G)
    vertices.isEmpty js (fun i _ => related_idx hin i)
  rw [List.map_id] at e1
  obtain ⟨k, st, g1, g2, g3⟩ := Hull.findLowest_ok (idx (vertices.map exact)) (fun i => exact (pt i)) js h0
    (fun i hi => by rw [idx_map]; simp [idx, hpt i hi, Except.map])
  have hv : vertices.isEmpty = false := by
    obtain ⟨i, hi⟩ := List.exists_mem_of_ne_nil js h0
    have := hpt i hi
    cases vertices with
    | nil => simp at this
    | cons => rfl
  rw [hv] at e1 e2 ⊢
  rw [e1] at g1
  cases hc : findLowest false (idx vertices) js with
  | error e => rw [hc] at g1; cases g1
  | ok r =>
    rw [hc] at g1 e1
    simp only [Except.map, Except.ok.injEq] at g1
    obtain ⟨k', o⟩ := r
    simp only [Prod.mk.injEq] at g1
    obtain ⟨rfl, g1⟩ := g1
    refine ⟨k', st, o, rfl, e1, g2, e2 _ hc, g1, ?_⟩
    intro i hi
    rw [g1]
    rcases g3 i hi with h | h | ⟨h, h'⟩
    · rw [h]; exact Or.inr ⟨rfl, le_refl _⟩
    · exact Or.inl h
    · exact Or.inr ⟨h, h'.le⟩

open Classical in
/-- For every sort of float entries there is a sort of rational entries with which all scans of the
indexed points do the same. -/
theorem exact_sort {s B : ℤ} (G : GoodGrid f s B) (hA : AtanOk f s B)
    (srt : List (Nat × Flt f × Flt f) → List (Nat × Flt f × Flt f))
    (hsrt : ∀ l, (∀ e ∈ l, e.2.1 ≠ .nan ∧ e.2.2 ≠ .nan) →
      (srt l).Perm l ∧ (srt l).Pairwise (fun a b => angleCmp a b ≠ .gt))
    (vertices : List (V2 (Flt f))) (hin : ∀ p ∈ vertices, OnGrid s B p) (indices : List Nat)
    (pt : Nat → V2 (Flt f)) (hpt : ∀ i ∈ indices, vertices[i]? = some (pt i))
    (hdiff : ∀ i ∈ indices, ∀ j ∈ indices, exact (pt i) = exact (pt j) → i = j) :
    ∃ srt' : List (Nat × ℚ × ℚ) → List (Nat × ℚ × ℚ), Sorts angleCmp srt' ∧
      ∀ is : List Nat, (∀ i ∈ is, i ∈ indices) →
        indexedGrahamNoLoop srt' (vertices.map exact) is none = indexedGrahamNoLoop srt vertices is none := by
  have hd : ∀ i ∈ indices, OnGrid s B (pt i) := fun i hi => hin _ (List.mem_of_getElem? (hpt i hi))
  let ent : V2 (Flt f) → List Nat → List (Nat × Flt f × Flt f) := fun o js => js.map (fun i => angleEntry o i (pt i))
  let ent' : V2 ℚ → List Nat → List (Nat × ℚ × ℚ) := fun o js => js.map (fun i => angleEntry o i (exact (pt i)))
  let im : V2 (Flt f) → Nat × Flt f × Flt f → Nat × ℚ × ℚ := fun o e => angleEntry (exact o) e.1 (exact (pt e.1))
  let Q : List Nat → V2 (Flt f) → Prop := fun js o => (∀ i ∈ js, i ∈ indices) ∧
    ∃ k, findLowest vertices.isEmpty (idx vertices) js = .ok (k, o)
  let P : List (Nat × ℚ × ℚ) → Prop := fun l => ∃ o, Q (l.map (·.1)) o ∧ l = ent' (exact o) (l.map (·.1))
  let res : List Nat → V2 (Flt f) → List (Nat × ℚ × ℚ) := fun js o =>
    insertAll (((ent o js).filter (fun e => (pt e.1).beq o)).map (im o))
      (((srt (ent o js)).filter (fun e => !(pt e.1).beq o)).map (im o))
  let srt' : List (Nat × ℚ × ℚ) → List (Nat × ℚ × ℚ) := fun l =>
    if h : P l then res (l.map (·.1)) h.choose else l.mergeSort (fun a b => angleCmp a b != .gt)
  have hent : ∀ o js, ent' (exact o) js = (ent o js).map (im o) := by
    intro o js
    simp only [ent, ent', im, List.map_map]
    rfl
  have hQ : ∀ js o, Q js o → OnGrid s B o ∧ (∀ i ∈ js, LeftOrBelow (exact o) (exact (pt i))) ∧
      (srt (ent o js)).Perm (ent o js) ∧ (srt (ent o js)).Pairwise (fun a b => angleCmp a b ≠ .gt) := by
    rintro js o ⟨hjs, k, hk⟩
    have h0 : js ≠ [] := by
      rintro rfl
      cases hb : vertices.isEmpty <;> simp [hb, findLowest] at hk
    obtain ⟨k', st, o', a1, a2, a3, a4, a5, a6⟩ := findLowest_indexed G vertices hin pt js h0 (fun i hi => hpt i (hjs i hi))
    rw [a1] at hk
    simp only [Except.ok.injEq, Prod.mk.injEq] at hk
    obtain ⟨rfl, rfl⟩ := hk
    refine ⟨a4, a6, hsrt _ ?_⟩
    intro e he
    obtain ⟨i, hi, rfl⟩ := List.mem_map.1 he
    have hp := hd i (hjs i hi)
    refine ⟨?_, ne_nan_of_pcmp (pcmp_dist G a4 hp hp)⟩
    show Scalar.atan2 ((pt i).sub o').y ((pt i).sub o').x ≠ .nan
    by_cases hpo : exact (pt i) = exact o'
    · exact hA.self o' (pt i) a4 hp hpo
    · exact ne_nan_of_pcmp (hA.order o' (pt i) (pt i) a4 hp hp (a6 i hi) (a6 i hi) hpo hpo)
  have hsrt' : Sorts angleCmp srt' := by
    intro l
    by_cases h : P l
    · have hs : srt' l = res (l.map (·.1)) h.choose := dif_pos h
      obtain ⟨q1, q2⟩ := h.choose_spec
      generalize h.choose = o at hs q1 q2
      obtain ⟨ho, hlow, r2, r3⟩ := hQ _ o q1
      have hjs := q1.1
      rw [hs]
      refine ⟨?_, ?_⟩
      · refine (insertAll_perm _ _).trans ?_
        refine List.Perm.trans ?_ (List.Perm.of_eq (q2.trans (hent o _)).symm)
        rw [← List.map_append]
        refine List.Perm.map _ ?_
        refine ((r2.filter _).append_left _).trans ?_
        exact List.filter_append_perm (fun e => (pt e.1).beq o) (ent o _)
      · refine insertAll_sorted _ _ ?_
        rw [List.pairwise_map]
        refine (r3.filter _).imp_of_mem ?_
        intro a b ha hb hab
        obtain ⟨ha, ha'⟩ := List.mem_filter.1 ha
        obtain ⟨hb, hb'⟩ := List.mem_filter.1 hb
        obtain ⟨p, hp, rfl⟩ := List.mem_map.1 (r2.mem_iff.1 ha)
        obtain ⟨q, hq, rfl⟩ := List.mem_map.1 (r2.mem_iff.1 hb)
        have np : exact (pt p) ≠ exact o := by
          have h1 : (!(pt p).beq o) = true := ha'
          rw [beq_exact G (hd p (hjs p hp)) ho] at h1; simpa using h1
        have nq : exact (pt q) ≠ exact o := by
          have h1 : (!(pt q).beq o) = true := hb'
          rw [beq_exact G (hd q (hjs q hq)) ho] at h1; simpa using h1
        have := angleCmp_exact G hA ho (hd p (hjs p hp)) (hd q (hjs q hq)) (hlow p hp) (hlow q hq) np nq
        have hab' : angleCmp (angleEntry o (pt p) (pt p)) (angleEntry o (pt q) (pt q)) ≠ .gt := hab
        rw [← this] at hab'
        exact hab'
    · have hs : srt' l = l.mergeSort (fun a b => angleCmp a b != .gt) := dif_neg h
      rw [hs]; exact sorts_mergeSort l
  refine ⟨srt', hsrt', ?_⟩
  intro is his
  unfold indexedGrahamNoLoop
  rw [indexedShort_eq (agreeQ G) hin]
  cases hsh : indexedShort vertices is with
  | inl r => rfl
  | inr js =>
    have hjo := indexedShort_mem hsh
    have hjs : ∀ i ∈ js, i ∈ indices := by
      intro i hi; rw [hjo] at hi; exact his i (openIndices_mem' hi)
    have h0 : js ≠ [] := by
      rintro rfl
      unfold indexedShort at hsh
      split at hsh
      · cases hsh
      · rw [← hjo] at hsh; cases hsh
    obtain ⟨k, st, o, a1, a2, a3, a4, a5, a6⟩ := findLowest_indexed G vertices hin pt js h0 (fun i hi => hpt i (hjs i hi))
    have hst : st ∈ js := List.mem_of_getElem? a3
    have hk : idx js k = .ok st := by simp [idx, a3]
    have m1 : js.mapM (fun i => do
        let p ← idx vertices i
        (.ok (angleEntry o i p) : Except Err (Nat × Flt f × Flt f))) = .ok (ent o js) :=
      mapM_ok _ _ js (fun i hi => by simp [idx, hpt i (hjs i hi), bind, Except.bind])
    have m2 : js.mapM (fun i => do
        let p ← idx (vertices.map exact) i
        (.ok (angleEntry (exact o) i p) : Except Err (Nat × ℚ × ℚ))) = .ok (ent' (exact o) js) :=
      mapM_ok _ _ js (fun i hi => by rw [idx_map]; simp [idx, hpt i (hjs i hi), bind, Except.bind, Except.map])
    simp only [List.isEmpty_map]
    simp only [bind, Except.bind] at m1 m2 ⊢
    rw [a1, a2]
    simp only
    rw [hk]
    simp only
    rw [m1, m2]
    simp only
    have hQo : Q js o := ⟨hjs, k, a1⟩
    obtain ⟨ho, hlow, r2, r3⟩ := hQ js o hQo
    have hfst : (ent' (exact o) js).map (·.1) = js := by
      simp only [ent', List.map_map]
      exact List.map_id' js
    have hP : P (ent' (exact o) js) := ⟨o, by rw [hfst]; exact hQo, by rw [hfst]⟩
    have hs : srt' (ent' (exact o) js) = res js o := by
      have e1 : srt' (ent' (exact o) js) = res ((ent' (exact o) js).map (·.1)) hP.choose := dif_pos hP
      obtain ⟨q1, q2⟩ := hP.choose_spec
      generalize hP.choose = o' at e1 q1 q2
      rw [hfst] at e1 q1
      obtain ⟨-, k', hk'⟩ := q1
      rw [a1] at hk'
      simp only [Except.ok.injEq, Prod.mk.injEq] at hk'
      rw [e1, ← hk'.2]
    have hskip : ∀ i ∈ js, (i == st) = (pt i).beq o := by
      intro i hi
      rw [beq_exact G (hd i (hjs i hi)) ho, Bool.eq_iff_iff, beq_iff_eq, decide_eq_true_iff, a5]
      exact ⟨fun e => by rw [e], hdiff i (hjs i hi) st (hjs st hst)⟩
    have hmem : ∀ e ∈ srt (ent o js), ∃ i ∈ js, angleEntry o i (pt i) = e :=
      fun e he => List.mem_map.1 (r2.mem_iff.1 he)
    have hlists : ((srt' (ent' (exact o) js)).map (·.1)).filter (fun i => !(i == st)) =
        ((srt (ent o js)).map (·.1)).filter (fun i => !(i == st)) := by
      rw [hs, List.filter_map, List.filter_map]
      simp only [res]
      rw [filter_insertAll]
      · rw [List.filter_map, List.filter_filter, List.map_map]
        rw [List.filter_congr (q := fun e => !(e.1 == st)) (by
          intro e he
          obtain ⟨i, hi, rfl⟩ := hmem e he
          show (!(i == st) && !(pt i).beq o) = !(i == st)
          rw [hskip i hi, Bool.and_self])]
        rfl
      · intro a ha
        obtain ⟨e, he, rfl⟩ := List.mem_map.1 ha
        obtain ⟨he, he'⟩ := List.mem_filter.1 he
        obtain ⟨i, hi, rfl⟩ := List.mem_map.1 he
        show (!(i == st)) = false
        rw [hskip i hi]
        have h1 : (pt i).beq o = true := he'
        rw [h1]; rfl
    rw [grahamLoop_filter (get := idx (vertices.map exact)), hlists, grahamLoop_filter (get := idx vertices)]
    have := grahamLoop_eq (get := idx vertices) (get' := idx (vertices.map exact)) (g := id) (agreeQ G)
      (fun i => i == st) (fun i => i == st)
      (((srt (ent o js)).map (·.1)).filter (fun i => !(i == st))) [st] (fun i _ => related_idx hin i)
      (fun i _ => related_idx hin i) (fun _ _ => rfl)
    rw [List.map_id, List.map_id] at this
    rw [this]
    generalize grahamLoop (idx vertices) (fun i => i == st) _ [st] = g
    cases g with
    | error e => rfl
    | ok h => simp [Except.map]

/-- C85: the indexed Graham scan on floats. -/
theorem C85_indexed_graham_scan_on_floats {s B : ℤ} (G : GoodGrid f s B) (hA : AtanOk f s B)
    (srt : List (Nat × Flt f × Flt f) → List (Nat × Flt f × Flt f))
    (hsrt : ∀ l, (∀ e ∈ l, e.2.1 ≠ .nan ∧ e.2.2 ≠ .nan) →
      (srt l).Perm l ∧ (srt l).Pairwise (fun a b => angleCmp a b ≠ .gt))
    (vertices : List (V2 (Flt f))) (hin : ∀ p ∈ vertices, OnGrid s B p) (indices : List Nat)
    (pt : Nat → V2 (Flt f)) (hpt : ∀ i ∈ indices, vertices[i]? = some (pt i)) (h4 : 4 ≤ indices.length)
    (h5 : indices.head? = indices.getLast? → 5 ≤ indices.length)
    (hdiff : ∀ i ∈ indices, ∀ j ∈ indices, exact (pt i) = exact (pt j) → i = j)
    (hne : ∃ i ∈ indices, ∃ j ∈ indices, i ≠ j) :
    ∃ hull, indexedGrahamScan srt vertices indices = .ok hull ∧ (∀ i ∈ hull, i ∈ indices) ∧
      IsHullLoop (indices.map (fun i => exact (pt i))) (hull.map (fun i => exact (pt i))) ∧
      StartsLowest (indices.map (fun i => exact (pt i))) (hull.map (fun i => exact (pt i))) := by
  obtain ⟨srt', h1, h2⟩ := exact_sort G hA srt hsrt vertices hin indices pt hpt hdiff
  obtain ⟨hull, e1, e2⟩ := C40_indexed_graham_scan_is_hull srt' h1 (vertices.map exact) indices (fun i => exact (pt i))
    (fun i hi => by rw [List.getElem?_map, hpt i hi]; rfl) h4 h5 hdiff hne
  refine ⟨hull, ?_, e2⟩
  unfold indexedGrahamScan at e1 ⊢
  rw [← h2 indices (fun i hi => hi)]
  exact e1

/-- C85: the parallel hull on floats, if all indices fit into one chunk. -/
theorem C85_one_chunk_on_floats {s B : ℤ} (G : GoodGrid f s B) (hA : AtanOk f s B)
    (srt : List (Nat × Flt f × Flt f) → List (Nat × Flt f × Flt f))
    (hsrt : ∀ l, (∀ e ∈ l, e.2.1 ≠ .nan ∧ e.2.2 ≠ .nan) →
      (srt l).Perm l ∧ (srt l).Pairwise (fun a b => angleCmp a b ≠ .gt))
    (vertices : List (V2 (Flt f))) (hin : ∀ p ∈ vertices, OnGrid s B p) (indices : List Nat)
    (pt : Nat → V2 (Flt f)) (hpt : ∀ i ∈ indices, vertices[i]? = some (pt i)) (h4 : 4 ≤ indices.length)
    (h5 : indices.head? = indices.getLast? → 5 ≤ indices.length)
    (hdiff : ∀ i ∈ indices, ∀ j ∈ indices, exact (pt i) = exact (pt j) → i = j)
    (hnd : indices.dropLast.Nodup) (hnd2 : indices.head? ≠ indices.getLast? → indices.Nodup)
    (chunk : Nat) (hchunk : indices.length ≤ chunk) (sched : Sched) (fuel : Nat) (hfuel : indices.length < fuel) :
    convexHullPar fuel sched srt vertices indices chunk = indexedGrahamScan srt vertices indices ∧
    ∃ hull, convexHullPar fuel sched srt vertices indices chunk = .ok hull ∧ (∀ i ∈ hull, i ∈ indices) ∧
      IsHullLoop (indices.map (fun i => exact (pt i))) (hull.map (fun i => exact (pt i))) ∧
      StartsLowest (indices.map (fun i => exact (pt i))) (hull.map (fun i => exact (pt i))) := by
  obtain ⟨srt', h1, h2⟩ := exact_sort G hA srt hsrt vertices hin indices pt hpt hdiff
  obtain ⟨e1, e2⟩ := C41_one_chunk_is_hull srt' h1 (vertices.map exact) indices (fun i => exact (pt i))
    (fun i hi => by rw [List.getElem?_map, hpt i hi]; rfl) h4 h5 hdiff hnd hnd2 chunk hchunk sched fuel hfuel
  rw [convexHullPar_eq (agreeQ G) hin srt srt' indices h2] at e1 e2
  refine ⟨?_, e2⟩
  rw [e1]
  unfold indexedGrahamScan
  rw [h2 indices (fun i hi => hi)]

/-- C85: the parallel hull of several chunks on floats, no three points on a line, one task for every chunk. -/
theorem C85_several_chunks_on_floats {s B : ℤ} (G : GoodGrid f s B) (hA : AtanOk f s B)
    (srt : List (Nat × Flt f × Flt f) → List (Nat × Flt f × Flt f))
    (hsrt : ∀ l, (∀ e ∈ l, e.2.1 ≠ .nan ∧ e.2.2 ≠ .nan) →
      (srt l).Perm l ∧ (srt l).Pairwise (fun a b => angleCmp a b ≠ .gt))
    (vertices : List (V2 (Flt f))) (hin : ∀ p ∈ vertices, OnGrid s B p) (indices : List Nat)
    (pt : Nat → V2 (Flt f)) (hpt : ∀ i ∈ indices, vertices[i]? = some (pt i)) (h4 : 4 ≤ indices.length)
    (h5 : indices.head? = indices.getLast? → 5 ≤ indices.length)
    (hdiff : ∀ i ∈ indices, ∀ j ∈ indices, exact (pt i) = exact (pt j) → i = j)
    (hline : ∀ i ∈ indices, ∀ j ∈ indices, ∀ k ∈ indices, i ≠ j → i ≠ k → j ≠ k →
      orient (exact (pt i)) (exact (pt j)) (exact (pt k)) ≠ 0)
    (hnd : indices.dropLast.Nodup) (hnd2 : indices.head? ≠ indices.getLast? → indices.Nodup)
    (chunk : Nat) (hchunk : 0 < chunk) (sched : Sched)
    (hsched : OneChunkPerTask sched (chunksOf chunk (openIndices indices).length (openIndices indices)).length)
    (fuel : Nat) (hfuel : 2 * indices.length < fuel) :
    ∃ hull, convexHullPar fuel sched srt vertices indices chunk = .ok hull ∧ (∀ i ∈ hull, i ∈ indices) ∧
      IsHullLoop (indices.map (fun i => exact (pt i))) (hull.map (fun i => exact (pt i))) ∧
      StartsLowest (indices.map (fun i => exact (pt i))) (hull.map (fun i => exact (pt i))) ∧
      indexedGrahamScan srt vertices indices = .ok hull := by
  obtain ⟨srt', h1, h2⟩ := exact_sort G hA srt hsrt vertices hin indices pt hpt hdiff
  have e := C64_several_chunks_is_hull srt' h1 (vertices.map exact) indices (fun i => exact (pt i))
    (fun i hi => by rw [List.getElem?_map, hpt i hi]; rfl) h4 h5 hdiff hline hnd hnd2 chunk hchunk sched hsched fuel hfuel
  rw [convexHullPar_eq (agreeQ G) hin srt srt' indices h2] at e
  unfold indexedGrahamScan at e ⊢
  rw [h2 indices (fun i hi => hi)] at e
  exact e

/-- C85: `LineString2::convex_hull_par` on floats. -/
theorem C85_line_several_chunks_on_floats {s B : ℤ} (G : GoodGrid f s B) (hA : AtanOk f s B)
    (srt : List (Nat × Flt f × Flt f) → List (Nat × Flt f × Flt f))
    (hsrt : ∀ l, (∀ e ∈ l, e.2.1 ≠ .nan ∧ e.2.2 ≠ .nan) →
      (srt l).Perm l ∧ (srt l).Pairwise (fun a b => angleCmp a b ≠ .gt))
    (pts : List (V2 (Flt f))) (hin : ∀ p ∈ pts, OnGrid s B p) (h4 : 4 ≤ pts.length) (hnd : (pts.map exact).Nodup)
    (hline : ∀ (i j k : Nat) (a b c : V2 (Flt f)), pts[i]? = some a → pts[j]? = some b → pts[k]? = some c →
      i < j → j < k → orient (exact a) (exact b) (exact c) ≠ 0)
    (chunk : Nat) (hchunk : 1 < chunk) (sched : Sched)
    (hsched : OneChunkPerTask sched ((pts.length + chunk - 1) / chunk))
    (fuel : Nat) (hfuel : 2 * pts.length < fuel) :
    ∃ hull, lineConvexHullPar fuel sched srt pts chunk = .ok hull ∧
      IsHullLoop (pts.map exact) (hull.map exact) ∧ StartsLowest (pts.map exact) (hull.map exact) := by
  have hd : ∀ i ∈ List.range pts.length, ∀ j ∈ List.range pts.length,
      exact (pts.getD i (V2.mk .nan .nan)) = exact (pts.getD j (V2.mk .nan .nan)) → i = j := by
    intro i hi j hj e
    rw [List.mem_range] at hi hj
    have h1 : (pts.map exact)[i]? = (pts.map exact)[j]? := by
      rw [List.getElem?_map, List.getElem?_map, List.getElem?_eq_getElem hi, List.getElem?_eq_getElem hj]
      rw [List.getD_eq_getElem?_getD, List.getD_eq_getElem?_getD, List.getElem?_eq_getElem hi,
        List.getElem?_eq_getElem hj] at e
      simp only [Option.getD_some] at e
      simp [e]
    exact (List.getElem?_inj (by simpa using hi) hnd).1 h1
  obtain ⟨srt', h1, h2⟩ := exact_sort G hA srt hsrt pts hin (List.range pts.length)
    (fun i => pts.getD i (V2.mk .nan .nan)) (fun i hi => by
      rw [List.mem_range] at hi
      rw [List.getD_eq_getElem?_getD, List.getElem?_eq_getElem hi, Option.getD_some]) hd
  have e := C64_line_several_chunks_is_hull srt' h1 (pts.map exact) (by simpa using h4) hnd (by
    intro i j k a b c ha hb hc hij hjk
    rw [List.getElem?_map] at ha hb hc
    obtain ⟨a', ha', rfl⟩ := Option.map_eq_some_iff.1 ha
    obtain ⟨b', hb', rfl⟩ := Option.map_eq_some_iff.1 hb
    obtain ⟨c', hc', rfl⟩ := Option.map_eq_some_iff.1 hc
    exact hline i j k a' b' c' ha' hb' hc' hij hjk) chunk hchunk sched (by simpa using hsched) fuel (by simpa using hfuel)
  unfold lineConvexHullPar at e ⊢
  rw [if_pos hchunk] at e ⊢
  rw [List.length_map, convexHullPar_eq (agreeQ G) hin srt srt' _ h2] at e
  cases hc : convexHullPar fuel sched srt pts (List.range pts.length) chunk with
  | error x => rw [hc] at e; obtain ⟨hull, e, -⟩ := e; cases e
  | ok is =>
    rw [hc] at e
    simp only [bind, Except.bind] at e ⊢
    rw [mapM_idx_map] at e
    obtain ⟨hull, e1, e2, e3⟩ := e
    cases hm : is.mapM (idx pts) with
    | error x => rw [hm] at e1; cases e1
    | ok h =>
      rw [hm] at e1
      simp only [Except.map, Except.ok.injEq] at e1
      subst e1
      exact ⟨h, rfl, e2, e3⟩
end

/-! ### The hypotheses can be met -/

/-- seven points, no three on a line -/
def parInts : List (ℤ × ℤ) := [(3, 1), (0, 5), (1, 0), (7, 4), (4, 9), (6, 0), (2, 4)]

/-- the same as floats -/
def parFloats : List (V2 (Flt b64)) := parInts.map (fun q => ipt b64 q.1 q.2)

theorem parFloats_get (i : Nat) (hi : i ∈ List.range 7) :
    ∃ q : ℤ × ℤ, parInts[i]? = some q ∧ parFloats[i]? = some (ipt b64 q.1 q.2) ∧
      OnGrid 0 8388608 (ipt b64 q.1 q.2) ∧ exact (ipt b64 q.1 q.2) = ⟨q.1, q.2⟩ := by
  have hl : i < parInts.length := by simpa [parInts] using hi
  obtain ⟨q, hq⟩ : ∃ q, parInts[i]? = some q := ⟨_, List.getElem?_eq_getElem hl⟩
  have hb : ∀ q ∈ parInts, |q.1| ≤ 8388608 ∧ |q.2| ≤ 8388608 := by decide
  have := hb q (List.mem_of_getElem? hq)
  refine ⟨q, hq, ?_, onGrid_ipt goodGrid64 this.1 this.2⟩
  unfold parFloats
  rw [List.getElem?_map, hq]
  rfl

/-- the exact coordinates -/
def parExact (i : Nat) : V2 ℚ := ((parInts[i]?).map (fun q => (⟨q.1, q.2⟩ : V2 ℚ))).getD ⟨0, 0⟩

/-- the hypotheses of the theorems of C85 are met, in `f64` (with a libm whose `atan2` is the true angle rounded
down) -/
example : (let _ := floorAtan b64
    ∃ srt hull hull', indexedGrahamScan srt parFloats (List.range 7) = .ok hull ∧
      convexHullPar 100 .leaf srt parFloats (List.range 7) 7 = .ok hull ∧
      convexHullPar 100 mergeSched srt parFloats (List.range 7) 3 = .ok hull ∧
      lineConvexHullPar 100 mergeSched srt parFloats 3 = .ok hull' ∧
      IsHullLoop ((List.range 7).map parExact) (hull.map parExact) ∧
      IsHullLoop (parFloats.map exact) (hull'.map exact)) := by
  let _ := floorAtan b64
  have hA := C74_accurate_atan2_is_good goodGrid64 (C74_good_atan2_exists b64)
  obtain ⟨srt, hs⟩ := C74_sort_exists (f := b64) Nat
  let pt : Nat → V2 (Flt b64) := fun i => (parFloats[i]?).getD ⟨.nan, .nan⟩
  have hpt : ∀ i ∈ List.range 7, parFloats[i]? = some (pt i) ∧ exact (pt i) = parExact i := by
    intro i hi
    obtain ⟨q, h1, h2, h3, h4⟩ := parFloats_get i hi
    simp only [pt, parExact, h1, h2, Option.getD_some, Option.map_some]
    exact ⟨trivial, h4⟩
  have hin : ∀ p ∈ parFloats, OnGrid 0 8388608 p := by
    intro p hp
    obtain ⟨i, hi, rfl⟩ := List.mem_iff_getElem.1 hp
    obtain ⟨q, h1, h2, h3, h4⟩ := parFloats_get i (by simpa [parFloats, parInts] using hi)
    rw [List.getElem?_eq_getElem hi, Option.some_inj] at h2
    rw [h2]; exact h3
  have hdiffE : ∀ i ∈ List.range 7, ∀ j ∈ List.range 7, parExact i = parExact j → i = j := by decide +kernel
  have hlineE : ∀ i ∈ List.range 7, ∀ j ∈ List.range 7, ∀ k ∈ List.range 7, i ≠ j → i ≠ k → j ≠ k →
      orient (parExact i) (parExact j) (parExact k) ≠ 0 := by decide +kernel
  have hdiff : ∀ i ∈ List.range 7, ∀ j ∈ List.range 7, exact (pt i) = exact (pt j) → i = j := by
    intro i hi j hj e
    rw [(hpt i hi).2, (hpt j hj).2] at e
    exact hdiffE i hi j hj e
  have hline : ∀ i ∈ List.range 7, ∀ j ∈ List.range 7, ∀ k ∈ List.range 7, i ≠ j → i ≠ k → j ≠ k →
      orient (exact (pt i)) (exact (pt j)) (exact (pt k)) ≠ 0 := by
    intro i hi j hj k hk
    rw [(hpt i hi).2, (hpt j hj).2, (hpt k hk).2]
    exact hlineE i hi j hj k hk
  have hmap : ∀ l : List Nat, (∀ i ∈ l, i ∈ List.range 7) → l.map (fun i => exact (pt i)) = l.map parExact :=
    fun l hl => List.map_congr_left (fun i hi => (hpt i (hl i hi)).2)
  obtain ⟨hull, e1, e2, e3, e4, e5⟩ := C85_several_chunks_on_floats goodGrid64 hA srt hs parFloats hin (List.range 7) pt
    (fun i hi => (hpt i hi).1) (by simp) (by decide) hdiff hline (by decide) (by decide) 3 (by norm_num) mergeSched
    (by
      have : (chunksOf 3 (openIndices (List.range 7)).length (openIndices (List.range 7))).length = 3 := by decide
      rw [this]; simp [OneChunkPerTask, mergeSched]) 100 (by simp)
  obtain ⟨g1, -⟩ := C85_one_chunk_on_floats goodGrid64 hA srt hs parFloats hin (List.range 7) pt
    (fun i hi => (hpt i hi).1) (by simp) (by decide) hdiff (by decide) (by decide) 7 (by simp) .leaf 100 (by simp)
  obtain ⟨h6, k1, k2, -⟩ := C85_indexed_graham_scan_on_floats goodGrid64 hA srt hs parFloats hin (List.range 7) pt
    (fun i hi => (hpt i hi).1) (by simp) (by decide) hdiff ⟨0, by simp, 1, by simp, by simp⟩
  have hmE : parFloats.map exact = (List.range 7).map parExact := by
    apply List.ext_getElem?
    intro i
    rw [List.getElem?_map, List.getElem?_map]
    by_cases hi : i < 7
    · rw [(hpt i (List.mem_range.2 hi)).1, Option.map_some, (hpt i (List.mem_range.2 hi)).2, List.getElem?_range hi]
      rfl
    · rw [List.getElem?_eq_none (by simp [parFloats, parInts]; omega), List.getElem?_eq_none (by simp; omega)]
      rfl
  obtain ⟨hull', l1, l2, -⟩ := C85_line_several_chunks_on_floats goodGrid64 hA srt hs parFloats hin
    (by simp [parFloats, parInts]) (by rw [hmE]; decide +kernel) (by
      intro i j k a b c ha hb hc hij hjk
      have hk : k < 7 := by
        have := (List.getElem?_eq_some_iff.1 hc).1
        simpa [parFloats, parInts] using this
      have r := hlineE i (List.mem_range.2 (by omega)) j (List.mem_range.2 (by omega)) k (List.mem_range.2 hk)
        (by omega) (by omega) (by omega)
      have r1 := hpt i (List.mem_range.2 (by omega))
      have r2 := hpt j (List.mem_range.2 (by omega))
      have r3 := hpt k (List.mem_range.2 (by omega))
      rw [ha, Option.some_inj] at r1
      rw [hb, Option.some_inj] at r2
      rw [hc, Option.some_inj] at r3
      rw [r1.1, r2.1, r3.1, r1.2, r2.2, r3.2]
      exact r) 3 (by norm_num) mergeSched (by simp [OneChunkPerTask, mergeSched, parFloats, parInts]) 100
    (by simp [parFloats, parInts])
  refine ⟨srt, hull, hull', e5, by rw [g1, e5], e1, l1, ?_, l2⟩
  rw [hmap _ (fun i hi => hi), hmap _ e2] at e3
  exact e3

end Verif.Props
