import Verif.Props.SweepIndexed
import Verif.Props.Intersect
/-!
# C112: the sweep line algorithm on some of the lines

`Among A L σ`: line `i` of `A` is line `σ i` of `L`.
-/
set_option linter.unusedSectionVars false
namespace Verif.Props.SweepParts
open Verif Verif.Model Verif.Spec Verif.Sweep Verif.Props

/-- the lines `A` are among the lines `L`: line `i` of `A` is line `σ i` of `L`, different lines are different lines of `L` -/
def Among {T : Type} (A L : List T) (σ : Nat → Nat) : Prop :=
  (∀ i l, A[i]? = some l → L[σ i]? = some l) ∧ ∀ i j, i < A.length → j < A.length → σ i = σ j → i = j

theorem Among.part {T : Type} (pre A post : List T) : Among A (pre ++ A ++ post) (fun i => pre.length + i) := by
  refine ⟨fun i l hl => ?_, fun i j _ _ h => Nat.add_left_cancel h⟩
  have hi := (List.getElem?_eq_some_iff.1 hl).1
  show (pre ++ A ++ post)[pre.length + i]? = some l
  rw [List.append_assoc, List.getElem?_append_right (Nat.le_add_right _ _), Nat.add_sub_cancel_left, List.getElem?_append_left hi, hl]

/-- the edges of a part of a line string are among its edges -/
theorem among_windows {K : Type} [Scalar K] (pre part post : List (V2 K)) :
    Among (windowIter2 part) (windowIter2 (pre ++ part ++ post)) (fun i => pre.length + i) := by
  refine ⟨fun i l hl => ?_, fun i j _ _ h => Nat.add_left_cancel h⟩
  unfold windowIter2 at hl ⊢
  rw [List.getElem?_map] at hl ⊢
  obtain ⟨⟨u, v⟩, huv, rfl⟩ := Option.map_eq_some_iff.1 hl
  obtain ⟨g1, g2⟩ := (Intersect.windows2_get part i u v).1 huv
  have k1 := (Among.part pre part post).1 _ _ g1
  have k2 := (Among.part pre part post).1 _ _ g2
  rw [(Intersect.windows2_get _ _ u v).2 ⟨k1, by rw [Nat.add_assoc]; exact k2⟩]
  rfl

section
variable {K : Type} [Field K] [LinearOrder K] {A L : List (Line2 K)} {σ : Nat → Nat}

theorem get_lt {i : Nat} {l : Line2 K} (h : A[i]? = some l) : i < A.length := (List.getElem?_eq_some_iff.1 h).1

theorem Among.ne (h : Among A L σ) {i j : Nat} {l m : Line2 K} (hl : A[i]? = some l) (hm : A[j]? = some m) (hij : i ≠ j) :
    σ i ≠ σ j := fun e => hij (h.2 i j (get_lt hl) (get_lt hm) e)

theorem Among.mem (h : Among A L σ) {l : Line2 K} (hl : l ∈ A) : l ∈ L := by
  obtain ⟨i, hi⟩ := List.mem_iff_getElem?.1 hl
  exact List.mem_of_getElem? (h.1 i l hi)

theorem Among.common (h : Among A L σ) {i j : Nat} {p : V2 K} (hc : Common A i j p) : Common L (σ i) (σ j) p := by
  obtain ⟨l, m, hl, hm, h1, h2⟩ := hc
  exact ⟨l, m, h.1 _ _ hl, h.1 _ _ hm, h1, h2⟩

theorem Among.eq (h : Among A L σ) {i : Nat} (hi : i < A.length) {l : Line2 K} (hl : L[σ i]? = some l) : A[i]? = some l := by
  have h1 := List.getElem?_eq_getElem hi
  have h2 := h.1 i _ h1
  rw [hl] at h2
  rw [h1, ← h2]

theorem Among.common_iff (h : Among A L σ) {i j : Nat} (hi : i < A.length) (hj : j < A.length) (p : V2 K) :
    Common A i j p ↔ Common L (σ i) (σ j) p := by
  refine ⟨h.common, ?_⟩
  rintro ⟨l, m, hl, hm, h1, h2⟩
  exact ⟨l, m, h.eq hi hl, h.eq hj hm, h1, h2⟩

theorem Among.crossing_iff (h : Among A L σ) {i j : Nat} (hi : i < A.length) (hj : j < A.length) (p : V2 K) :
    Crossing A i j p ↔ Crossing L (σ i) (σ j) p := by
  constructor
  · rintro ⟨l, m, hl, hm, h1⟩
    exact ⟨l, m, h.1 _ _ hl, h.1 _ _ hm, h1⟩
  · rintro ⟨l, m, hl, hm, h1⟩
    exact ⟨l, m, h.eq hi hl, h.eq hj hm, h1⟩

theorem Among.special (h : Among A L σ) {p : V2 K} (hs : Special A p) : Special L p := by
  rcases hs with ⟨l, hl, he⟩ | ⟨i, j, hij, hc⟩
  · exact Or.inl ⟨l, h.mem hl, he⟩
  · obtain ⟨l, m, hl, hm, -⟩ := id hc
    exact Or.inr ⟨σ i, σ j, h.ne hl hm hij, h.common hc⟩

theorem common_ne (h : Among A L σ) {i j : Nat} {p : V2 K} (hij : i ≠ j) (hc : Common A i j p) : σ i ≠ σ j := by
  obtain ⟨l, m, hl, hm, -⟩ := hc
  exact h.ne hl hm hij

/-- some of the lines of a set in general position are in general position -/
theorem Among.sweep (h : Among A L σ) (gp : SweepPosition L) : SweepPosition A where
  slanted l hl := gp.slanted l (h.mem hl)
  once i j p q hij h1 h2 := gp.once _ _ p q (common_ne h hij h1) (h.common h1) (h.common h2)
  noT i j l m p hij hl hm := gp.noT _ _ l m p (h.ne hl hm hij) (h.1 _ _ hl) (h.1 _ _ hm)
  heights i j p q hij h1 h2 := gp.heights _ _ p q (common_ne h hij h1) (h.common h1) (h.special h2)

theorem Among.general (h : Among A L σ) (gp : GeneralPosition L) : GeneralPosition A where
  slanted l hl := gp.slanted l (h.mem hl)
  once i j p q hij h1 h2 := gp.once _ _ p q (common_ne h hij h1) (h.common h1) (h.common h2)
  noT i j l m p hij hl hm := gp.noT _ _ l m p (h.ne hl hm hij) (h.1 _ _ hl) (h.1 _ _ hm)
  heights i j p q hij h1 h2 := gp.heights _ _ p q (common_ne h hij h1) (h.common h1) (h.special h2)
end

section
variable {K : Type} [Scalar K] [Field K] [LinearOrder K] [ExactScalar K] [ExactSqrt K] {A L : List (Line2 K)} {σ : Nat → Nat}

/-- **C112** lines that do not violate the conditions of C59: a point is reported for two lines iff it is reported for them if the
algorithm runs on some of the lines only. -/
theorem C112_on_some_of_the_lines [TreeShape K] (order order' : Nat → List Nat → List Nat) (hord : ∀ n l, (order n l).Perm l)
    (hord' : ∀ n l, (order' n l).Perm l) (h : Among A L σ) (gp : SweepPosition L) (fuel fuel' : Nat)
    (hf : 2 * L.length + L.length * L.length < fuel) (hf' : 2 * A.length + A.length * A.length < fuel') :
    ∃ r s, sweepIntersections order fuel false false L = .ok r ∧ sweepIntersections order' fuel' false false A = .ok s ∧
      ∀ i j p, i < A.length → j < A.length → i ≠ j →
        ((∃ x ∈ s, x.1 = p ∧ i ∈ x.2 ∧ j ∈ x.2) ↔ ∃ x ∈ r, x.1 = p ∧ σ i ∈ x.2 ∧ σ j ∈ x.2) := by
  obtain ⟨r, e, hr⟩ := C59_reports_exactly_the_common_points order hord L gp fuel hf
  obtain ⟨s, e', hs⟩ := C59_reports_exactly_the_common_points order' hord' A (h.sweep gp) fuel' hf'
  refine ⟨r, s, e, e', fun i j p hi hj hij => ?_⟩
  rw [← hr _ _ p (fun e => hij (h.2 i j hi hj e)), ← hs i j p hij]
  exact h.common_iff hi hj p

/-- **C112** the same with end points ignored, lines in general position. -/
theorem C112_ignoring_end_points [TreeShape K] (order order' : Nat → List Nat → List Nat) (hord : ∀ n l, (order n l).Perm l)
    (hord' : ∀ n l, (order' n l).Perm l) (h : Among A L σ) (gp : GeneralPosition L) (fuel fuel' : Nat)
    (hf : 2 * L.length + L.length * L.length < fuel) (hf' : 2 * A.length + A.length * A.length < fuel') :
    ∃ r s, sweepIntersections order fuel true false L = .ok r ∧ sweepIntersections order' fuel' true false A = .ok s ∧
      ∀ i j p, i < A.length → j < A.length → i ≠ j →
        ((∃ x ∈ s, x.1 = p ∧ i ∈ x.2 ∧ j ∈ x.2) ↔ ∃ x ∈ r, x.1 = p ∧ σ i ∈ x.2 ∧ σ j ∈ x.2) := by
  obtain ⟨r, e, hr⟩ := C59_ignoring_end_points_reports_exactly_the_crossings order hord L gp fuel hf
  obtain ⟨s, e', hs⟩ := C59_ignoring_end_points_reports_exactly_the_crossings order' hord' A (h.general gp) fuel' hf'
  refine ⟨r, s, e, e', fun i j p hi hj hij => ?_⟩
  rw [← hr _ _ p (fun e => hij (h.2 i j hi hj e)), ← hs i j p hij]
  exact h.crossing_iff hi hj p

/-- **C112** end points ignored, stop at the first: if something is reported for some of the lines, something is reported for all. -/
theorem C112_stop_at_first [TreeShape K] (order order' : Nat → List Nat → List Nat) (hord : ∀ n l, (order n l).Perm l)
    (hord' : ∀ n l, (order' n l).Perm l) (h : Among A L σ) (gp : SweepPosition L) (fuel fuel' : Nat)
    (hf : 2 * L.length + L.length * L.length < fuel) (hf' : 2 * A.length + A.length * A.length < fuel') :
    ∃ r s, sweepIntersections order fuel true true L = .ok r ∧ sweepIntersections order' fuel' true true A = .ok s ∧
      (s ≠ [] → r ≠ []) := by
  obtain ⟨r, e, hr⟩ := C59_stop_at_first_finds_a_touch order hord L gp fuel hf
  obtain ⟨s, e', hs⟩ := C59_stop_at_first_finds_a_touch order' hord' A (h.sweep gp) fuel' hf'
  refine ⟨r, s, e, e', fun hne => ?_⟩
  obtain ⟨i, j, l, m, p, hij, hl, hm, g⟩ := hs.1 hne
  exact hr.2 ⟨σ i, σ j, l, m, p, h.ne hl hm hij, h.1 _ _ hl, h.1 _ _ hm, g⟩

/-- **C112** the indexed version: `edges'` are among the edges `edges` of the same table of vertices. -/
theorem C112_indexed [TreeShape K] (order order' : Nat → List Nat → List Nat) (hord : ∀ n l, (order n l).Perm l)
    (hord' : ∀ n l, (order' n l).Perm l) (vs : List (V2 K)) (edges' edges : List (Nat × Nat)) (h : Among edges' edges σ)
    (hL : EdgeLines vs edges L) (gp : SweepPosition L) (fuel fuel' : Nat)
    (hf : 2 * edges.length + edges.length * edges.length < fuel) (hf' : 2 * edges'.length + edges'.length * edges'.length < fuel') :
    ∃ tab r tab' s, indexedSweepIntersections order fuel false false vs edges = .ok (tab, r) ∧
      indexedSweepIntersections order' fuel' false false vs edges' = .ok (tab', s) ∧
      ∀ i j p, i < edges'.length → j < edges'.length → i ≠ j →
        ((∃ x ∈ s, tab'[x.1]? = some p ∧ i ∈ x.2 ∧ j ∈ x.2) ↔ ∃ x ∈ r, tab[x.1]? = some p ∧ σ i ∈ x.2 ∧ σ j ∈ x.2) := by
  have hmem : ∀ e ∈ edges', e ∈ edges := by
    intro e he
    obtain ⟨i, hi⟩ := List.mem_iff_getElem?.1 he
    exact List.mem_of_getElem? (h.1 i e hi)
  obtain ⟨hE, hmap⟩ := hL.ok
  obtain ⟨A, hA⟩ : ∃ A, A = edges'.map (edgeLine vs ⟨0, 0⟩) := ⟨_, rfl⟩
  have hA' : Among A L σ := by
    subst hA hmap
    refine ⟨fun i l hl => ?_, fun i j hi hj => ?_⟩
    · rw [List.getElem?_map] at hl ⊢
      obtain ⟨e, he, rfl⟩ := Option.map_eq_some_iff.1 hl
      rw [h.1 i e he]
      rfl
    · rw [List.length_map] at hi hj
      exact h.2 i j hi hj
  have hAL : EdgeLines vs edges' A := by
    subst hA
    refine ⟨by rw [List.length_map], fun i e l he hl => ?_⟩
    rw [List.getElem?_map, he, Option.map_some, Option.some_inj] at hl
    subst hl
    obtain ⟨b1, b2⟩ := hE e (hmem e (List.mem_of_getElem? he))
    unfold edgeLine
    rw [List.getElem?_eq_getElem b1, List.getElem?_eq_getElem b2]
    exact ⟨rfl, rfl⟩
  obtain ⟨tab, r, e1, hr⟩ := C59_indexed_reports_exactly_the_common_points order hord vs edges L hL gp fuel hf
  obtain ⟨tab', s, e2, hs⟩ := C59_indexed_reports_exactly_the_common_points order' hord' vs edges' A hAL (hA'.sweep gp) fuel' hf'
  refine ⟨tab, r, tab', s, e1, e2, fun i j p hi hj hij => ?_⟩
  rw [← hr _ _ p (fun e => hij (h.2 i j hi hj e)), ← hs i j p hij]
  have on : ∀ i, i < edges'.length → (OnEdge vs edges' i p ↔ OnEdge vs edges (σ i) p) := by
    intro i hi
    have g1 := List.getElem?_eq_getElem hi
    have g2 := h.1 i _ g1
    unfold OnEdge
    rw [g1, g2]
  rw [on i hi, on j hj]

/-- **C112** `is_self_intersecting`: a line string of at least ten points is self-intersecting if a part of it (of at least ten
points) is. -/
theorem C112_self_intersecting [TreeShape K] (order order' : Nat → List Nat → List Nat) (hord : ∀ n l, (order n l).Perm l)
    (hord' : ∀ n l, (order' n l).Perm l) (pre part post : List (V2 K))
    (gp : SweepPosition (windowIter2 (pre ++ part ++ post))) (fuel fuel' : Nat)
    (hf : 2 * (pre ++ part ++ post).length + (pre ++ part ++ post).length * (pre ++ part ++ post).length < fuel)
    (hf' : 2 * part.length + part.length * part.length < fuel')
    (h : isSelfIntersectingLong order' fuel' part = .ok true) :
    isSelfIntersectingLong order fuel (pre ++ part ++ post) = .ok true := by
  have hA := among_windows pre part post
  obtain ⟨b, e, hb⟩ := C59_self_intersecting_iff_touch order hord (pre ++ part ++ post) gp fuel hf
  obtain ⟨b', e', hb'⟩ := C59_self_intersecting_iff_touch order' hord' part (hA.sweep gp) fuel' hf'
  rw [h] at e'
  cases e'
  obtain ⟨i, j, l, m, p, hij, hl, hm, g⟩ := hb'.1 rfl
  rw [e, hb.2 ⟨_, _, l, m, p, hA.ne hl hm hij, hA.1 _ _ hl, hA.1 _ _ hm, g⟩]
end

/-- C112, finding: without the conditions a further line can hide a crossing: lines 0 and 2 cross, and the crossing is reported
without line 1, but not with it -/
theorem C112_a_further_line_hides_a_crossing : ∀ T ∈ shapes, haveI : TreeShape FQ := T
    sweepIntersections keepOrder 50 false false [seg 6 3 0 5, seg 0 2 2 5] =
      .ok [(⟨.fin (18 / 11), .fin (49 / 11)⟩, [0, 1])] ∧
    sweepIntersections keepOrder 50 false false [seg 6 3 0 5, seg 0 4 2 1, seg 0 2 2 5] =
      .ok [(⟨.fin (2 / 3), .fin 3⟩, [1, 2])] := by decide +kernel

end Verif.Props.SweepParts
