import Verif.Proofs.FloatHull
import Verif.Props.Hull
import Verif.Props.GiftWrap
import Verif.Props.IndexedHull
import Verif.Props.Contain
/-!
# Hulls in floating point

The theorems of C36–C44 assume exact arithmetic.  Here the same functions run on IEEE floats
(`Verif.Model.Float`, rounding and all).  On a grid that is not too large for the precision
(`GoodGrid`; for `f64` for example all integer coordinates up to 2^23 = 8388608) they return the hull
of the points their arguments stand for.
-/
namespace Verif.Props
open Verif Verif.Model Verif.Spec Scalar Verif.Proofs.Transfer Verif.Proofs.FloatHull
variable {f : Fmt} [Libm f]
set_option linter.unusedSectionVars false

/-- C71: the three orientation tests are exact. -/
theorem C71_orientation_is_exact {s B : ℤ} (G : GoodGrid f s B) (a b c : V2 (Flt f)) (ha : OnGrid s B a)
    (hb : OnGrid s B b) (hc : OnGrid s B c) :
    (pointOrientation a b c = .left ↔ 0 < orient (exact a) (exact b) (exact c)) ∧
    (pointOrientation a b c = .right ↔ orient (exact a) (exact b) (exact c) < 0) ∧
    (pointOrientation a b c = .collinear ↔ orient (exact a) (exact b) (exact c) = 0) ∧
    (isPointLeft a b c = true ↔ 0 < orient (exact a) (exact b) (exact c)) ∧
    (isPointLeftAllowCollinear a b c = true ↔ 0 ≤ orient (exact a) (exact b) (exact c)) := by
  have h := (agreeQ G).orient a b c ha hb hc
  have h2 := (agreeQ G).left a b c ha hb hc
  have h3 := (agreeQ G).leftC a b c ha hb hc
  rw [← h, ← h2, ← h3, Hull.isPointLeft_iff, Hull.isPointLeftAC_iff, Hull.pointOrientation_eq]
  generalize orient (exact a) (exact b) (exact c) = o
  refine ⟨?_, ?_, ?_, Iff.rfl, Iff.rfl⟩
  all_goals
    rcases lt_trichotomy o 0 with h | h | h
    · simp [h, h.ne, not_lt.2 h.le]
    · simp [h]
    · simp [h, h.ne', not_lt.2 h.le]

/-- C72: `gift_wrap` on floats. -/
theorem C72_gift_wrap_on_floats {s B : ℤ} (G : GoodGrid f s B) (input : List (V2 (Flt f)))
    (hin : ∀ p ∈ input, OnGrid s B p) (h4 : 4 ≤ input.length)
    (h5 : (input.map exact).head? = (input.map exact).getLast? → 5 ≤ input.length)
    (hnd : (input.map exact).tail.Nodup)
    (hnd2 : (input.map exact).head? ≠ (input.map exact).getLast? → (input.map exact).Nodup)
    (fuel : Nat) (hf : (input.length + 1) * (input.length + 1) < fuel) :
    ∃ hull, giftWrap fuel input = .ok hull ∧ (∀ v ∈ hull, v ∈ input) ∧
      IsHullLoop (input.map exact) (hull.map exact) ∧ StartsLowest (input.map exact) (hull.map exact) := by
  obtain ⟨h, e1, e2, e3⟩ := C38_gift_wrap_is_hull (input.map exact) (by simpa using h4) (by simpa using h5) hnd hnd2
    fuel (by simpa using hf)
  rw [giftWrap_eq (agreeQ G) fuel input hin] at e1
  rcases C38_gift_wrap_terminates input fuel hf with hh | ⟨hull, hh, hm⟩
  · rw [hh] at e1; cases e1
  · rw [hh] at e1
    simp only [Except.map, Except.ok.injEq] at e1
    subst e1
    exact ⟨hull, hh, hm, e2, e3⟩

/-- C72: `indexed_gift_wrap` on floats. -/
theorem C72_indexed_gift_wrap_on_floats {s B : ℤ} (G : GoodGrid f s B) (vertices : List (V2 (Flt f)))
    (hin : ∀ p ∈ vertices, OnGrid s B p) (indices : List Nat) (pt : Nat → V2 (Flt f))
    (hpt : ∀ i ∈ indices, vertices[i]? = some (pt i)) (h4 : 4 ≤ indices.length)
    (h5 : indices.head? = indices.getLast? → 5 ≤ indices.length)
    (hdiff : ∀ i ∈ indices, ∀ j ∈ indices, exact (pt i) = exact (pt j) → i = j)
    (hnd : indices.dropLast.Nodup) (hnd2 : indices.head? ≠ indices.getLast? → indices.Nodup)
    (fuel : Nat) (hf : (indices.length + 1) * (indices.length + 1) < fuel) :
    ∃ hull, indexedGiftWrap fuel vertices indices = .ok hull ∧ (∀ i ∈ hull, i ∈ indices) ∧
      IsHullLoop (indices.map (fun i => exact (pt i))) (hull.map (fun i => exact (pt i))) ∧
      StartsLowest (indices.map (fun i => exact (pt i))) (hull.map (fun i => exact (pt i))) := by
  obtain ⟨h, e1, e2, e3, e4⟩ := C40_indexed_gift_wrap_is_hull (vertices.map exact) indices (fun i => exact (pt i))
    (by intro i hi; rw [List.getElem?_map, hpt i hi]; rfl) h4 h5 hdiff hnd hnd2 fuel hf
  rw [indexedGiftWrap_eq (agreeQ G) fuel vertices hin] at e1
  exact ⟨h, e1, e2, e3, e4⟩

/-- the lowest point of float points is the lowest of the exact ones -/
theorem findLowest_floats {s B : ℤ} (G : GoodGrid f s B) (pts : List (V2 (Flt f))) (hin : ∀ p ∈ pts, OnGrid s B p)
    {k : Nat} {o : V2 (Flt f)} (h : findLowest false getPoint pts = .ok (k, o)) :
    o ∈ pts ∧ ∀ p ∈ pts, LeftOrBelow (exact o) (exact p) := by
  obtain ⟨e1, e2⟩ := findLowest_eq (get := getPoint) (get' := getPoint) (g := exact) (agreeQ G) false pts
    (fun i hi => Or.inr ⟨i, hin i hi, rfl, rfl⟩)
  have hne : pts ≠ [] := by rintro rfl; simp [findLowest] at h
  obtain ⟨k', o', g1, g2, g3⟩ := Hull.findLowest_ok getPoint (fun p : V2 ℚ => p) (pts.map exact)
    (by simpa using hne) (fun _ _ => rfl)
  rw [e1, h] at g1
  simp only [Except.map, Except.ok.injEq, Prod.mk.injEq] at g1
  obtain ⟨rfl, rfl⟩ := g1
  refine ⟨?_, ?_⟩
  · exact (findLowest_eq (get := getPoint) (get' := getPoint) (g := exact)
      (S := fun p => OnGrid s B p ∧ p ∈ pts) ((agreeQ G).mono (fun p hp => hp.1)) false pts
      (fun i hi => Or.inr ⟨i, ⟨hin i hi, hi⟩, rfl, rfl⟩)).2 _ h |>.2
  · intro p hp
    rcases g3 (exact p) (List.mem_map_of_mem hp) with h | h | ⟨h, h'⟩
    · rw [h]; exact Or.inr ⟨rfl, le_refl _⟩
    · exact Or.inl h
    · exact Or.inr ⟨h, h'.le⟩

theorem orientCmp_exact {s B : ℤ} (G : GoodGrid f s B) {o b c : V2 (Flt f)} (ho : OnGrid s B o)
    (hb : OnGrid s B b) (hc : OnGrid s B c) :
    orientCmp (exact o) (exact b) (exact c) = orientCmp o b c := by
  have h1 : Scalar.pcmp Scalar.zero (cross2d o b c) =
      Scalar.pcmp Scalar.zero (cross2d (exact o) (exact b) (exact c)) := by
    have a1 : Scalar.ge Scalar.zero (cross2d o b c) = decide (orient (exact o) (exact b) (exact c) ≤ 0) := by
      obtain ⟨N, h1, h2, h3⟩ := cross_exact G ho hb hc
      rw [h2]; exact Flt.is_le h1 is_zeroQ
    have a2 : Scalar.le Scalar.zero (cross2d o b c) = decide (0 ≤ orient (exact o) (exact b) (exact c)) :=
      cross_nonneg G ho hb hc
    unfold Scalar.pcmp
    rw [a1, a2, Hull.cross2d_eq]
    simp only [exact_simp]
  unfold orientCmp
  simp only
  rw [h1, ← (agreeQ G).far o c b ho hc hb]

/-- a permutation of the image of a list is the image of a permutation -/
theorem perm_lift {A B : Type} (g : A → B) : ∀ (l : List A) (r : List B), r.Perm (l.map g) → ∃ r' : List A, r'.Perm l ∧ r'.map g = r
  | [], r, h => ⟨[], List.Perm.refl _, h.eq_nil.symm⟩
  | a :: l, r, h => by
    have hm : g a ∈ r := h.mem_iff.2 (by simp)
    obtain ⟨r1, r2, rfl⟩ := List.append_of_mem hm
    have h2 : (r1 ++ r2).Perm (l.map g) := by
      have := List.perm_middle.symm.trans h
      exact (List.perm_cons _).1 this
    obtain ⟨r', h3, h4⟩ := perm_lift g l _ h2
    obtain ⟨s1, s2, e1, e2, e3⟩ := List.map_eq_append_iff.1 h4
    refine ⟨s1 ++ a :: s2, ?_, ?_⟩
    · rw [e1] at h3
      exact List.perm_middle.trans (h3.cons a)
    · simp [e2, e3]

open Classical in
/-- there is a sort as `C73_graham_scan_wo_atan2_on_floats` wants it -/
theorem C73_sort_exists {s B : ℤ} (G : GoodGrid f s B) :
    ∃ srt : V2 (Flt f) → List (V2 (Flt f)) → Option (List (V2 (Flt f))),
      ∀ o l, OnGrid s B o → (∀ a ∈ l, OnGrid s B a ∧ LeftOrBelow (exact o) (exact a)) →
      ∃ r, srt o l = some r ∧ r.Perm l ∧ r.Pairwise (fun a b => orientCmp o a b ≠ some .gt) := by
  refine ⟨fun o l => if h : ∃ r : List (V2 (Flt f)), r.Perm l ∧ r.Pairwise (fun a b => orientCmp o a b ≠ some .gt)
    then some h.choose else none, ?_⟩
  intro o l ho hl
  have h : ∃ r : List (V2 (Flt f)), r.Perm l ∧ r.Pairwise (fun a b => orientCmp o a b ≠ some .gt) := by
    obtain ⟨r, h1, h2⟩ := C37_sort_exists (exact o) (l.map exact) (by
      intro a ha
      obtain ⟨p, hp, rfl⟩ := List.mem_map.1 ha
      exact (hl p hp).2)
    obtain ⟨r', h3, rfl⟩ := perm_lift exact l r h1
    refine ⟨r', h3, ?_⟩
    rw [List.pairwise_map] at h2
    refine h2.imp_of_mem ?_
    intro a b ha hb hab
    rwa [orientCmp_exact G ho (hl a (h3.mem_iff.1 ha)).1 (hl b (h3.mem_iff.1 hb)).1] at hab
  exact ⟨h.choose, by simp only [dif_pos h], h.choose_spec⟩

open Classical in
/-- C73: `graham_scan_wo_atan2` on floats. -/
theorem C73_graham_scan_wo_atan2_on_floats {s B : ℤ} (G : GoodGrid f s B)
    (srt : V2 (Flt f) → List (V2 (Flt f)) → Option (List (V2 (Flt f))))
    (hsrt : ∀ o l, OnGrid s B o → (∀ a ∈ l, OnGrid s B a ∧ LeftOrBelow (exact o) (exact a)) →
      ∃ r, srt o l = some r ∧ r.Perm l ∧ r.Pairwise (fun a b => orientCmp o a b ≠ some .gt))
    (input : List (V2 (Flt f))) (hin : ∀ p ∈ input, OnGrid s B p) (h4 : 4 ≤ input.length)
    (h5 : (input.map exact).head? = (input.map exact).getLast? → 5 ≤ input.length)
    (hne : ∃ a ∈ input, ∃ b ∈ input, exact a ≠ exact b) :
    ∃ hull, grahamScanWoAtan2 srt input = .ok hull ∧
      IsHullLoop (input.map exact) (hull.map exact) ∧ StartsLowest (input.map exact) (hull.map exact) := by
  -- the sort of the exact points
  let srt' : V2 ℚ → List (V2 ℚ) → Option (List (V2 ℚ)) := fun o l =>
    if h : ∃ k o', findLowest false getPoint (dropLoopPoint input) = .ok (k, o') ∧ o = exact o' ∧
        l = (dropLoopPoint input).map exact then
      (srt h.choose_spec.choose (dropLoopPoint input)).map (List.map exact)
    else if h : ∃ r : List (V2 ℚ), r.Perm l ∧ r.Pairwise (fun a b => orientCmp o a b ≠ some .gt) then some h.choose
    else none
  have hd : ∀ p ∈ dropLoopPoint input, OnGrid s B p := fun p hp => hin p (Verif.Proofs.Transfer.dropLoopPoint_mem hp)
  have hfloat : ∀ k o, findLowest false getPoint (dropLoopPoint input) = .ok (k, o) →
      ∃ r, srt o (dropLoopPoint input) = some r ∧ r.Perm (dropLoopPoint input) ∧
        r.Pairwise (fun a b => orientCmp o a b ≠ some .gt) := by
    intro k o ho
    obtain ⟨hm, hlow⟩ := findLowest_floats G _ hd ho
    exact hsrt o _ (hd o hm) (fun a ha => ⟨hd a ha, hlow a ha⟩)
  have hsrt' : ∀ o l, (∀ a ∈ l, o.x < a.x ∨ o.x = a.x ∧ o.y ≤ a.y) → (∀ a ∈ l, ∀ b ∈ l, orientCmp o a b ≠ none) →
      ∃ r, srt' o l = some r ∧ r.Perm l ∧ r.Pairwise (fun a b => orientCmp o a b ≠ some .gt) := by
    intro o l hl _
    by_cases h : ∃ k o', findLowest false getPoint (dropLoopPoint input) = .ok (k, o') ∧ o = exact o' ∧
        l = (dropLoopPoint input).map exact
    · have hs : srt' o l = (srt h.choose_spec.choose (dropLoopPoint input)).map (List.map exact) := dif_pos h
      obtain ⟨q1, q2, q3⟩ := h.choose_spec.choose_spec
      generalize h.choose_spec.choose = o' at hs q1 q2
      obtain ⟨r, r1, r2, r3⟩ := hfloat _ o' q1
      rw [r1] at hs
      refine ⟨_, hs, ?_, ?_⟩
      · rw [q3]; exact r2.map _
      · rw [List.pairwise_map]
        refine r3.imp_of_mem ?_
        intro a b ha hb hab
        rw [q2, orientCmp_exact G (hd o' (findLowest_floats G _ hd q1).1) (hd a (r2.mem_iff.1 ha)) (hd b (r2.mem_iff.1 hb))]
        exact hab
    · have h2 := C37_sort_exists o l hl
      have hs : srt' o l = some h2.choose := by simp only [srt', dif_neg h, dif_pos h2]
      exact ⟨_, hs, h2.choose_spec⟩
  obtain ⟨h, e1, e2, e3⟩ := C37_graham_scan_wo_atan2_is_hull srt' hsrt' (input.map exact) (by simpa using h4)
    (by simpa using h5) (by
      obtain ⟨a, ha, b, hb, hab⟩ := hne
      exact ⟨exact a, List.mem_map_of_mem ha, exact b, List.mem_map_of_mem hb, hab⟩)
  rw [grahamScanWo_eq (agreeQ G) srt srt' input hin] at e1
  · cases hc : grahamScanWoAtan2 srt input with
    | error e => rw [hc] at e1; cases e1
    | ok hull =>
      rw [hc] at e1
      simp only [Except.map, Except.ok.injEq] at e1
      subst e1
      exact ⟨hull, rfl, e2, e3⟩
  · intro k o ho
    have hex : ∃ k o', findLowest false getPoint (dropLoopPoint input) = .ok (k, o') ∧ exact o = exact o' ∧
        (dropLoopPoint input).map exact = (dropLoopPoint input).map exact := ⟨k, o, ho, rfl, rfl⟩
    have hs : srt' (exact o) ((dropLoopPoint input).map exact) =
        (srt hex.choose_spec.choose (dropLoopPoint input)).map (List.map exact) := dif_pos hex
    obtain ⟨q1, q2, q3⟩ := hex.choose_spec.choose_spec
    generalize hex.choose_spec.choose = o' at hs q1 q2
    have q4 := (Prod.mk.inj (Except.ok.inj (ho.symm.trans q1))).2
    rw [← q4] at hs
    refine ⟨hs, ?_⟩
    obtain ⟨r, r1, r2, r3⟩ := hfloat _ o ho
    intro r' hr' p hp
    rw [r1] at hr'
    simp only [Option.some.injEq] at hr'
    subst hr'
    exact hd p (r2.mem_iff.1 hp)

end Verif.Props
