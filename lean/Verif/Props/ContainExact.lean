import Verif.Props.FloatContain
import Verif.Props.Misc
/-!
# C43, C75: `contains_point_exclusive`, exactly
-/
set_option linter.unusedSectionVars false
set_option linter.unusedVariables false
set_option linter.unusedSimpArgs false
namespace Verif.Props
open Verif Verif.Spec Verif.Model Verif.Hull

section
variable {K : Type} [Scalar K] [Field K] [LinearOrder K] [ExactScalar K]

/-- the edge of the loop that begins at a vertex -/
theorem edge_from {pts hull : List (V2 K)} (h : IsHullLoop pts hull) (hl : 3 < hull.length) {v : V2 K} (hv : v ∈ hull) :
    ∃ i c, hull[i]? = some v ∧ hull[i + 1]? = some c := by
  obtain ⟨i, hi⟩ := List.mem_iff_getElem?.1 hv
  have hlt := (List.getElem?_eq_some_iff.1 hi).1
  by_cases hi1 : i + 1 < hull.length
  · exact ⟨i, _, hi, List.getElem?_eq_getElem hi1⟩
  · have hlast := h.last_eq
    rw [show i = hull.length - 1 by omega, hlast] at hi
    exact ⟨0, _, hi, List.getElem?_eq_getElem (by omega)⟩

/-- a point inside the triangle of three vertices is on no line through one of them and another vertex of the loop, unless that
line passes between the other two -/
theorem off_diagonals {pts hull : List (V2 K)} (h : IsHullLoop pts hull) (hl : 3 < hull.length) {base x y p : V2 K}
    (hb : base ∈ hull) (hxy : ∃ k, hull[k]? = some x ∧ hull[k + 1]? = some y) (hxb : x ≠ base) (hyb : y ≠ base)
    (hin : InsideLoop hull p) (h1 : 0 < orient base x p) (h3 : 0 < orient y base p) :
    ∀ v ∈ hull, v ≠ base → orient base v p ≠ 0 := by
  have := ExactScalar.toIsStrictOrderedRing (K := K)
  obtain ⟨k, hkx, hky⟩ := hxy
  have hx := List.mem_of_getElem? hkx
  have hy := List.mem_of_getElem? hky
  intro v hv hvb h0
  by_cases hvx : v = x
  · rw [hvx] at h0; exact h1.ne' h0
  by_cases hvy : v = y
  · have e : orient y base p = - orient base y p := by simp only [orient]; ring
    rw [hvy] at h0; rw [e, h0, neg_zero] at h3; exact lt_irrefl _ h3
  rcases (Misc.orient_zero_iff base v p).1 h0 with e | ⟨u, hu⟩
  · exact hvb e.symm
  have e1 : orient base x p = u * orient base x v := by rw [hu]; simp only [orient, lerp2]; ring
  have e3 : orient y base p = u * orient y base v := by rw [hu]; simp only [orient, lerp2]; ring
  obtain ⟨i, c, hi, hc⟩ := edge_from h hl hb
  have hpos := hin i base c hi hc
  have ec : orient base c p = u * orient base c v := by rw [hu]; simp only [orient, lerp2]; ring
  have hcv : 0 ≤ orient base c v := h.left i base c hi hc v (h.vertices v hv)
  have hu0 : 0 < u := by
    rw [ec] at hpos
    exact pos_of_mul_pos_left hpos hcv
  have g1 : 0 < orient base x v := by rw [e1] at h1; exact pos_of_mul_pos_right h1 hu0.le
  have g3 : 0 < orient y base v := by rw [e3] at h3; exact pos_of_mul_pos_right h3 hu0.le
  obtain ⟨j0, hj0⟩ := List.mem_iff_getElem?.1 hv
  have g2 : 0 < orient x y v := IsHullLoop.strictLeft j0 h hl hkx hky hj0 hvx hvy
  obtain ⟨j, d, hj, hd⟩ := edge_from h hl hv
  have hle : ∀ q ∈ hull, 0 ≤ orient v d q := fun q hq => h.left j v d hj hd q (h.vertices q hq)
  have hlt : ∀ q ∈ hull, q ≠ v → q ≠ d → 0 < orient v d q := by
    intro q hq a b
    obtain ⟨m, hm⟩ := List.mem_iff_getElem?.1 hq
    exact IsHullLoop.strictLeft m h hl hj hd hm a b
  have key := bary v d base x y v
  have z : orient v d v = 0 := by simp only [orient]; ring
  rw [z, mul_zero] at key
  have k1 := mul_nonneg g2.le (hle base hb)
  have k2 := mul_nonneg g3.le (hle x hx)
  have k3 := mul_nonneg g1.le (hle y hy)
  have b0 : base = d := by
    by_contra hne
    have := mul_pos g2 (hlt base hb (Ne.symm hvb) hne)
    linarith
  have x0 : x = d := by
    by_contra hne
    have := mul_pos g3 (hlt x hx (Ne.symm hvx) hne)
    linarith
  exact hxb (x0.trans b0.symm)

/-- C43: the answer of `contains_point_exclusive` on a closed hull, exactly: `true` iff the point is strictly inside and not on
a line through the second point of the list and another vertex -/
theorem C43_exclusive_iff {pts hull : List (V2 K)} (h : IsHullLoop pts hull) (hl : 3 < hull.length) (p base : V2 K)
    (hb : hull[1]? = some base) :
    ∃ r, containsPointExclusive hull p = .ok r ∧
      (r = true ↔ InsideLoop hull p ∧ ∀ v ∈ hull, v ≠ base → orient base v p ≠ 0) := by
  obtain ⟨r, h1, h2⟩ := C43_exclusive_sound h hl p
  refine ⟨r, h1, fun hr => ⟨h2 hr, ?_⟩, fun ⟨a, b⟩ => ?_⟩
  · have hin := h2 hr
    subst hr
    unfold containsPointExclusive at h1
    rcases contains_closed isPointLeft h hl p with ⟨hr, hn⟩ |
      ⟨base', x, y, hb', hx, hy, hD, hxb, hyb, -, -, hk, hr⟩
    · rw [h1] at hr; cases hr
    · rw [hb] at hb'
      simp only [Option.some_inj] at hb'
      subst hb'
      rw [h1] at hr
      have := (Except.ok.inj hr).symm
      simp only [Bool.and_eq_true, isPointLeft_iff] at this
      exact off_diagonals h hl (List.mem_of_getElem? hb) hk hxb hyb hin this.1.1 this.2
  · have := C43_exclusive_complete h hl p base hb a b
    rw [h1] at this
    exact Except.ok.inj this

/-- a point strictly inside a triangle of three vertices is strictly inside the loop -/
theorem inside_of_triangle {pts hull : List (V2 K)} (h : IsHullLoop pts hull) (hl : 3 < hull.length) {base x y p : V2 K}
    (hb : base ∈ hull) (hx : x ∈ hull) (hy : y ∈ hull) (hxb : x ≠ base) (hyb : y ≠ base) (hD : 0 < orient base x y)
    (h1 : 0 < orient base x p) (h2 : 0 < orient x y p) (h3 : 0 < orient y base p) : InsideLoop hull p := by
  have := ExactScalar.toIsStrictOrderedRing (K := K)
  intro i a c ha hc
  have hxy : x ≠ y := by
    rintro rfl
    have : orient base x x = 0 := by simp only [orient]; ring
    exact hD.ne' this
  have hle : ∀ v ∈ hull, 0 ≤ orient a c v := fun v hv => h.left i a c ha hc v (h.vertices v hv)
  have hlt : ∀ v ∈ hull, v ≠ a → v ≠ c → 0 < orient a c v := by
    intro v hv h1 h2
    obtain ⟨j, hj⟩ := List.mem_iff_getElem?.1 hv
    exact IsHullLoop.strictLeft j h hl ha hc hj h1 h2
  have key := bary a c base x y p
  have e1 := mul_nonneg h2.le (hle base hb)
  have e2 := mul_nonneg h3.le (hle x hx)
  have e3 := mul_nonneg h1.le (hle y hy)
  have : 0 < orient base x y * orient a c p := by
    rw [key]
    by_cases hba : base = a ∨ base = c
    · by_cases hxa : x = a ∨ x = c
      · have : y ≠ a ∧ y ≠ c := by
          rcases hba with rfl | rfl <;> rcases hxa with rfl | rfl
          · exact absurd rfl hxb
          · exact ⟨hyb, Ne.symm hxy⟩
          · exact ⟨Ne.symm hxy, hyb⟩
          · exact absurd rfl hxb
        have := mul_pos h1 (hlt y hy this.1 this.2)
        linarith
      · rw [not_or] at hxa
        have := mul_pos h3 (hlt x hx hxa.1 hxa.2)
        linarith
    · rw [not_or] at hba
      have := mul_pos h2 (hlt base hb hba.1 hba.2)
      linarith
  exact pos_of_mul_pos_right this hD.le

/-- C43: the same for the hull without its closing point; now the lines through the first point of the list matter -/
theorem C43_exclusive_open_hull {pts w : List (V2 K)} {base : V2 K} (hb : w[0]? = some base)
    (h : IsHullLoop pts (w ++ [base])) (hl : 3 ≤ w.length) (p : V2 K) :
    ∃ r, containsPointExclusive w p = .ok r ∧
      (r = true ↔ InsideLoop (w ++ [base]) p ∧ ∀ v ∈ w, v ≠ base → orient base v p ≠ 0) := by
  have := ExactScalar.toIsStrictOrderedRing (K := K)
  have hlL : (w ++ [base]).length = w.length + 1 := by simp
  have hg : ∀ {k : Nat} {a : V2 K}, w[k]? = some a → (w ++ [base])[k]? = some a := by
    intro k a ha
    rw [List.getElem?_append_left (List.getElem?_eq_some_iff.1 ha).1, ha]
  have hlast : (w ++ [base])[w.length]? = some base := by simp
  have hcall : containsPointExclusive w p = (do
      match ← containsLoop base p (w.length + 1) w false with
      | none => .ok false
      | some (slice, retain) => containsFinal isPointLeft base p slice retain : Except Err Bool) := by
    obtain ⟨y, hy⟩ : ∃ y, w[w.length - 1]? = some y := ⟨_, List.getElem?_eq_getElem (by omega)⟩
    have hne : base.beq y = false := by
      rw [← Bool.not_eq_true, beq_iff]
      exact h.ne_of_index (i := 0) (j := w.length - 1) (hg hb) (hg hy) (by omega) (Or.inl (by omega))
    match w, hl, hb, hy with
    | a :: b :: c :: t, _, hb, hy =>
      simp at hb
      subst hb
      unfold containsPointExclusive containsPoint
      have : idx (a :: b :: c :: t) ((a :: b :: c :: t).length - 1) = .ok y := by
        unfold idx; rw [hy]
      simp only [List.isEmpty_cons, Bool.false_and, Bool.false_eq_true, if_false, this]
      simp only [bind, Except.bind, hne, Bool.false_eq_true, if_false]
      cases containsLoop a p ((a :: b :: c :: t).length + 1) (a :: b :: c :: t) false with
      | error e => rfl
      | ok v => cases v <;> rfl
  rw [hcall]
  have hbm : base ∈ w ++ [base] := by simp
  rcases contains_core isPointLeft w base p hb hl with ⟨hr, k, a, b, ha, hb, hneg⟩ |
    ⟨k, x, y, hk, hx, hy, hend, hst, hr⟩
  · refine ⟨false, hr, ?_⟩
    simp only [Bool.false_eq_true, false_iff, not_and]
    exact fun hin => absurd (hin k a b (hg ha) (hg hb)) (not_lt.2 hneg.le)
  · refine ⟨_, hr, ?_⟩
    have hyl := (List.getElem?_eq_some_iff.1 hy).1
    have hD : 0 < orient base x y := h.fan (hg hb) (hg hx) (hg hy) (by omega) (by omega)
    have hxb : x ≠ base := (h.ne_of_index (i := 0) (j := k) (hg hb) (hg hx) (by omega) (Or.inl (by omega))).symm
    have hyb : y ≠ base := (h.ne_of_index (i := 0) (j := k + 1) (hg hb) (hg hy) (by omega) (Or.inl (by omega))).symm
    have hxm := List.mem_of_getElem? (hg hx)
    have hym := List.mem_of_getElem? (hg hy)
    simp only [Bool.and_eq_true, isPointLeft_iff]
    constructor
    · rintro ⟨⟨h1, h2⟩, h3⟩
      have hin := inside_of_triangle h (by omega) hbm hxm hym hxb hyb hD h1 h2 h3
      exact ⟨hin, fun v hv => off_diagonals h (by omega) hbm ⟨k, hg hx, hg hy⟩ hxb hyb hin h1 h3 v (List.mem_append_left _ hv)⟩
    · rintro ⟨hin, hoff⟩
      refine ⟨⟨?_, hin k x y (hg hx) (hg hy)⟩, ?_⟩
      · have hz := hoff x (List.mem_of_getElem? hx) hxb
        rcases hst with rfl | hst
        · exact hin 0 base x (hg hb) (hg hx)
        · exact lt_of_le_of_ne hst (Ne.symm hz)
      · have hz := hoff y (List.mem_of_getElem? hy) hyb
        rcases hend with hend | hend
        · exact hin (k + 1) y base (hg hy) (by rw [show k + 1 + 1 = w.length by omega]; exact hlast)
        · have : orient y base p = - orient base y p := by simp only [orient]; ring
          rw [this, neg_pos]
          exact hend

end

/-! ## on floats -/
section
open Scalar Verif.Proofs.Transfer Verif.Proofs.FloatHull
variable {f : Fmt} [Libm f]

/-- C75: the answer of `contains_point_exclusive` on floats, exactly -/
theorem C75_exclusive_iff_on_floats {s B : ℤ} (G : GoodGrid f s B) {pts : List (V2 ℚ)} {hull : List (V2 (Flt f))}
    (hh : ∀ v ∈ hull, OnGrid s B v) (h : IsHullLoop pts (hull.map exact)) (hl : 3 < hull.length)
    (p : V2 (Flt f)) (hp : OnGrid s B p) (base : V2 (Flt f)) (hb : hull[1]? = some base) :
    ∃ r, containsPointExclusive hull p = .ok r ∧
      (r = true ↔ InsideLoop (hull.map exact) (exact p) ∧
        ∀ v ∈ hull, exact v ≠ exact base → orient (exact base) (exact v) (exact p) ≠ 0) := by
  obtain ⟨r, h1, h2⟩ := C43_exclusive_iff h (by simpa using hl) (exact p) (exact base) (by rw [List.getElem?_map, hb]; rfl)
  rw [containsExclusive_eq (agreeQ G).toTurns hull hp hh] at h1
  refine ⟨r, h1, ?_⟩
  rw [h2]
  simp only [List.mem_map, forall_exists_index, and_imp, forall_apply_eq_imp_iff₂]

end

/-- the centre of the square is on the line through `(2, 0)` and `(0, 2)`, the point below is not -/
example : (∀ v ∈ unitSquare, v ≠ ⟨2, 0⟩ → orient (⟨2, 0⟩ : V2 ℚ) v ⟨1, 1 / 2⟩ ≠ 0) ∧
    containsPointExclusive unitSquare ⟨1, 1 / 2⟩ = .ok true ∧
    (∃ v ∈ unitSquare, v ≠ ⟨2, 0⟩ ∧ orient (⟨2, 0⟩ : V2 ℚ) v ⟨1, 1⟩ = 0) ∧
    containsPointExclusive unitSquare ⟨1, 1⟩ = .ok false ∧
    containsPointExclusive unitSquare.dropLast ⟨1, 1 / 2⟩ = .ok true ∧
    containsPointExclusive unitSquare.dropLast ⟨1, 1⟩ = .ok false := by decide +kernel

end Verif.Props
