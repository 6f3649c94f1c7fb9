import Verif.Props.FloatLinePoint
/-!
# How far apart two numbers can be that are equal for `ulps_eq`
-/
set_option linter.unusedSectionVars false
set_option linter.unusedVariables false
namespace Verif.Proofs.FloatUlps
open Verif Verif.Props Verif.Model Verif.Spec Scalar Verif.Proofs.FloatHull Verif.Proofs.FloatIntersect Verif.Proofs.FloatLinePoint Fl Flt
section
variable {f : Fmt} [Libm f]

/-- the spacing at a number -/
theorem ulp_bound {y M : ℚ} (h0 : y ≠ 0) (hy : |y| ≤ M) (hM : pow2 (f.emin + f.prec - 1) ≤ M) :
    pow2 (ulpExp f y) ≤ 2 * pow2 (-f.prec) * M := by
  have hε := pow2_pos (-(f.prec : ℤ))
  rcases le_or_gt (pow2 (f.emin + f.prec - 1)) |y| with h | h
  · have h1 := ulp_le (f := f) |y| h
    have e : ulpExp f |y| = ulpExp f y := by unfold ulpExp; rw [abs_abs]
    rw [e] at h1
    refine h1.trans (mul_le_mul_of_nonneg_left hy (by positivity))
  · have h1 := ilog2_le (abs_pos.2 h0)
    have h2 := pow2_lt_iff.1 (lt_of_le_of_lt h1 h)
    have e : ulpExp f y = f.emin := by
      unfold ulpExp
      rw [max_eq_right (by omega)]
    have e2 : pow2 f.emin = 2 * pow2 (-f.prec) * pow2 (f.emin + f.prec - 1) := by
      rw [show f.emin = 1 + (-f.prec + (f.emin + f.prec - 1)) by ring, pow2_add, pow2_add, pow2_eq 1]
      rw [show (1 + (-(f.prec:ℤ) + (f.emin + f.prec - 1)) + f.prec - 1) = f.emin + f.prec - 1 by ring]
      norm_num; ring
    rw [e, e2]; exact mul_le_mul_of_nonneg_left hM (by positivity)

theorem tiny_le (h6 : pow2 (-(f.prec : ℤ)) ≤ 1 / 64) : pow2 (f.emin - 1) ≤ pow2 (-f.prec) / 64 := by
  have e64 : pow2 (-f.prec) / 64 = pow2 (-f.prec - 6) := by
    rw [show -(f.prec : ℤ) - 6 = -f.prec + -6 by ring, pow2_add, pow2_eq (-6)]; norm_num; ring
  rw [e64]
  apply pow2_le
  have := f.hemin; have := f.hprec
  by_contra hc
  have h7 : (f.prec : ℤ) ≤ 5 := by omega
  have : pow2 (-6) < pow2 (-f.prec) := pow2_lt (by omega)
  rw [pow2_eq (-6)] at this
  norm_num at this
  linarith

theorem sub_overflow {a b : Flt f} {x y : ℚ} (ha : Is a x) (hb : Is b y) (h : Flt.le (Flt.sub a b).abs Flt.epsilon = true) :
    |roundQ f (x - y)| < pow2 f.emax := by
  by_contra hc
  obtain ⟨s, hs⟩ := add_ofQ ha.1 (is_neg hb).1
  rw [ha.2, (is_neg hb).2, ← sub_eq_add_neg] at hs
  have e : Flt.sub a b = .inf (decide (x - y < 0)) := by
    show Flt.add a b.neg = _
    rw [hs]; unfold ofQ; rw [dif_neg hc]
  rw [e] at h
  have e2 : Flt.abs (.inf (decide (x - y < 0)) : Flt f) = .inf false := by
    cases decide (x - y < 0) <;> rfl
  rw [e2] at h
  have h3 : ∀ w : Flt f, w.isFin = true → Flt.le (.inf false) w = false := by
    intro w hw
    cases w <;> simp only [isFin, Bool.false_eq_true] at hw <;> rfl
  rw [h3 _ is_epsilon.1] at h
  exact absurd h Bool.false_ne_true

theorem ord_zero {a : Flt f} (ha : Is a 0) : a.ord = 0 := by
  obtain ⟨h1, h2⟩ := ha
  cases a with
  | nan => simp [isFin] at h1
  | inf s => simp [isFin] at h1
  | zero s => rfl
  | fin q hh => exact absurd h2 hh.1

/-- the distance of the bit patterns bounds the distance of the numbers -/
theorem ord_dist {a b : Flt f} {x y : ℚ} (ha : Is a x) (hb : Is b y) (hxy : |x| ≤ |y|) (hy : y ≠ 0) (h : b.ord - a.ord ≤ 4) :
    |y| - |x| ≤ 4 * pow2 (ulpExp f y) := by
  have hu := pow2_pos (ulpExp f y)
  have hq : (b.ord : ℚ) - a.ord ≤ 4 := by exact_mod_cast h
  rcases hxy.lt_or_eq with hlt | heq
  · by_cases hx : x = 0
    · subst hx
      have e := ord_eq hb hy
      rw [ord_zero ha, e] at hq
      have : (0 : ℚ) ≤ ((ulpExp f y - f.emin : ℤ) : ℚ) * 2 ^ (f.prec - 1) := by
        have : f.emin ≤ ulpExp f y := le_max_right _ _
        exact mul_nonneg (by exact_mod_cast (by omega)) (by positivity)
      have h1 : |y| / pow2 (ulpExp f y) ≤ 4 := by push_cast at *; linarith
      rw [div_le_iff₀ hu] at h1
      rw [abs_zero]; linarith
    · have h4 := ord_diff ha hb (abs_pos.2 hx) hlt
      have := (div_le_iff₀ hu).1 (h4.trans hq)
      linarith
  · rw [heq]; linarith

/-- numbers that are equal for `ulps_eq` differ by little -/
theorem ulps_diff {a b : Flt f} {x y M : ℚ} (ha : Is a x) (hb : Is b y) (hx : |x| ≤ M)
    (hM : pow2 (f.emin + f.prec - 1) ≤ M) (h6 : pow2 (-f.prec) ≤ 1 / 64) (h : Flt.ulpsEq a b = true) :
    |x - y| ≤ pow2 (-f.prec) * (21 / 10 + 92 / 10 * M) := by
  have hε := pow2_pos (-(f.prec : ℤ))
  have hM0 : 0 < M := lt_of_lt_of_le (pow2_pos _) hM
  have hεM := mul_pos hε hM0
  unfold Flt.ulpsEq at h
  by_cases h1 : Flt.le (Flt.sub a b).abs Flt.epsilon = true
  · have hlim := sub_overflow ha hb h1
    rw [is_le (is_abs (is_sub ha hb hlim)) is_epsilon] at h1
    have h1 := of_decide_eq_true h1
    have e : pow2 (1 - f.prec) = 2 * pow2 (-f.prec) := by
      rw [show (1 : ℤ) - f.prec = 1 + -f.prec by ring, pow2_add, pow2_eq 1]; norm_num
    rw [e] at h1
    have h2 := roundQ_rel f (x - y)
    have h3 := tiny_le h6
    have h4 : |x - y| ≤ |roundQ f (x - y)| + |roundQ f (x - y) - (x - y)| := by
      have := abs_sub_abs_le_abs_sub (x - y) (roundQ f (x - y))
      rw [abs_sub_comm (x - y)] at this
      linarith
    have h5 : pow2 (-f.prec) * |x - y| ≤ 1 / 64 * |x - y| := mul_le_mul_of_nonneg_right h6 (abs_nonneg _)
    linarith
  rw [if_neg h1] at h
  split at h
  · exact absurd h Bool.false_ne_true
  split at h
  · exact absurd h Bool.false_ne_true
  rename_i hsgn
  have h := of_decide_eq_true h
  rw [abs_le] at h
  -- the two signs agree
  have hs : 0 ≤ x * y := by
    have hsgn : a.sign = b.sign := by simpa using hsgn
    have sg : ∀ {c : Flt f} {z : ℚ}, Is c z → (c.sign = true → z ≤ 0) ∧ (c.sign = false → 0 ≤ z) := by
      rintro c z ⟨h1, rfl⟩
      cases c with
      | nan => simp [isFin] at h1
      | inf s => simp [isFin] at h1
      | zero s => exact ⟨fun _ => le_rfl, fun _ => le_rfl⟩
      | fin q hh => exact ⟨fun h => (of_decide_eq_true h : q < 0).le, fun h => not_lt.1 (of_decide_eq_false h)⟩
    cases hb' : b.sign
    · exact mul_nonneg ((sg ha).2 (hsgn.trans hb')) ((sg hb).2 hb')
    · exact mul_nonneg_of_nonpos_of_nonpos ((sg ha).1 (hsgn.trans hb')) ((sg hb).1 hb')
  have habs : |x - y| = |(|x| - |y|)| := by
    rcases le_total 0 x with hx0 | hx0 <;> rcases le_total 0 y with hy0 | hy0
    · rw [abs_of_nonneg hx0, abs_of_nonneg hy0]
    · have : x * y = 0 := le_antisymm (mul_nonpos_of_nonneg_of_nonpos hx0 hy0) hs
      rcases mul_eq_zero.1 this with e | e <;> subst e <;> simp
    · have : x * y = 0 := le_antisymm (mul_nonpos_of_nonpos_of_nonneg hx0 hy0) hs
      rcases mul_eq_zero.1 this with e | e <;> subst e <;> simp
    · rw [abs_of_nonpos hx0, abs_of_nonpos hy0, abs_sub_comm]; congr 1; ring
  rw [habs]
  rcases le_total |x| |y| with hxy | hxy
  · rw [abs_of_nonpos (by linarith)]
    by_cases hy : y = 0
    · subst hy
      rw [abs_zero] at hxy ⊢
      have := abs_nonneg x
      linarith
    have h2 := ord_dist ha hb hxy hy (by omega)
    rcases le_total |y| M with hyM | hyM
    · have := ulp_bound hy hyM hM
      linarith
    · have h3 := ulp_bound hy le_rfl (hM.trans hyM)
      have h4 : pow2 (-f.prec) * |y| ≤ 1 / 64 * |y| := mul_le_mul_of_nonneg_right h6 (abs_nonneg _)
      have h5 : |y| ≤ 8 / 7 * M := by linarith
      have h6 := mul_le_mul_of_nonneg_left h5 hε.le
      linarith
  · rw [abs_of_nonneg (by linarith)]
    by_cases hx0 : x = 0
    · subst hx0
      rw [abs_zero] at hxy ⊢
      have := abs_nonneg y
      linarith
    have h2 := ord_dist hb ha hxy hx0 (by omega)
    have := ulp_bound hx0 hx hM
    linarith

/-- the absolute value of a rounded number -/
theorem abs_ofQ (s : Bool) (q : ℚ) : (ofQ s q : Flt f).abs = ofQ false |q| := by
  have hr : roundQ f |q| = |roundQ f q| := by
    rcases le_total 0 q with h | h
    · rw [abs_of_nonneg h, abs_of_nonneg (roundQ_nonneg f h)]
    · rw [abs_of_nonpos h, roundQ_neg, abs_of_nonpos]
      have := roundQ_nonneg f (neg_nonneg.2 h)
      rw [roundQ_neg] at this
      linarith
  unfold ofQ
  simp only [hr, abs_abs, abs_eq_zero]
  by_cases h : |roundQ f q| < pow2 f.emax
  · rw [dif_pos h, dif_pos h]
    by_cases h0 : roundQ f q = 0
    · rw [dif_pos h0, dif_pos h0]
      cases s <;> rfl
    · rw [dif_neg h0, dif_neg h0]
      unfold Flt.abs Flt.sign
      by_cases hn : roundQ f q < 0
      · rw [if_pos (decide_eq_true hn)]
        unfold Flt.neg
        simp only [abs_of_neg hn]
      · rw [if_neg (by simpa using hn)]
        simp only [abs_of_nonneg (not_lt.1 hn)]
  · rw [dif_neg h, dif_neg h]
    have : ¬ |q| < 0 := not_lt.2 (abs_nonneg q)
    rw [decide_eq_false this]
    cases decide (q < 0) <;> rfl

/-- `ulps_eq` is symmetric -/
theorem ulps_comm {a b : Flt f} (ha : a.isFin = true) (hb : b.isFin = true) : Flt.ulpsEq a b = Flt.ulpsEq b a := by
  have e : (Flt.sub a b).abs = (Flt.sub b a).abs := by
    obtain ⟨s, h1⟩ := add_ofQ ha (is_neg (is_self hb)).1
    obtain ⟨t, h2⟩ := add_ofQ hb (is_neg (is_self ha)).1
    unfold Flt.sub
    rw [h1, h2, abs_ofQ, abs_ofQ, (is_neg (is_self hb)).2, (is_neg (is_self ha)).2, ← abs_neg (a.val + -b.val)]
    congr 2
    ring
  unfold Flt.ulpsEq
  rw [e, abs_sub_comm, Bool.or_comm, bne_comm]

end
end Verif.Proofs.FloatUlps
