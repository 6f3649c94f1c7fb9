import Verif.Model.Float
import Verif.Spec.Instances
/-!
# Facts about the float model
-/
namespace Verif.Flt
open Fl
variable {f : Fmt}
set_option linter.unusedSimpArgs false
set_option linter.unusedVariables false

/-- `a` is finite and its value is `q` -/
def Is (a : Flt f) (q : ℚ) : Prop := a.isFin = true ∧ a.val = q

theorem Is.fin {a : Flt f} {q : ℚ} (h : Is a q) : a.isFin = true := h.1
theorem Is.val {a : Flt f} {q : ℚ} (h : Is a q) : a.val = q := h.2

theorem is_self {a : Flt f} (h : a.isFin = true) : Is a a.val := ⟨h, rfl⟩

theorem Is.unique {a : Flt f} {q r : ℚ} (h : Is a q) (h' : Is a r) : q = r := by
  rw [← h.2, ← h'.2]

theorem is_zero (s : Bool) : Is (zero s : Flt f) 0 := ⟨rfl, rfl⟩

theorem is_repr {a : Flt f} {q : ℚ} (h : Is a q) : Repr f q := by
  obtain ⟨h1, rfl⟩ := h
  cases a with
  | nan => simp [isFin] at h1
  | inf s => simp [isFin] at h1
  | zero s =>
    have := repr_int f 0 (by simp)
    simpa [Flt.val] using this
  | fin q h => exact h.2

theorem is_ofQ (s : Bool) {q : ℚ} (h : |roundQ f q| < pow2 f.emax) : Is (ofQ s q : Flt f) (roundQ f q) := by
  unfold ofQ
  rw [dif_pos h]
  split
  · rename_i h0; exact ⟨rfl, h0.symm⟩
  · exact ⟨rfl, rfl⟩

theorem is_ofQ_repr (s : Bool) {q : ℚ} (h : Repr f q) : Is (ofQ s q : Flt f) q := by
  have := is_ofQ (f := f) s (q := q) (by rw [h.fix]; exact h.1)
  rwa [h.fix] at this

theorem is_neg {a : Flt f} {q : ℚ} (h : Is a q) : Is a.neg (-q) := by
  obtain ⟨h1, rfl⟩ := h
  cases a <;> simp_all [Is, isFin, neg, Flt.val]

theorem is_abs {a : Flt f} {q : ℚ} (h : Is a q) : Is a.abs |q| := by
  unfold abs
  split
  · rename_i hs
    have : q ≤ 0 := by
      obtain ⟨h1, rfl⟩ := h
      cases a <;> simp_all [isFin, sign, Flt.val]
      exact hs.le
    rw [abs_of_nonpos this]; exact is_neg h
  · rename_i hs
    have : 0 ≤ q := by
      obtain ⟨h1, rfl⟩ := h
      cases a <;> simp_all [isFin, sign, Flt.val]
    rwa [abs_of_nonneg this]

theorem ofQ_zero (s : Bool) : (ofQ s 0 : Flt f) = zero s := by
  unfold ofQ
  rw [dif_pos (by rw [roundQ_zero, abs_zero]; exact pow2_pos _), dif_pos (roundQ_zero f)]

theorem add_ofQ {a b : Flt f} (ha : a.isFin = true) (hb : b.isFin = true) :
    ∃ s, add a b = ofQ s (a.val + b.val) := by
  cases a <;> cases b <;> simp only [isFin, Bool.false_eq_true] at ha hb
  · rename_i s t; exact ⟨s && t, by
      show (zero (s && t) : Flt f) = ofQ (s && t) (0 + 0)
      rw [add_zero, ofQ_zero]⟩
  all_goals exact ⟨false, rfl⟩

theorem mul_ofQ {a b : Flt f} (ha : a.isFin = true) (hb : b.isFin = true) :
    mul a b = ofQ (a.sign != b.sign) (a.val * b.val) := by
  cases a <;> cases b <;> simp only [isFin, Bool.false_eq_true] at ha hb <;> rfl

theorem div_ofQ {a b : Flt f} (ha : a.isFin = true) (hb : b.isFin = true) (h0 : b.val ≠ 0) :
    div a b = ofQ (a.sign != b.sign) (a.val / b.val) := by
  cases a <;> cases b <;> simp only [isFin, Bool.false_eq_true] at ha hb
  · exact absurd rfl h0
  · rfl
  · exact absurd rfl h0
  · rfl

theorem is_add {a b : Flt f} {x y : ℚ} (ha : Is a x) (hb : Is b y)
    (h : |roundQ f (x + y)| < pow2 f.emax) : Is (add a b) (roundQ f (x + y)) := by
  obtain ⟨s, hs⟩ := add_ofQ ha.1 hb.1
  rw [hs, ha.2, hb.2]
  exact is_ofQ s h

theorem is_sub {a b : Flt f} {x y : ℚ} (ha : Is a x) (hb : Is b y)
    (h : |roundQ f (x - y)| < pow2 f.emax) : Is (sub a b) (roundQ f (x - y)) := by
  have := is_add ha (is_neg hb) (by rwa [← sub_eq_add_neg])
  rwa [← sub_eq_add_neg] at this

theorem is_mul {a b : Flt f} {x y : ℚ} (ha : Is a x) (hb : Is b y)
    (h : |roundQ f (x * y)| < pow2 f.emax) : Is (mul a b) (roundQ f (x * y)) := by
  rw [mul_ofQ ha.1 hb.1, ha.2, hb.2]
  exact is_ofQ _ h

theorem is_div {a b : Flt f} {x y : ℚ} (ha : Is a x) (hb : Is b y) (hy : y ≠ 0)
    (h : |roundQ f (x / y)| < pow2 f.emax) : Is (div a b) (roundQ f (x / y)) := by
  rw [div_ofQ ha.1 hb.1 (by rwa [hb.2]), ha.2, hb.2]
  exact is_ofQ _ h

theorem is_lt {a b : Flt f} {x y : ℚ} (ha : Is a x) (hb : Is b y) : lt a b = decide (x < y) := by
  obtain ⟨a1, rfl⟩ := ha
  obtain ⟨b1, rfl⟩ := hb
  cases a <;> cases b <;> simp only [isFin, Bool.false_eq_true] at a1 b1 <;> rfl

theorem is_beq {a b : Flt f} {x y : ℚ} (ha : Is a x) (hb : Is b y) : beq a b = decide (x = y) := by
  obtain ⟨a1, rfl⟩ := ha
  obtain ⟨b1, rfl⟩ := hb
  cases a <;> cases b <;> simp only [isFin, Bool.false_eq_true] at a1 b1 <;> rfl

theorem is_le {a b : Flt f} {x y : ℚ} (ha : Is a x) (hb : Is b y) : le a b = decide (x ≤ y) := by
  unfold le
  rw [is_lt ha hb, is_beq ha hb, ← Bool.decide_or]
  exact decide_eq_decide.2 le_iff_lt_or_eq.symm

/-! ### Numbers on a grid `n * 2^e` are computed with exactly -/

/-- `2^e` is a possible unit: not too small, and `2^prec` of them are below the limit -/
def UnitOk (f : Fmt) (e : ℤ) : Prop := f.emin ≤ e ∧ f.prec + e < f.emax

theorem repr_grid {e : ℤ} (he : UnitOk f e) {n : ℤ} (hn : |n| ≤ 2 ^ f.prec) : Repr f (n * pow2 e) := by
  have hfix := roundQ_fix f n e hn he.1
  have hlt : |(n : ℚ) * pow2 e| < pow2 f.emax := by
    have h1 : |(n : ℚ)| ≤ pow2 f.prec := by rw [pow2_nat]; exact_mod_cast hn
    rw [abs_mul, abs_of_pos (pow2_pos e)]
    refine lt_of_le_of_lt (mul_le_mul_of_nonneg_right h1 (pow2_pos e).le) ?_
    rw [← pow2_add]; exact pow2_lt he.2
  have := roundQ_repr f _ (by rwa [hfix])
  rwa [hfix] at this

theorem grid_sub {a b : Flt f} {e m n : ℤ} (he : UnitOk f e) (ha : Is a (m * pow2 e))
    (hb : Is b (n * pow2 e)) (hn : |m - n| ≤ 2 ^ f.prec) : Is (sub a b) ((m - n : ℤ) * pow2 e) := by
  have hr := repr_grid he hn
  have e1 : (m : ℚ) * pow2 e - n * pow2 e = ((m - n : ℤ) : ℚ) * pow2 e := by push_cast; ring
  have := is_sub ha hb (by rw [e1, hr.fix]; exact hr.1)
  rwa [e1, hr.fix] at this

theorem grid_add {a b : Flt f} {e m n : ℤ} (he : UnitOk f e) (ha : Is a (m * pow2 e))
    (hb : Is b (n * pow2 e)) (hn : |m + n| ≤ 2 ^ f.prec) : Is (add a b) ((m + n : ℤ) * pow2 e) := by
  have hr := repr_grid he hn
  have e1 : (m : ℚ) * pow2 e + n * pow2 e = ((m + n : ℤ) : ℚ) * pow2 e := by push_cast; ring
  have := is_add ha hb (by rw [e1, hr.fix]; exact hr.1)
  rwa [e1, hr.fix] at this

theorem grid_mul {a b : Flt f} {e k m n : ℤ} (he : UnitOk f (e + k)) (ha : Is a (m * pow2 e))
    (hb : Is b (n * pow2 k)) (hn : |m * n| ≤ 2 ^ f.prec) : Is (mul a b) ((m * n : ℤ) * pow2 (e + k)) := by
  have hr := repr_grid he hn
  have e1 : (m : ℚ) * pow2 e * (n * pow2 k) = ((m * n : ℤ) : ℚ) * pow2 (e + k) := by
    rw [pow2_add]; push_cast; ring
  have := is_mul ha hb (by rw [e1, hr.fix]; exact hr.1)
  rwa [e1, hr.fix] at this

/-! ### `ulps_eq` on a grid -/

theorem is_epsilon : Is (epsilon : Flt f) (pow2 (1 - f.prec)) := by
  apply is_ofQ_repr
  have := repr_grid (f := f) (e := 1 - f.prec) (n := 1)
    ⟨by have := f.hemin; omega, by have := f.hemax; have := f.hprec; omega⟩
    (by simp; exact one_le_pow₀ (by norm_num))
  simpa using this

/-- the bit pattern of a finite number -/
theorem ord_eq {a : Flt f} {q : ℚ} (h : Is a q) (hq : q ≠ 0) :
    (a.ord : ℚ) = ((ulpExp f q - f.emin : ℤ) : ℚ) * 2 ^ (f.prec - 1) + |q| / pow2 (ulpExp f q) := by
  obtain ⟨h1, rfl⟩ := h
  cases a with
  | nan => simp [isFin] at h1
  | inf s => simp [isFin] at h1
  | zero s => simp [Flt.val] at hq
  | fin q hh =>
    simp only [Flt.val, ord]
    have hint : ∃ n : ℤ, |q| / pow2 (ulpExp f q) = n := by
      refine ⟨|rne (q / pow2 (ulpExp f q))|, ?_⟩
      have := hh.2.fix
      rw [roundQ_eq] at this
      rw [div_eq_iff (pow2_ne _)]
      conv_lhs => rw [← this]
      rw [abs_mul, abs_of_pos (pow2_pos _)]
      push_cast; rfl
    obtain ⟨n, hn⟩ := hint
    rw [hn, Rat.floor_intCast]
    push_cast; rfl

/-- bit patterns grow at least as fast as the number of units of the larger number -/
theorem ord_diff {a b : Flt f} {x y : ℚ} (ha : Is a x) (hb : Is b y) (hx : 0 < |x|) (hxy : |x| < |y|) :
    (|y| - |x|) / pow2 (ulpExp f y) ≤ (b.ord : ℚ) - a.ord := by
  rw [ord_eq ha (abs_pos.1 hx), ord_eq hb (abs_pos.1 (hx.trans hxy))]
  have hle : ulpExp f x ≤ ulpExp f y := by
    have := ulpExp_mono f hx hxy.le
    simpa [ulpExp] using this
  obtain ⟨d, hd⟩ : ∃ d : ℕ, ulpExp f y = ulpExp f x + d := ⟨(ulpExp f y - ulpExp f x).toNat, by omega⟩
  rw [hd, pow2_add, pow2_nat]
  obtain ⟨u, hu⟩ : ∃ u, u = pow2 (ulpExp f x) := ⟨_, rfl⟩
  have hup : 0 < u := hu ▸ pow2_pos _
  -- the number of units of `x`
  have hm : |x| / u ≤ 2 * 2 ^ (f.prec - 1) := by
    rw [div_le_iff₀ hup]
    have h1 := lt_ilog2 hx
    have h2 : pow2 (ilog2 |x| + 1) ≤ pow2 (f.prec + ulpExp f x) := pow2_le (by unfold ulpExp; omega)
    rw [pow2_add _ (ulpExp f x), pow2_nat, ← hu] at h2
    have h3 : (2 : ℚ) ^ f.prec = 2 * 2 ^ (f.prec - 1) := by
      rw [← pow_succ']; congr 1; have := f.hprec; omega
    rw [h3] at h2
    linarith
  rw [← hu]
  obtain ⟨m, hmm⟩ : ∃ m, m = |x| / u := ⟨_, rfl⟩
  have hm0 : 0 ≤ m := hmm ▸ div_nonneg hx.le hup.le
  obtain ⟨P, hP⟩ : ∃ P : ℚ, P = 2 ^ (f.prec - 1) := ⟨_, rfl⟩
  have hPp : 0 < P := hP ▸ by positivity
  rw [← hmm, ← hP] at hm
  rw [← hmm, ← hP]
  have e1 : (|y| - |x|) / (u * 2 ^ d) = |y| / (u * 2 ^ d) - m / 2 ^ d := by
    rw [hmm]; field_simp
  rw [e1]
  push_cast
  have key : m - m / 2 ^ d ≤ d * P := by
    rcases d with _ | _ | d
    · simp
    · norm_num; linarith
    · have : 0 ≤ m / 2 ^ (d + 2) := by positivity
      have : (2 : ℚ) * P ≤ ((d + 2 : ℕ) : ℚ) * P := by
        apply mul_le_mul_of_nonneg_right _ hPp.le
        push_cast; linarith [(Nat.cast_nonneg d : (0 : ℚ) ≤ d)]
      linarith
  linarith

/-- the unit the grid theorems about `ulps_eq` need: the square of it is above `EPSILON` -/
theorem grid_ulps {a b : Flt f} {e m n : ℤ} (he : UnitOk f e) (hep : 2 - (f.prec : ℤ) ≤ e)
    (ha : Is a (m * pow2 e)) (hb : Is b (n * pow2 e)) (hm : |m| < 2 ^ (f.prec - 3))
    (hn : |n| < 2 ^ (f.prec - 3)) : ulpsEq a b = decide (m = n) := by
  have hp := f.hprec
  have hpow : (2 : ℤ) ^ f.prec = 8 * 2 ^ (f.prec - 3) := by
    rw [show (8 : ℤ) = 2 ^ 3 by norm_num, ← pow_add]; congr 1; omega
  have hpp : (0 : ℤ) < 2 ^ (f.prec - 3) := by positivity
  have hs := grid_sub he ha hb (by rw [abs_le]; rw [abs_lt] at hm hn; constructor <;> omega)
  have habs := is_abs hs
  have hle := is_le habs is_epsilon
  unfold ulpsEq
  rw [hle]
  by_cases hmn : m = n
  · have : |((m - n : ℤ) : ℚ) * pow2 e| ≤ pow2 (1 - f.prec) := by
      subst hmn; simp; exact (pow2_pos _).le
    rw [decide_eq_true this, if_pos rfl, decide_eq_true hmn]
  · have hbig : ¬ |((m - n : ℤ) : ℚ) * pow2 e| ≤ pow2 (1 - f.prec) := by
      rw [not_le, abs_mul, abs_of_pos (pow2_pos e)]
      have h1 : (1 : ℚ) ≤ |((m - n : ℤ) : ℚ)| := by
        have : (1 : ℤ) ≤ |m - n| := Int.one_le_abs (by omega)
        exact_mod_cast this
      have h2 : pow2 (1 - f.prec) < pow2 e := pow2_lt (by omega)
      nlinarith [pow2_pos e]
    have ha0 : a ≠ nan := by rintro rfl; simp [Is, isFin] at ha
    have hb0 : b ≠ nan := by rintro rfl; simp [Is, isFin] at hb
    simp only [decide_eq_true_eq, hbig, if_false, ha0, hb0, decide_false, Bool.or_self,
      Bool.false_eq_true, hmn]
    split
    · rfl
    · rename_i hsg
      have hsg : a.sign = b.sign := by simpa using hsg
      rw [decide_eq_false_iff_not, not_le]
      -- a helper for both orders
      have main : ∀ {a b : Flt f} {m n : ℤ}, Is a (m * pow2 e) → Is b (n * pow2 e) →
          |m| < 2 ^ (f.prec - 3) → |n| < 2 ^ (f.prec - 3) → |m| < |n| → 4 < b.ord - a.ord := by
        intro a b m n ha hb hm hn hlt
        have hn0 : n ≠ 0 := by rintro rfl; simp at hlt; exact absurd hlt (not_lt.2 (abs_nonneg m))
        have hnq : 0 < |(n : ℚ) * pow2 e| := by
          rw [abs_pos]; exact mul_ne_zero (by exact_mod_cast hn0) (pow2_ne _)
        have habs : ∀ k : ℤ, |(k : ℚ) * pow2 e| = (|k| : ℤ) * pow2 e := by
          intro k; rw [abs_mul, abs_of_pos (pow2_pos e)]; push_cast; rfl
        -- the unit at the larger number
        have hu : ulpExp f ((n : ℚ) * pow2 e) ≤ e - 3 ∨ ulpExp f ((n : ℚ) * pow2 e) = f.emin := by
          have hl : ilog2 |(n : ℚ) * pow2 e| < (f.prec - 3 : ℕ) + e := by
            apply pow2_lt_iff.1
            refine lt_of_le_of_lt (ilog2_le hnq) ?_
            rw [habs, pow2_add, pow2_nat]
            apply mul_lt_mul_of_pos_right _ (pow2_pos e)
            exact_mod_cast hn
          unfold ulpExp
          omega
        have hu : ulpExp f ((n : ℚ) * pow2 e) ≤ e - 3 := by
          rcases hu with h | h
          · exact h
          · rw [h]; have := f.hemin
            omega
        have hstep : 8 * pow2 (ulpExp f ((n : ℚ) * pow2 e)) ≤ pow2 e := by
          have h1 := pow2_le hu
          have h2 : pow2 e = 8 * pow2 (e - 3) := by
            rw [show e = 3 + (e - 3) by ring, pow2_add, pow2_eq 3]; norm_num
          linarith
        have hup := pow2_pos (ulpExp f ((n : ℚ) * pow2 e))
        have h8 : ∀ k : ℤ, 0 < k → (8 : ℚ) ≤ k * pow2 e / pow2 (ulpExp f ((n : ℚ) * pow2 e)) := by
          intro k hk
          rw [le_div_iff₀ hup]
          have : (1 : ℚ) ≤ k := by exact_mod_cast hk
          nlinarith [pow2_pos e]
        have hfin : (4 : ℚ) < (b.ord : ℚ) - a.ord := by
          by_cases hm0 : m = 0
          · have hao : a.ord = 0 := by
              obtain ⟨h1, h2⟩ := ha
              subst hm0
              cases a with
              | fin q hq => simp [Flt.val] at h2; exact absurd h2 hq.1
              | _ => simp_all [ord, isFin]
            rw [hao, ord_eq hb (abs_pos.1 hnq), habs]
            have h1 := h8 |n| (abs_pos.2 hn0)
            have h2 : (0 : ℚ) ≤ ((ulpExp f ((n : ℚ) * pow2 e) - f.emin : ℤ) : ℚ) := by
              have : f.emin ≤ ulpExp f ((n : ℚ) * pow2 e) := le_max_right _ _
              exact_mod_cast (by omega : (0 : ℤ) ≤ ulpExp f ((n : ℚ) * pow2 e) - f.emin)
            have h3 := mul_nonneg h2 (by positivity : (0 : ℚ) ≤ 2 ^ (f.prec - 1))
            push_cast at h1 h3 ⊢
            linarith
          · have hmq : 0 < |(m : ℚ) * pow2 e| := by
              rw [abs_pos]; exact mul_ne_zero (by exact_mod_cast hm0) (pow2_ne _)
            have hlt' : |(m : ℚ) * pow2 e| < |(n : ℚ) * pow2 e| := by
              rw [habs, habs]
              apply mul_lt_mul_of_pos_right _ (pow2_pos e)
              exact_mod_cast hlt
            have h1 := ord_diff ha hb hmq hlt'
            have h2 := h8 (|n| - |m|) (by omega)
            rw [habs, habs, ← sub_mul] at h1
            push_cast at h1 h2
            linarith
        exact_mod_cast hfin
      have hne : |m| ≠ |n| := by
        intro h
        rcases abs_eq_abs.1 h with h | h
        · exact hmn h
        · -- opposite signs
          have hm0 : m ≠ 0 := by rintro rfl; apply hmn; omega
          have sgn : ∀ {a : Flt f} {k : ℤ}, Is a (k * pow2 e) → k ≠ 0 → a.sign = decide (k < 0) := by
            intro a k ha hk
            obtain ⟨h1, h2⟩ := ha
            cases a with
            | fin q hq =>
              simp only [Flt.val] at h2
              simp only [sign, h2, decide_eq_decide]
              constructor
              · intro h
                have : (k : ℚ) < 0 := by
                  by_contra hc
                  exact absurd h (not_lt.2 (mul_nonneg (not_lt.1 hc) (pow2_pos e).le))
                exact_mod_cast this
              · intro h
                exact mul_neg_of_neg_of_pos (by exact_mod_cast h) (pow2_pos e)
            | nan => simp [isFin] at h1
            | inf s => simp [isFin] at h1
            | zero s =>
              simp only [Flt.val] at h2
              rcases mul_eq_zero.1 h2.symm with h | h
              · exact absurd (by exact_mod_cast h) hk
              · exact absurd h (pow2_ne _)
          rw [sgn ha hm0, sgn hb (by omega), decide_eq_decide] at hsg
          omega
      rcases lt_or_gt_of_ne hne with h | h
      · have := main ha hb hm hn h
        rw [abs_sub_comm]
        exact lt_of_lt_of_le this (le_abs_self _)
      · have := main hb ha hn hm h
        exact lt_of_lt_of_le this (le_abs_self _)

end Verif.Flt
