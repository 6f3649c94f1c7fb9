import Verif.Proofs.Float
import Mathlib.Analysis.SpecialFunctions.Pow.Real
/-!
# The rounding of the float model is the rounding of IEEE 754

`roundQ` returns a nearest number, the one with an even significand in a tie, and `sqrt` returns the number
nearest to the real square root.  Error bounds that follow from it.
-/
namespace Verif.Fl
open Verif
variable {f : Fmt}

/-- at most half a unit in the last place -/
theorem roundQ_err (f : Fmt) (q : ℚ) : |roundQ f q - q| ≤ pow2 (ulpExp f q) / 2 := by
  rw [roundQ_eq]
  have h := rne_near (q / pow2 (ulpExp f q))
  have hp := pow2_pos (ulpExp f q)
  have e : (rne (q / pow2 (ulpExp f q)) : ℚ) * pow2 (ulpExp f q) - q
      = ((rne (q / pow2 (ulpExp f q)) : ℚ) - q / pow2 (ulpExp f q)) * pow2 (ulpExp f q) := by
    field_simp
  rw [e, abs_mul, abs_of_pos hp]
  nlinarith

/-- relative and absolute error -/
theorem roundQ_rel (f : Fmt) (q : ℚ) : |roundQ f q - q| ≤ pow2 (-f.prec) * |q| + pow2 (f.emin - 1) := by
  rcases eq_or_ne q 0 with h0 | h0
  · subst h0; simp [roundQ_zero]; exact (pow2_pos _).le
  have hq : 0 < |q| := abs_pos.2 h0
  refine (roundQ_err f q).trans ?_
  have hl := ilog2_le hq
  rcases le_total (ilog2 |q| + 1 - f.prec) f.emin with h | h
  · have : ulpExp f q = f.emin := max_eq_right h
    rw [this, show f.emin - 1 = f.emin + -1 by ring, pow2_add f.emin (-1), pow2_eq (-1)]
    have := mul_nonneg (pow2_pos (-f.prec)).le hq.le
    norm_num; linarith
  · have : ulpExp f q = ilog2 |q| + 1 - f.prec := max_eq_left h
    rw [this, show ilog2 |q| + 1 - (f.prec : ℤ) = ilog2 |q| + (1 + -f.prec) by ring, pow2_add, pow2_add 1, pow2_eq 1]
    have h1 := mul_le_mul_of_nonneg_left hl (pow2_pos (-f.prec)).le
    have := pow2_pos (f.emin - 1)
    norm_num; linarith

/-- relative error of a result that is not subnormal -/
theorem roundQ_rel_normal (f : Fmt) {q : ℚ} (h : pow2 (f.emin + f.prec - 1) ≤ |q|) :
    |roundQ f q - q| ≤ pow2 (-f.prec) * |q| := by
  have hq : 0 < |q| := lt_of_lt_of_le (pow2_pos _) h
  refine (roundQ_err f q).trans ?_
  have hl := ilog2_le hq
  have hl2 := lt_ilog2 hq
  have hm : f.emin + f.prec - 1 < ilog2 |q| + 1 := pow2_lt_iff.1 (lt_of_le_of_lt h hl2)
  have : ulpExp f q = ilog2 |q| + 1 - f.prec := max_eq_left (by omega)
  rw [this, show ilog2 |q| + 1 - (f.prec : ℤ) = ilog2 |q| + (1 + -f.prec) by ring, pow2_add, pow2_add 1, pow2_eq 1]
  have h1 := mul_le_mul_of_nonneg_left hl (pow2_pos (-f.prec)).le
  norm_num; linarith

/-- the nearest integer -/
theorem rne_nearest (x : ℚ) (n : ℤ) : |(rne x : ℚ) - x| ≤ |(n : ℚ) - x| := by
  have h := rne_near x
  rcases eq_or_ne n (rne x) with rfl | hn
  · exact le_refl _
  rw [abs_le] at h
  rcases lt_or_gt_of_ne hn with hlt | hlt
  · have : (n : ℚ) + 1 ≤ rne x := by exact_mod_cast hlt
    rw [abs_of_nonpos (show (n : ℚ) - x ≤ 0 by linarith), abs_le]; constructor <;> linarith
  · have : (rne x : ℚ) + 1 ≤ n := by exact_mod_cast hlt
    rw [abs_of_nonneg (show 0 ≤ (n : ℚ) - x by linarith), abs_le]; constructor <;> linarith

/-- a tie is broken to the even neighbour -/
theorem rne_tie (x : ℚ) (n : ℤ) (hn : n ≠ rne x) (h : |(n : ℚ) - x| = |(rne x : ℚ) - x|) : rne x % 2 = 0 := by
  have h1 := floor_le' x
  have h2 := lt_floor' x
  have hnear := rne_near x
  have hd : |(n : ℚ) - rne x| ≤ 1 := by
    calc |(n : ℚ) - rne x| = |((n : ℚ) - x) - ((rne x : ℚ) - x)| := by ring_nf
      _ ≤ |(n : ℚ) - x| + |(rne x : ℚ) - x| := abs_sub _ _
      _ ≤ 1 := by rw [h]; linarith
  have hd1 : (1 : ℚ) ≤ |(n : ℚ) - rne x| := by
    have : (1 : ℤ) ≤ |n - rne x| := Int.one_le_abs (by omega)
    exact_mod_cast this
  -- the distance is one half
  have hhalf : |(rne x : ℚ) - x| = 1 / 2 := by
    have : |(n : ℚ) - rne x| ≤ |(n : ℚ) - x| + |(rne x : ℚ) - x| := by
      calc |(n : ℚ) - rne x| = |((n : ℚ) - x) - ((rne x : ℚ) - x)| := by ring_nf
        _ ≤ _ := abs_sub _ _
    rw [h] at this
    linarith
  revert hhalf
  unfold rne
  simp only
  intro hhalf
  split_ifs at hhalf ⊢ with c1 c2 c3
  · rw [abs_of_nonpos (by linarith)] at hhalf; linarith
  · push_cast at hhalf
    rw [abs_of_nonneg (by linarith)] at hhalf; linarith
  · exact c3
  · omega

/-- numbers of the format at or above a power of two are multiples of the unit -/
theorem repr_grid_of_le {r : ℚ} (hr : Repr f r) {e : ℤ} (he : e = f.emin ∨ pow2 (f.prec + e - 1) ≤ |r|) :
    ∃ n : ℤ, r = n * pow2 e := by
  obtain ⟨_, n, k, rfl, hn, hk⟩ := hr
  have hek : e ≤ k := by
    rcases he with h | h
    · omega
    · by_contra hc
      have hn' : |(n : ℚ)| < 2 ^ f.prec := by exact_mod_cast hn
      rw [abs_mul, abs_of_pos (pow2_pos k)] at h
      have h1 : pow2 (f.prec + k) ≤ pow2 (f.prec + e - 1) := pow2_le (by omega)
      rw [pow2_add, pow2_nat] at h1
      have := mul_lt_mul_of_pos_right hn' (pow2_pos k)
      linarith
  obtain ⟨m, hm⟩ := pow2_grid hek
  exact ⟨n * m, by rw [hm]; push_cast; ring⟩

/-- in terms of real numbers: a number of the format is not nearer to `x` than the nearest multiple of the unit
(`e` is the exponent of the unit at `x`) -/
theorem nearest_of_grid {x : ℝ} {e n : ℤ}
    (hx : e = f.emin ∨ (pow2 (f.prec + e - 1) : ℝ) ≤ |x|)
    (hn : ∀ m : ℤ, |(n : ℝ) * (pow2 e : ℚ) - x| ≤ |(m : ℝ) * (pow2 e : ℚ) - x|) {r : ℚ} (hr : Repr f r) :
    |(n : ℝ) * (pow2 e : ℚ) - x| ≤ |(r : ℝ) - x| := by
  have done : (∃ m : ℤ, r = m * pow2 e) → |(n : ℝ) * (pow2 e : ℚ) - x| ≤ |(r : ℝ) - x| := by
    rintro ⟨m, hm⟩
    have := hn m
    rwa [show ((m : ℝ) * (pow2 e : ℚ)) = ((r : ℚ) : ℝ) by rw [hm]; push_cast; rfl] at this
  by_cases hc : e = f.emin ∨ pow2 (f.prec + e - 1) ≤ |r|
  · exact done (repr_grid_of_le hr hc)
  · have hc1 : e ≠ f.emin := fun h => hc (Or.inl h)
    have hc2 : |r| < pow2 (f.prec + e - 1) := not_le.1 fun h => hc (Or.inr h)
    have hx := hx.resolve_left hc1
    have hp := f.hprec
    obtain ⟨m, hm⟩ := pow2_grid (e := e) (k := f.prec + e - 1) (by omega)
    have hrr : |(r : ℝ)| < (pow2 (f.prec + e - 1) : ℚ) := by exact_mod_cast hc2
    rcases le_or_gt 0 x with h0 | h0
    · refine (hn m).trans ?_
      rw [show ((m : ℝ) * (pow2 e : ℚ)) = ((pow2 (f.prec + e - 1) : ℚ) : ℝ) by rw [hm]; push_cast; rfl]
      rw [abs_of_nonneg h0] at hx
      rw [abs_lt] at hrr
      rw [abs_of_nonpos (by linarith), abs_of_nonpos (by linarith)]
      linarith
    · refine (hn (-m)).trans ?_
      rw [show (((-m : ℤ) : ℝ) * (pow2 e : ℚ)) = -((pow2 (f.prec + e - 1) : ℚ) : ℝ) by rw [hm]; push_cast; ring]
      rw [abs_of_neg h0] at hx
      rw [abs_lt] at hrr
      rw [abs_of_nonneg (by linarith), abs_of_nonneg (by linarith)]
      linarith

/-- **Rounding to nearest.** -/
theorem roundQ_nearest (q : ℚ) {r : ℚ} (hr : Repr f r) : |roundQ f q - q| ≤ |r - q| := by
  rcases eq_or_ne q 0 with h0 | h0
  · subst h0; simp [roundQ_zero]
  have hq : 0 < |q| := abs_pos.2 h0
  have hp := pow2_pos (ulpExp f q)
  have := nearest_of_grid (f := f) (x := (q : ℝ)) (e := ulpExp f q) (n := rne (q / pow2 (ulpExp f q)))
    (by
      rcases le_total (ilog2 |q| + 1 - f.prec) f.emin with h | h
      · exact Or.inl (max_eq_right h)
      · right
        have e1 : ulpExp f q = ilog2 |q| + 1 - f.prec := max_eq_left h
        have := ilog2_le hq
        rw [e1, show (f.prec : ℤ) + (ilog2 |q| + 1 - f.prec) - 1 = ilog2 |q| by ring]
        exact_mod_cast this) (by
      intro m
      have h1 := rne_nearest (q / pow2 (ulpExp f q)) m
      have e : ∀ k : ℤ, |(k : ℚ) * pow2 (ulpExp f q) - q| = |(k : ℚ) - q / pow2 (ulpExp f q)| * pow2 (ulpExp f q) := by
        intro k
        rw [show (k : ℚ) * pow2 (ulpExp f q) - q = ((k : ℚ) - q / pow2 (ulpExp f q)) * pow2 (ulpExp f q) by field_simp,
          abs_mul, abs_of_pos hp]
      have h2 : |(rne (q / pow2 (ulpExp f q)) : ℚ) * pow2 (ulpExp f q) - q| ≤ |(m : ℚ) * pow2 (ulpExp f q) - q| := by
        rw [e, e]; exact mul_le_mul_of_nonneg_right h1 hp.le
      exact_mod_cast h2) hr
  rw [roundQ_eq]
  exact_mod_cast this

/-- **Ties to even.**  If another number is as near, the significand of the result is even. -/
theorem roundQ_tie (q : ℚ) {r : ℚ} (hr : Repr f r) (hne : r ≠ roundQ f q)
    (h : |r - q| = |roundQ f q - q|) : ∃ n : ℤ, roundQ f q = (2 * n : ℤ) * pow2 (ulpExp f q) := by
  rcases eq_or_ne q 0 with h0 | h0
  · subst h0; exact ⟨0, by simp [roundQ_zero]⟩
  have hq : 0 < |q| := abs_pos.2 h0
  have hp := pow2_pos (ulpExp f q)
  have hprec := f.hprec
  by_cases hg : ∃ m : ℤ, r = m * pow2 (ulpExp f q)
  · obtain ⟨m, hm⟩ := hg
    have e : ∀ k : ℤ, |(k : ℚ) * pow2 (ulpExp f q) - q| = |(k : ℚ) - q / pow2 (ulpExp f q)| * pow2 (ulpExp f q) := by
      intro k
      rw [show (k : ℚ) * pow2 (ulpExp f q) - q = ((k : ℚ) - q / pow2 (ulpExp f q)) * pow2 (ulpExp f q) by field_simp,
        abs_mul, abs_of_pos hp]
    rw [roundQ_eq, hm, e, e] at h
    have h := mul_right_cancel₀ hp.ne' h
    have h2 := rne_tie _ m (by rintro rfl; exact hne (by rw [hm, roundQ_eq])) h
    refine ⟨rne (q / pow2 (ulpExp f q)) / 2, ?_⟩
    rw [roundQ_eq, show 2 * (rne (q / pow2 (ulpExp f q)) / 2) = rne (q / pow2 (ulpExp f q)) by omega]
  · -- `r` is in a lower binade: the power of two between is strictly nearer, unless it is `q`
    exfalso
    have hc : ¬ (ulpExp f q = f.emin ∨ pow2 (f.prec + ulpExp f q - 1) ≤ |r|) := fun hc => hg (repr_grid_of_le hr hc)
    have hc1 : ulpExp f q ≠ f.emin := fun h => hc (Or.inl h)
    have hc2 : |r| < pow2 (f.prec + ulpExp f q - 1) := not_le.1 fun h => hc (Or.inr h)
    have he : ulpExp f q = ilog2 |q| + 1 - f.prec := by
      rcases le_total (ilog2 |q| + 1 - f.prec) f.emin with h' | h'
      · exact absurd (max_eq_right h') hc1
      · exact max_eq_left h'
    have hlog := ilog2_le hq
    rw [show (f.prec : ℤ) + ulpExp f q - 1 = ilog2 |q| by omega] at hc2
    have hb : Repr f (pow2 (ilog2 |q|)) ∨ pow2 f.emax ≤ pow2 (ilog2 |q|) := by
      rcases lt_or_ge (pow2 (ilog2 |q|)) (pow2 f.emax) with h' | h'
      · left
        refine ⟨by rwa [abs_of_pos (pow2_pos _)], 1, ilog2 |q|, by simp, ?_, ?_⟩
        · simp; exact one_lt_pow₀ (by norm_num) (by omega)
        · have : f.emin ≤ ulpExp f q := le_max_right _ _
          omega
      · exact Or.inr h'
    -- the power of two with the sign of `q`
    obtain ⟨m, hm⟩ := pow2_grid (e := ulpExp f q) (k := ilog2 |q|) (by omega)
    have key : ∀ m : ℤ, |roundQ f q - q| ≤ |(m : ℚ) * pow2 (ulpExp f q) - q| := by
      intro m
      have h1 := rne_nearest (q / pow2 (ulpExp f q)) m
      have e : ∀ k : ℤ, |(k : ℚ) * pow2 (ulpExp f q) - q| = |(k : ℚ) - q / pow2 (ulpExp f q)| * pow2 (ulpExp f q) := by
        intro k
        rw [show (k : ℚ) * pow2 (ulpExp f q) - q = ((k : ℚ) - q / pow2 (ulpExp f q)) * pow2 (ulpExp f q) by field_simp,
          abs_mul, abs_of_pos hp]
      rw [roundQ_eq, e, e]; exact mul_le_mul_of_nonneg_right h1 hp.le
    rw [abs_lt] at hc2
    rcases le_or_gt 0 q with hs | hs
    · have := key m
      rw [← hm] at this
      rw [abs_of_nonneg hs] at hlog hm hc2 this
      rw [abs_of_nonpos (show pow2 (ilog2 q) - q ≤ 0 by linarith)] at this
      rw [← h, abs_of_nonpos (show r - q ≤ 0 by linarith)] at this
      linarith
    · have := key (-m)
      have e1 : ((-m : ℤ) : ℚ) * pow2 (ulpExp f q) = -pow2 (ilog2 |q|) := by rw [hm]; push_cast; ring
      rw [e1] at this
      rw [abs_of_neg hs] at hlog hm hc2 this
      rw [abs_of_nonneg (show 0 ≤ -pow2 (ilog2 (-q)) - q by linarith)] at this
      rw [← h, abs_of_nonneg (show 0 ≤ r - q by linarith)] at this
      linarith

/-! ### Square roots -/

theorem isqrt_spec : ∀ (fuel n : ℕ), n < 4 ^ fuel →
    isqrt fuel n * isqrt fuel n ≤ n ∧ n < (isqrt fuel n + 1) * (isqrt fuel n + 1)
  | 0, n, h => by simp at h; subst h; simp [isqrt]
  | fuel + 1, n, h => by
    unfold isqrt
    by_cases h0 : n = 0
    · simp [h0]
    · rw [if_neg h0]
      have ih := isqrt_spec fuel (n / 4) (by rw [pow_succ] at h; omega)
      obtain ⟨r, hr⟩ : ∃ r, r = isqrt fuel (n / 4) := ⟨_, rfl⟩
      rw [← hr] at ih ⊢
      have h1 : 4 * (r * r) ≤ n := by omega
      have h2 : n < 4 * ((r + 1) * (r + 1)) := by omega
      simp only
      split_ifs with hc
      · exact ⟨hc, by nlinarith⟩
      · exact ⟨by nlinarith, not_le.1 hc⟩

theorem isqrt_self (n : ℕ) : isqrt n n * isqrt n n ≤ n ∧ n < (isqrt n n + 1) * (isqrt n n + 1) :=
  isqrt_spec n n (Nat.lt_pow_self (by norm_num))

/-- what `sqrtQ` computes: the root, or a number strictly between the same two multiples of a small unit -/
theorem sqrtQ_spec (f : Fmt) {q : ℚ} (hq : 0 < q) : ∃ (s : ℤ) (k : ℤ), k = f.prec + 3 - ilog2 q / 2 ∧
    (pow2 (f.prec + 3) : ℚ) ≤ s ∧ (s : ℝ) < (pow2 (f.prec + 4) : ℚ) ∧
    ((sqrtQ f q = s / pow2 k ∧ Real.sqrt q = s / (pow2 k : ℚ)) ∨
      (sqrtQ f q = (s + 1 / 2) / pow2 k ∧ (s : ℝ) / (pow2 k : ℚ) < Real.sqrt q ∧
        Real.sqrt q < (s + 1 : ℝ) / (pow2 k : ℚ))) := by
  obtain ⟨L, hL⟩ : ∃ L, L = ilog2 q := ⟨_, rfl⟩
  have hl1 := ilog2_le hq
  have hl2 := lt_ilog2 hq
  rw [← hL] at hl1 hl2
  obtain ⟨k, hk⟩ : ∃ k : ℤ, k = f.prec + 3 - L / 2 := ⟨_, rfl⟩
  obtain ⟨y, hy⟩ : ∃ y, y = q * (pow2 k * pow2 k) := ⟨_, rfl⟩
  have hkp := pow2_pos k
  have hy1 : pow2 (f.prec + 3) * pow2 (f.prec + 3) ≤ y := by
    have h1 : pow2 (L / 2 + L / 2) ≤ q := (pow2_le (by omega)).trans hl1
    have : pow2 (f.prec + 3) * pow2 (f.prec + 3) = pow2 (L / 2 + L / 2) * (pow2 k * pow2 k) := by
      rw [← pow2_add, ← pow2_add, ← pow2_add]; congr 1; omega
    rw [this, hy]
    exact mul_le_mul_of_nonneg_right h1 (mul_pos hkp hkp).le
  have hy2 : y < pow2 (f.prec + 4) * pow2 (f.prec + 4) := by
    have h1 : q < pow2 (L / 2 + L / 2 + 2) := lt_of_lt_of_le hl2 (pow2_le (by omega))
    have : pow2 (f.prec + 4) * pow2 (f.prec + 4) = pow2 (L / 2 + L / 2 + 2) * (pow2 k * pow2 k) := by
      rw [← pow2_add, ← pow2_add, ← pow2_add]; congr 1; omega
    rw [this, hy]
    exact mul_lt_mul_of_pos_right h1 (mul_pos hkp hkp)
  have hy0 : 0 < y := lt_of_lt_of_le (mul_pos (pow2_pos _) (pow2_pos _)) hy1
  obtain ⟨n, hn⟩ : ∃ n, n = y.floor.toNat := ⟨_, rfl⟩
  have hfl : (0 : ℤ) ≤ y.floor := Int.floor_nonneg.2 hy0.le
  have hn1 : (n : ℚ) ≤ y := by
    have := floor_le' y
    have e : (n : ℤ) = y.floor := by omega
    have e' : (n : ℚ) = (y.floor : ℚ) := by exact_mod_cast e
    rw [e']; exact this
  have hn2 : y < n + 1 := by
    have := lt_floor' y
    have e : (n : ℤ) = y.floor := by omega
    have e' : (n : ℚ) = (y.floor : ℚ) := by exact_mod_cast e
    rw [e']; exact this
  obtain ⟨s, hs⟩ : ∃ s, s = isqrt n n := ⟨_, rfl⟩
  have hsp := isqrt_self n
  rw [← hs] at hsp
  have hs1 : (s : ℚ) * s ≤ y := le_trans (by exact_mod_cast hsp.1) hn1
  have hs2 : y < (s + 1 : ℚ) * (s + 1) := by
    refine lt_of_lt_of_le hn2 ?_
    have : n + 1 ≤ (s + 1) * (s + 1) := hsp.2
    exact_mod_cast this
  -- the root of `q`
  have hroot : Real.sqrt q * (pow2 k : ℚ) = Real.sqrt y := by
    have : ((y : ℚ) : ℝ) = q * ((pow2 k : ℚ) * (pow2 k : ℚ)) := by rw [hy]; push_cast; ring
    rw [this, Real.sqrt_mul (by exact_mod_cast hq.le), Real.sqrt_mul_self (by exact_mod_cast hkp.le)]
  have hkr : (0 : ℝ) < (pow2 k : ℚ) := by exact_mod_cast hkp
  have hr1 : (s : ℝ) ≤ Real.sqrt y := by
    apply Real.le_sqrt_of_sq_le
    have : ((s : ℚ) * s : ℚ) ≤ y := hs1
    rw [sq]; exact_mod_cast this
  have hr2 : Real.sqrt y < (s + 1 : ℝ) := by
    rw [Real.sqrt_lt' (by positivity), sq]
    exact_mod_cast hs2
  have hA : (pow2 (f.prec + 3) : ℚ) ≤ s := by
    -- the root is an integer at least that large
    have e : pow2 (f.prec + 3) = ((2 ^ (f.prec + 3) : ℕ) : ℚ) := by
      have := pow2_nat (f.prec + 3); push_cast at this ⊢; exact this
    rw [e] at hy1 ⊢
    have h3 : ((2 ^ (f.prec + 3) : ℕ) : ℚ) * (2 ^ (f.prec + 3) : ℕ) < (s + 1 : ℚ) * (s + 1) := lt_of_le_of_lt hy1 hs2
    have h4 : (2 ^ (f.prec + 3) : ℕ) * (2 ^ (f.prec + 3) : ℕ) < (s + 1) * (s + 1) := by exact_mod_cast h3
    have h5 : (2 ^ (f.prec + 3) : ℕ) < s + 1 := Nat.mul_self_lt_mul_self_iff.1 h4
    exact_mod_cast Nat.lt_succ_iff.1 h5
  have hB : (s : ℝ) < (pow2 (f.prec + 4) : ℚ) := by
    have h3 : (s : ℚ) * s < pow2 (f.prec + 4) * pow2 (f.prec + 4) := lt_of_le_of_lt hs1 hy2
    have h4 : (s : ℚ) < pow2 (f.prec + 4) := by
      by_contra hc
      have hc := not_lt.1 hc
      have := mul_le_mul hc hc (pow2_pos _).le (by positivity)
      linarith
    exact_mod_cast h4
  refine ⟨s, k, by rw [hk, hL], by exact_mod_cast hA, by exact_mod_cast hB, ?_⟩
  have hdef : sqrtQ f q = (if ((s * s : ℕ) : ℚ) = y then (s : ℚ) else (s : ℚ) + 1 / 2) / pow2 k := by
    simp only [sqrtQ]
    rw [hs, hn, hy, hk, hL]
  by_cases hex : ((s * s : ℕ) : ℚ) = y
  · left
    rw [if_pos hex] at hdef
    refine ⟨by rw [hdef]; push_cast; rfl, ?_⟩
    have : Real.sqrt y = s := by
      rw [← hex]; push_cast; exact Real.sqrt_mul_self (by positivity)
    rw [eq_div_iff hkr.ne', hroot, this]; push_cast; rfl
  · right
    rw [if_neg hex] at hdef
    refine ⟨by rw [hdef]; push_cast; rfl, ?_, ?_⟩
    · rw [div_lt_iff₀ hkr, hroot]
      refine lt_of_le_of_ne (by exact_mod_cast hr1) ?_
      intro he
      apply hex
      have h5 : Real.sqrt y * Real.sqrt y = y := Real.mul_self_sqrt (by exact_mod_cast hy0.le)
      rw [← he] at h5
      push_cast at h5 ⊢
      exact_mod_cast h5
    · rw [lt_div_iff₀ hkr, hroot]; exact_mod_cast hr2

/-- the exponent of the unit at `sqrtQ f q` -/
theorem sqrtQ_ulp (f : Fmt) {q : ℚ} (hq : 0 < q) :
    0 < sqrtQ f q ∧ ulpExp f (sqrtQ f q) = max (ilog2 q / 2 + 1 - f.prec) f.emin ∧
      (pow2 (ilog2 q / 2) : ℝ) ≤ Real.sqrt q := by
  obtain ⟨s, k, hk, h1, h2, h⟩ := sqrtQ_spec f hq
  have hkp := pow2_pos k
  have e3 : pow2 (f.prec + 3) = pow2 (ilog2 q / 2) * pow2 k := by rw [← pow2_add]; congr 1; omega
  have e4 : pow2 (f.prec + 4) = pow2 (ilog2 q / 2 + 1) * pow2 k := by rw [← pow2_add]; congr 1; omega
  have h2 : (s : ℚ) < pow2 (f.prec + 4) := by exact_mod_cast h2
  -- an integer below a power of two
  have h2' : (s : ℚ) + 1 ≤ pow2 (f.prec + 4) := by
    have e : pow2 (f.prec + 4) = ((2 ^ (f.prec + 4) : ℕ) : ℚ) := by
      have := pow2_nat (f.prec + 4); push_cast at this ⊢; exact this
    rw [e] at h2 ⊢
    have : s < ((2 ^ (f.prec + 4) : ℕ) : ℤ) := by exact_mod_cast h2
    have : s + 1 ≤ ((2 ^ (f.prec + 4) : ℕ) : ℤ) := this
    exact_mod_cast this
  have hle : pow2 (ilog2 q / 2) ≤ sqrtQ f q ∧ sqrtQ f q < pow2 (ilog2 q / 2 + 1) := by
    rcases h with ⟨h, _⟩ | ⟨h, _⟩ <;> rw [h, le_div_iff₀ hkp, div_lt_iff₀ hkp, ← e3, ← e4] <;>
      constructor <;> linarith
  have hpos := lt_of_lt_of_le (pow2_pos _) hle.1
  refine ⟨hpos, ?_, ?_⟩
  · unfold ulpExp
    rw [abs_of_pos hpos, ilog2_unique hle.1 hle.2]
  · have h1' : (pow2 (ilog2 q / 2) : ℝ) ≤ (s : ℝ) / (pow2 k : ℚ) := by
      have : pow2 (ilog2 q / 2) ≤ (s : ℚ) / pow2 k := by rw [le_div_iff₀ hkp, ← e3]; exact h1
      exact_mod_cast this
    rcases h with ⟨_, h⟩ | ⟨_, h, _⟩
    · rw [h]; exact h1'
    · exact h1'.trans h.le

/-- no multiple of the unit is nearer to the root -/
theorem sqrtQ_grid (f : Fmt) {q : ℚ} (hq : 0 < q) (m : ℤ) :
    |((rne (sqrtQ f q / pow2 (ulpExp f (sqrtQ f q))) : ℤ) : ℝ) * (pow2 (ulpExp f (sqrtQ f q)) : ℚ) - Real.sqrt q| ≤
      |(m : ℝ) * (pow2 (ulpExp f (sqrtQ f q)) : ℚ) - Real.sqrt q| := by
  obtain ⟨s, k, hk, h1, h2, h⟩ := sqrtQ_spec f hq
  obtain ⟨hpos, hE, _⟩ := sqrtQ_ulp f hq
  obtain ⟨E, hEdef⟩ : ∃ E, E = ulpExp f (sqrtQ f q) := ⟨_, rfl⟩
  rw [← hEdef] at hE ⊢
  obtain ⟨x, hx⟩ : ∃ x, x = sqrtQ f q := ⟨_, rfl⟩
  rw [← hx] at h ⊢
  have hEp := pow2_pos E
  have hkp := pow2_pos k
  have hkr : (0 : ℝ) < (pow2 k : ℚ) := by exact_mod_cast hkp
  obtain ⟨n, hn⟩ : ∃ n, n = rne (x / pow2 E) := ⟨_, rfl⟩
  rw [← hn]
  -- half of the unit is a multiple of the small unit
  obtain ⟨c, hc⟩ := pow2_grid (e := -k) (k := E - 1) (by
    have := le_max_left (ilog2 q / 2 + 1 - (f.prec : ℤ)) f.emin; omega)
  have hc' : pow2 E / 2 * pow2 k = c := by
    have e1 : pow2 E / 2 = pow2 (E - 1) := by
      rw [show E - 1 = E + -1 by ring, pow2_add, pow2_eq (-1)]; norm_num; ring
    rw [e1, hc, mul_assoc, ← pow2_add]; simp [pow2_zero]
  have hnear := rne_nearest (x / pow2 E) m
  rw [← hn] at hnear
  rcases lt_trichotomy n m with hlt | heq | hlt
  · have hlt' : (n : ℚ) + 1 ≤ m := by exact_mod_cast hlt
    -- `x ≤ (n + m) / 2 * 2^E`
    have hle : x / pow2 E ≤ ((n : ℚ) + m) / 2 := by
      by_contra hcon
      have hcon := not_le.1 hcon
      rw [abs_of_nonpos (show (n : ℚ) - x / pow2 E ≤ 0 by linarith), le_abs] at hnear
      rcases hnear with h' | h' <;> linarith
    have hle' : x * pow2 k ≤ ((n + m) * c : ℤ) := by
      rw [div_le_iff₀ hEp] at hle
      have := mul_le_mul_of_nonneg_right hle hkp.le
      push_cast; rw [← hc']; linarith
    have hroot : Real.sqrt q * (pow2 k : ℚ) ≤ ((n + m) * c : ℤ) := by
      rcases h with ⟨h, hr⟩ | ⟨h, _, hr⟩
      · rw [hr, div_mul_cancel₀ _ hkr.ne']
        rw [h, div_mul_cancel₀ _ hkp.ne'] at hle'
        exact_mod_cast hle'
      · rw [h, div_mul_cancel₀ _ hkp.ne'] at hle'
        rw [lt_div_iff₀ hkr] at hr
        have : (s : ℚ) < ((n + m) * c : ℤ) := by linarith
        have : s + 1 ≤ (n + m) * c := by exact_mod_cast this
        have : ((s : ℝ) + 1) ≤ ((n + m) * c : ℤ) := by exact_mod_cast this
        linarith
    have hfin : Real.sqrt q ≤ ((n : ℝ) + m) / 2 * (pow2 E : ℚ) := by
      have e : ((((n + m) * c : ℤ)) : ℝ) = ((n : ℝ) + m) / 2 * (pow2 E : ℚ) * (pow2 k : ℚ) := by
        have : (((n + m) * c : ℤ) : ℚ) = ((n : ℚ) + m) / 2 * pow2 E * pow2 k := by push_cast; rw [← hc']; ring
        exact_mod_cast this
      rw [e] at hroot
      exact le_of_mul_le_mul_right hroot hkr
    have hEr : (0 : ℝ) < (pow2 E : ℚ) := by exact_mod_cast hEp
    have hmn : (n : ℝ) * (pow2 E : ℚ) ≤ m * (pow2 E : ℚ) := mul_le_mul_of_nonneg_right (by exact_mod_cast hlt.le) hEr.le
    rw [abs_of_nonneg (show 0 ≤ (m : ℝ) * (pow2 E : ℚ) - Real.sqrt q by linarith), abs_le]
    constructor <;> linarith
  · rw [heq]
  · have hlt' : (m : ℚ) + 1 ≤ n := by exact_mod_cast hlt
    have hle : ((n : ℚ) + m) / 2 ≤ x / pow2 E := by
      by_contra hcon
      have hcon := not_le.1 hcon
      rw [abs_of_nonneg (show 0 ≤ (n : ℚ) - x / pow2 E by linarith), le_abs] at hnear
      rcases hnear with h' | h' <;> linarith
    have hle' : ((n + m) * c : ℤ) ≤ x * pow2 k := by
      rw [le_div_iff₀ hEp] at hle
      have := mul_le_mul_of_nonneg_right hle hkp.le
      push_cast; rw [← hc']; linarith
    have hroot : (((n + m) * c : ℤ) : ℝ) ≤ Real.sqrt q * (pow2 k : ℚ) := by
      rcases h with ⟨h, hr⟩ | ⟨h, hr, _⟩
      · rw [hr, div_mul_cancel₀ _ hkr.ne']
        rw [h, div_mul_cancel₀ _ hkp.ne'] at hle'
        exact_mod_cast hle'
      · rw [h, div_mul_cancel₀ _ hkp.ne'] at hle'
        rw [div_lt_iff₀ hkr] at hr
        have : (((n + m) * c : ℤ) : ℚ) < s + 1 := by linarith
        have : (n + m) * c < s + 1 := by exact_mod_cast this
        have : (n + m) * c ≤ s := by omega
        have : (((n + m) * c : ℤ) : ℝ) ≤ s := by exact_mod_cast this
        linarith
    have hfin : ((n : ℝ) + m) / 2 * (pow2 E : ℚ) ≤ Real.sqrt q := by
      have e : ((((n + m) * c : ℤ)) : ℝ) = ((n : ℝ) + m) / 2 * (pow2 E : ℚ) * (pow2 k : ℚ) := by
        have : (((n + m) * c : ℤ) : ℚ) = ((n : ℚ) + m) / 2 * pow2 E * pow2 k := by push_cast; rw [← hc']; ring
        exact_mod_cast this
      rw [e] at hroot
      exact le_of_mul_le_mul_right hroot hkr
    have hEr : (0 : ℝ) < (pow2 E : ℚ) := by exact_mod_cast hEp
    have hmn : (m : ℝ) * (pow2 E : ℚ) ≤ n * (pow2 E : ℚ) := mul_le_mul_of_nonneg_right (by exact_mod_cast hlt.le) hEr.le
    rw [abs_of_nonpos (show (m : ℝ) * (pow2 E : ℚ) - Real.sqrt q ≤ 0 by linarith), abs_le]
    constructor <;> linarith

/-- **The computed square root is the number of the format nearest to the real square root.** -/
theorem sqrt_nearest {q : ℚ} (hq : 0 < q) {r : ℚ} (hr : Repr f r) :
    |(roundQ f (sqrtQ f q) : ℝ) - Real.sqrt q| ≤ |(r : ℝ) - Real.sqrt q| := by
  obtain ⟨hpos, hE, hlow⟩ := sqrtQ_ulp f hq
  have := nearest_of_grid (f := f) (x := Real.sqrt q) (e := ulpExp f (sqrtQ f q)) (by
    rcases le_total (ilog2 q / 2 + 1 - f.prec) f.emin with h | h
    · exact Or.inl (hE.trans (max_eq_right h))
    · right
      rw [hE, max_eq_left h, abs_of_nonneg (Real.sqrt_nonneg _),
        show (f.prec : ℤ) + (ilog2 q / 2 + 1 - f.prec) - 1 = ilog2 q / 2 by ring]
      exact hlow) (sqrtQ_grid f hq) hr
  rw [roundQ_eq]
  push_cast at this ⊢
  exact this

/-- error of the computed square root -/
theorem sqrt_err (f : Fmt) {q : ℚ} (hq : 0 < q) :
    |(roundQ f (sqrtQ f q) : ℝ) - Real.sqrt q| ≤ (pow2 (-f.prec) : ℚ) * Real.sqrt q + (pow2 (f.emin - 1) : ℚ) := by
  obtain ⟨hpos, hE, hlow⟩ := sqrtQ_ulp f hq
  obtain ⟨E, hEdef⟩ : ∃ E, E = ulpExp f (sqrtQ f q) := ⟨_, rfl⟩
  have hg := sqrtQ_grid f hq (round (Real.sqrt q / (pow2 E : ℚ)))
  rw [roundQ_eq]
  rw [← hEdef] at hE hg ⊢
  have hEr : (0 : ℝ) < (pow2 E : ℚ) := by exact_mod_cast pow2_pos E
  have hround : |(round (Real.sqrt q / (pow2 E : ℚ)) : ℝ) * (pow2 E : ℚ) - Real.sqrt q| ≤ (pow2 E : ℚ) / 2 := by
    have h := abs_sub_round (Real.sqrt q / (pow2 E : ℚ))
    rw [show (round (Real.sqrt q / (pow2 E : ℚ)) : ℝ) * (pow2 E : ℚ) - Real.sqrt q
      = -(Real.sqrt q / (pow2 E : ℚ) - round (Real.sqrt q / (pow2 E : ℚ))) * (pow2 E : ℚ) by field_simp; ring,
      abs_mul, abs_neg, abs_of_pos hEr]
    nlinarith
  have htot := hg.trans hround
  have hcast : ∀ n : ℤ, (((n : ℚ) * pow2 E : ℚ) : ℝ) = (n : ℝ) * (pow2 E : ℚ) := by intro n; push_cast; rfl
  rw [hcast]
  refine htot.trans ?_
  have hs := Real.sqrt_nonneg (q : ℝ)
  have h1 : (0 : ℝ) < (pow2 (-f.prec) : ℚ) := by exact_mod_cast pow2_pos _
  have h2 : (0 : ℝ) < (pow2 (f.emin - 1) : ℚ) := by exact_mod_cast pow2_pos _
  rcases le_total (ilog2 q / 2 + 1 - f.prec) f.emin with h | h
  · have e : pow2 E / 2 = pow2 (f.emin - 1) := by
      rw [hE, max_eq_right h, show f.emin - 1 = f.emin + -1 by ring, pow2_add f.emin (-1), pow2_eq (-1)]; norm_num; ring
    have e' : (pow2 E : ℝ) / 2 = (pow2 (f.emin - 1) : ℚ) := by exact_mod_cast e
    rw [e']
    have := mul_nonneg h1.le hs
    linarith
  · have e : pow2 E / 2 = pow2 (-f.prec) * pow2 (ilog2 q / 2) := by
      rw [hE, max_eq_left h, show ilog2 q / 2 + 1 - (f.prec : ℤ) = -f.prec + ilog2 q / 2 + 1 by ring, pow2_add,
        pow2_add, pow2_eq 1]; norm_num
    have e' : (pow2 E : ℝ) / 2 = (pow2 (-f.prec) : ℚ) * (pow2 (ilog2 q / 2) : ℚ) := by exact_mod_cast e
    rw [e']
    have := mul_le_mul_of_nonneg_left hlow h1.le
    linarith

end Verif.Fl
