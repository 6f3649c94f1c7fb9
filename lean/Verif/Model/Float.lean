import Verif.Model.Scalar
import Mathlib.Data.Rat.Floor
import Mathlib.Data.Int.Log
import Mathlib.Algebra.Order.Field.Rat
import Mathlib.Algebra.Order.Field.Power
import Mathlib.Tactic.Linarith
import Mathlib.Tactic.Ring
import Mathlib.Tactic.FieldSimp
import Mathlib.Tactic.Positivity
import Mathlib.Tactic.NormNum
/-!
# IEEE 754 binary floating point numbers

The scalars `f32` and `f64` the crate runs on (`T::Scalar`, `/repo/src/lib.rs` uses
`vector_traits::GenericScalar`, implemented for exactly these two types).  Not code of the crate: this
is the arithmetic of IEEE 754-2019 with rounding to nearest, ties to even, that `+ - * /`, `sqrt`,
`ceil`, the comparisons and the conversions compile to, the `min`/`max` of `core::f64` and
`ulps_eq!` of the crate `approx` with its default arguments.  It is computable, so that examples can
be run in the kernel.

Not modelled: NaN payloads, signals.  `atan2` (not specified by IEEE 754) is a parameter (`Libm`).
-/
namespace Verif

/-- A binary interchange format: precision, least exponent of the unit in the last place, and the
power of two all finite numbers lie below. -/
structure Fmt where
  prec : ℕ
  emin : ℤ
  emax : ℤ
  hprec : 5 ≤ prec
  hemin : emin ≤ -2 * (prec : ℤ) - 2
  hemax : (prec : ℤ) + 1 < emax

/-- `f64` -/
def b64 : Fmt := ⟨53, -1074, 1024, by norm_num, by norm_num, by norm_num⟩
/-- `f32` -/
def b32 : Fmt := ⟨24, -149, 128, by norm_num, by norm_num, by norm_num⟩

namespace Fl

/-- powers of two -/
def pow2 : ℤ → ℚ
  | .ofNat n => ((2 ^ n : ℕ) : ℚ)
  | .negSucc n => 1 / ((2 ^ (n + 1) : ℕ) : ℚ)

/-- the exponent of a positive rational: `pow2 (ilog2 q) ≤ q < pow2 (ilog2 q + 1)` -/
def ilog2 (q : ℚ) : ℤ :=
  let k := (Nat.log2 q.num.natAbs : ℤ) - (Nat.log2 q.den : ℤ)
  if pow2 k ≤ q then k else k - 1

/-- nearest integer, ties to even -/
def rne (x : ℚ) : ℤ :=
  let n := x.floor
  let d := x - n
  if d < 1 / 2 then n else if 1 / 2 < d then n + 1 else if n % 2 = 0 then n else n + 1

/-- the exponent of the unit in the last place at `q` -/
def ulpExp (f : Fmt) (q : ℚ) : ℤ := max (ilog2 |q| + 1 - f.prec) f.emin

/-- rounding to `prec` bits, without the limit on the exponent -/
def roundQ (f : Fmt) (q : ℚ) : ℚ :=
  if q = 0 then 0 else (rne (q / pow2 (ulpExp f q)) : ℚ) * pow2 (ulpExp f q)

/-- the rationals a format has: `n * 2^e` with `|n| < 2^prec` and `emin ≤ e`, below `2^emax` -/
def Repr (f : Fmt) (q : ℚ) : Prop :=
  |q| < pow2 f.emax ∧ ∃ (n e : ℤ), q = n * pow2 e ∧ |n| < 2 ^ f.prec ∧ f.emin ≤ e

/-! ### Facts needed to define the operations -/

theorem pow2_eq (e : ℤ) : pow2 e = (2 : ℚ) ^ e := by
  cases e with
  | ofNat n => simp [pow2]
  | negSucc n => simp [pow2, zpow_negSucc]

theorem pow2_pos (e : ℤ) : 0 < pow2 e := by rw [pow2_eq]; positivity
theorem pow2_ne (e : ℤ) : pow2 e ≠ 0 := (pow2_pos e).ne'
theorem pow2_add (a b : ℤ) : pow2 (a + b) = pow2 a * pow2 b := by
  simp only [pow2_eq]; exact zpow_add₀ (by norm_num) a b
theorem pow2_le {a b : ℤ} (h : a ≤ b) : pow2 a ≤ pow2 b := by
  simp only [pow2_eq]; exact zpow_le_zpow_right₀ (by norm_num) h
theorem pow2_lt {a b : ℤ} (h : a < b) : pow2 a < pow2 b := by
  simp only [pow2_eq]; exact zpow_lt_zpow_right₀ (by norm_num) h
theorem pow2_lt_iff {a b : ℤ} : pow2 a < pow2 b ↔ a < b := by
  simp only [pow2_eq]; exact zpow_lt_zpow_iff_right₀ (by norm_num)
theorem pow2_nat (n : ℕ) : pow2 (n : ℤ) = 2 ^ n := by rw [pow2_eq]; simp
theorem pow2_zero : pow2 0 = 1 := by rw [pow2_eq]; simp

theorem ilog2_le {q : ℚ} (hq : 0 < q) : pow2 (ilog2 q) ≤ q := by
  unfold ilog2
  simp only
  split
  · assumption
  · have hn : 0 < q.num := Rat.num_pos.2 hq
    have h1 : 2 ^ Nat.log2 q.num.natAbs ≤ q.num.natAbs := Nat.log2_self_le (by omega)
    have h2 : q.den < 2 ^ (Nat.log2 q.den + 1) := Nat.lt_log2_self
    have h3 : (q : ℚ) = q.num / q.den := (Rat.num_div_den q).symm
    have hd : (0 : ℚ) < q.den := by exact_mod_cast q.den_pos
    have h4 : (2 : ℚ) ^ Nat.log2 q.num.natAbs ≤ q.num := by
      have : ((2 ^ Nat.log2 q.num.natAbs : ℕ) : ℤ) ≤ q.num := by omega
      exact_mod_cast this
    have h5 : (q.den : ℚ) < 2 ^ (Nat.log2 q.den + 1) := by exact_mod_cast h2
    have h6 : pow2 ((Nat.log2 q.num.natAbs : ℤ) - (Nat.log2 q.den : ℤ) - 1) * 2 ^ (Nat.log2 q.den + 1)
        = 2 ^ Nat.log2 q.num.natAbs := by
      rw [← pow2_nat, ← pow2_nat, ← pow2_add]; congr 1; push_cast; ring
    have h7 : pow2 ((Nat.log2 q.num.natAbs : ℤ) - (Nat.log2 q.den : ℤ) - 1) * q.den ≤ q.num := by
      have := mul_le_mul_of_nonneg_left h5.le
        (pow2_pos ((Nat.log2 q.num.natAbs : ℤ) - (Nat.log2 q.den : ℤ) - 1)).le
      linarith
    calc _ ≤ (q.num : ℚ) / q.den := by rwa [le_div_iff₀ hd]
      _ = q := h3.symm

theorem lt_ilog2 {q : ℚ} (hq : 0 < q) : q < pow2 (ilog2 q + 1) := by
  unfold ilog2
  simp only
  split
  · have hn : 0 < q.num := Rat.num_pos.2 hq
    have h1 : q.num.natAbs < 2 ^ (Nat.log2 q.num.natAbs + 1) := Nat.lt_log2_self
    have h2 : 2 ^ Nat.log2 q.den ≤ q.den := Nat.log2_self_le q.den_nz
    have h3 : (q : ℚ) = q.num / q.den := (Rat.num_div_den q).symm
    have hd : (0 : ℚ) < q.den := by exact_mod_cast q.den_pos
    have h4 : (q.num : ℚ) < (2 : ℚ) ^ (Nat.log2 q.num.natAbs + 1) := by
      have : q.num < ((2 ^ (Nat.log2 q.num.natAbs + 1) : ℕ) : ℤ) := by omega
      exact_mod_cast this
    have h5 : (2 : ℚ) ^ (Nat.log2 q.den) ≤ q.den := by exact_mod_cast h2
    have h6 : pow2 ((Nat.log2 q.num.natAbs : ℤ) - (Nat.log2 q.den : ℤ) + 1) * 2 ^ (Nat.log2 q.den)
        = 2 ^ (Nat.log2 q.num.natAbs + 1) := by
      rw [← pow2_nat, ← pow2_nat, ← pow2_add]; congr 1; push_cast; ring
    have h7 : (q.num : ℚ) < pow2 ((Nat.log2 q.num.natAbs : ℤ) - (Nat.log2 q.den : ℤ) + 1) * q.den := by
      have := mul_le_mul_of_nonneg_left h5
        (pow2_pos ((Nat.log2 q.num.natAbs : ℤ) - (Nat.log2 q.den : ℤ) + 1)).le
      linarith
    calc q = (q.num : ℚ) / q.den := h3
      _ < _ := by rwa [div_lt_iff₀ hd]
  · rename_i h
    rw [sub_add_cancel]
    exact not_le.1 h

theorem ilog2_unique {q : ℚ} {k : ℤ} (h1 : pow2 k ≤ q) (h2 : q < pow2 (k + 1)) : ilog2 q = k := by
  have hq : 0 < q := lt_of_lt_of_le (pow2_pos k) h1
  have h3 := ilog2_le hq
  have h4 := lt_ilog2 hq
  have a1 : ilog2 q < k + 1 := pow2_lt_iff.1 (lt_of_le_of_lt h3 h2)
  have a2 : k < ilog2 q + 1 := pow2_lt_iff.1 (lt_of_le_of_lt h1 h4)
  omega

theorem ilog2_mono {a b : ℚ} (ha : 0 < a) (h : a ≤ b) : ilog2 a ≤ ilog2 b := by
  have h3 := ilog2_le ha
  have h4 := lt_ilog2 (lt_of_lt_of_le ha h)
  have : ilog2 a < ilog2 b + 1 := pow2_lt_iff.1 (lt_of_le_of_lt (h3.trans h) h4)
  omega

theorem floor_le' (x : ℚ) : (x.floor : ℚ) ≤ x := Int.floor_le x
theorem lt_floor' (x : ℚ) : x < x.floor + 1 := Int.lt_floor_add_one x

/-- `rne x` is within one half of `x` -/
theorem rne_near (x : ℚ) : |(rne x : ℚ) - x| ≤ 1 / 2 := by
  have h1 := floor_le' x
  have h2 := lt_floor' x
  unfold rne
  simp only
  rw [abs_le]
  split_ifs <;> push_cast <;> constructor <;> linarith

theorem rne_mono {x y : ℚ} (h : x ≤ y) : rne x ≤ rne y := by
  have hx := rne_near x
  have hy := rne_near y
  rw [abs_le] at hx hy
  by_contra hc
  have hc : rne y + 1 ≤ rne x := by omega
  have hc' : (rne y : ℚ) + 1 ≤ rne x := by exact_mod_cast hc
  -- equality everywhere: `x = y`
  have : x = y := by linarith [hx.2, hy.1]
  subst this
  omega

theorem rne_int (n : ℤ) : rne (n : ℚ) = n := by
  unfold rne
  have h : (n : ℚ).floor = n := Rat.floor_intCast n
  simp [h]

theorem rne_neg (x : ℚ) : rne (-x) = -rne x := by
  have h1 := floor_le' x
  have h2 := lt_floor' x
  have h3 := floor_le' (-x)
  have h4 := lt_floor' (-x)
  obtain ⟨n, hn⟩ : ∃ n, n = x.floor := ⟨_, rfl⟩
  obtain ⟨m, hm⟩ : ∃ m, m = (-x).floor := ⟨_, rfl⟩
  rw [← hn] at h1 h2
  rw [← hm] at h3 h4
  unfold rne
  simp only
  rw [← hn, ← hm]
  by_cases hi : x = n
  · have : m = -n := by
      have e1 : m ≤ -n := by have : (m : ℚ) ≤ ((-n : ℤ) : ℚ) := by push_cast; linarith
                             exact_mod_cast this
      have e2 : -n < m + 1 := by have : ((-n : ℤ) : ℚ) < ((m + 1 : ℤ) : ℚ) := by push_cast; linarith
                                 exact_mod_cast this
      omega
    subst this
    have e : x - n = 0 := by linarith
    have e' : -x - ((-n : ℤ) : ℚ) = 0 := by push_cast; linarith
    rw [e, e']; norm_num
  · have h1' : (n : ℚ) < x := lt_of_le_of_ne h1 (Ne.symm hi)
    have : m = -n - 1 := by
      have e1 : m < -n := by have : (m : ℚ) < ((-n : ℤ) : ℚ) := by push_cast; linarith
                             exact_mod_cast this
      have e2 : -n - 1 < m + 1 := by
        have : ((-n - 1 : ℤ) : ℚ) < ((m + 1 : ℤ) : ℚ) := by push_cast; linarith
        exact_mod_cast this
      omega
    subst this
    have e' : -x - ((-n - 1 : ℤ) : ℚ) = 1 - (x - n) := by push_cast; ring
    rw [e']
    obtain ⟨d, hd⟩ : ∃ d, d = x - n := ⟨_, rfl⟩
    rw [← hd]
    rcases lt_trichotomy d (1 / 2) with h | h | h
    · rw [if_pos h, if_neg (by linarith), if_pos (by linarith)]; ring
    · rw [h]
      rw [show (1 : ℚ) - 1 / 2 = 1 / 2 by norm_num]
      simp only [lt_irrefl, if_false]
      rcases Int.emod_two_eq_zero_or_one n with hm | hm
      · rw [if_pos hm, if_neg (by omega)]; ring
      · rw [if_neg (show ¬ n % 2 = 0 by omega), if_pos (by omega)]; ring
    · rw [if_pos (show 1 - d < 1 / 2 by linarith), if_neg (show ¬ d < 1 / 2 by linarith), if_pos h]; ring

theorem ulpExp_neg (f : Fmt) (q : ℚ) : ulpExp f (-q) = ulpExp f q := by simp [ulpExp]

theorem roundQ_zero (f : Fmt) : roundQ f 0 = 0 := by simp [roundQ]

theorem roundQ_neg (f : Fmt) (q : ℚ) : roundQ f (-q) = -roundQ f q := by
  unfold roundQ
  rw [ulpExp_neg]
  by_cases h : q = 0
  · simp [h]
  · rw [if_neg h, if_neg (by simpa using h), neg_div, rne_neg]; push_cast; ring

/-- rounding at a fixed exponent -/
theorem roundQ_eq (f : Fmt) (q : ℚ) :
    roundQ f q = (rne (q / pow2 (ulpExp f q)) : ℚ) * pow2 (ulpExp f q) := by
  unfold roundQ
  split
  · rename_i h; subst h; rw [zero_div]; have := rne_int 0; simp at this; simp [this]
  · rfl

theorem ulpExp_mono (f : Fmt) {a b : ℚ} (ha : 0 < a) (h : a ≤ b) : ulpExp f a ≤ ulpExp f b := by
  unfold ulpExp
  rw [abs_of_pos ha, abs_of_pos (lt_of_lt_of_le ha h)]
  have := ilog2_mono ha h
  omega

/-- a multiple of the unit at `q` on one side of `q` stays on that side of the rounding of `q` -/
theorem roundQ_le_grid (f : Fmt) (q : ℚ) (n : ℤ) (h : q ≤ n * pow2 (ulpExp f q)) :
    roundQ f q ≤ n * pow2 (ulpExp f q) := by
  rw [roundQ_eq]
  apply mul_le_mul_of_nonneg_right _ (pow2_pos _).le
  have : rne (q / pow2 (ulpExp f q)) ≤ rne (n : ℚ) := rne_mono (by rwa [div_le_iff₀ (pow2_pos _)])
  rw [rne_int] at this
  exact_mod_cast this

theorem grid_le_roundQ (f : Fmt) (q : ℚ) (n : ℤ) (h : n * pow2 (ulpExp f q) ≤ q) :
    n * pow2 (ulpExp f q) ≤ roundQ f q := by
  rw [roundQ_eq]
  apply mul_le_mul_of_nonneg_right _ (pow2_pos _).le
  have : rne (n : ℚ) ≤ rne (q / pow2 (ulpExp f q)) := rne_mono (by rwa [le_div_iff₀ (pow2_pos _)])
  rw [rne_int] at this
  exact_mod_cast this

theorem roundQ_nonneg (f : Fmt) {q : ℚ} (h : 0 ≤ q) : 0 ≤ roundQ f q := by
  have := grid_le_roundQ f q 0 (by simpa using h)
  simpa using this

/-- multiples of a small power of two are multiples of a smaller one -/
theorem pow2_grid {e k : ℤ} (h : e ≤ k) : ∃ m : ℤ, pow2 k = m * pow2 e := by
  refine ⟨2 ^ (k - e).toNat, ?_⟩
  have : k = ((k - e).toNat : ℤ) + e := by omega
  conv_lhs => rw [this, pow2_add, pow2_nat]
  push_cast; rfl

theorem roundQ_mono_pos (f : Fmt) {a b : ℚ} (ha : 0 < a) (h : a ≤ b) : roundQ f a ≤ roundQ f b := by
  rcases (ulpExp_mono f ha h).eq_or_lt with he | he
  · rw [roundQ_eq, roundQ_eq, he]
    apply mul_le_mul_of_nonneg_right _ (pow2_pos _).le
    have : rne (a / pow2 (ulpExp f b)) ≤ rne (b / pow2 (ulpExp f b)) :=
      rne_mono (div_le_div_of_nonneg_right h (pow2_pos _).le)
    exact_mod_cast this
  · -- a power of two lies between
    have hb : 0 < b := lt_of_lt_of_le ha h
    have hl : ilog2 a < ilog2 b := by
      by_contra hc
      have : ilog2 a = ilog2 b := le_antisymm (ilog2_mono ha h) (not_lt.1 hc)
      unfold ulpExp at he
      rw [abs_of_pos ha, abs_of_pos hb, this] at he
      exact lt_irrefl _ he
    have heb : ulpExp f b = ilog2 b + 1 - f.prec := by
      unfold ulpExp at he ⊢
      rw [abs_of_pos ha, abs_of_pos hb] at he
      rw [abs_of_pos hb]
      rcases max_choice (ilog2 b + 1 - f.prec) f.emin with h' | h'
      · exact h'
      · rw [h'] at he; exact absurd (le_max_right _ _) (not_le.2 he)
    have hp : 5 ≤ f.prec := f.hprec
    obtain ⟨m, hm⟩ := pow2_grid (e := ulpExp f a) (k := ilog2 b) (by rw [heb] at he; omega)
    obtain ⟨m', hm'⟩ := pow2_grid (e := ulpExp f b) (k := ilog2 b) (by rw [heb]; omega)
    have h1 : a ≤ pow2 (ilog2 b) := (lt_ilog2 ha).le.trans (pow2_le (by omega))
    have h2 : pow2 (ilog2 b) ≤ b := ilog2_le hb
    have r1 := roundQ_le_grid f a m (by rwa [← hm])
    have r2 := grid_le_roundQ f b m' (by rwa [← hm'])
    rw [← hm] at r1
    rw [← hm'] at r2
    exact r1.trans r2

/-- rounding is monotone -/
theorem roundQ_mono (f : Fmt) {a b : ℚ} (h : a ≤ b) : roundQ f a ≤ roundQ f b := by
  rcases lt_trichotomy a 0 with ha | ha | ha
  · rcases le_or_gt 0 b with hb | hb
    · have h1 := roundQ_nonneg f hb
      have h2 := roundQ_nonneg f (neg_nonneg.2 ha.le)
      rw [roundQ_neg] at h2
      linarith
    · have := roundQ_mono_pos f (a := -b) (b := -a) (by linarith) (by linarith)
      rw [roundQ_neg, roundQ_neg] at this
      linarith
  · subst ha; rw [roundQ_zero]; exact roundQ_nonneg f h
  · exact roundQ_mono_pos f ha h

/-- numbers of the form `n * 2^e` with at most `prec` bits are fixed by rounding -/
theorem roundQ_fix (f : Fmt) (n e : ℤ) (hn : |n| ≤ 2 ^ f.prec) (he : f.emin ≤ e) :
    roundQ f (n * pow2 e) = n * pow2 e := by
  rcases eq_or_ne n 0 with h0 | h0
  · subst h0; simp [roundQ_zero]
  have hq : 0 < |(n : ℚ) * pow2 e| := by
    rw [abs_pos]; exact mul_ne_zero (by exact_mod_cast h0) (pow2_ne e)
  have habs : |(n : ℚ) * pow2 e| = |(n : ℚ)| * pow2 e := by
    rw [abs_mul, abs_of_pos (pow2_pos e)]
  have hnq : |(n : ℚ)| ≤ 2 ^ f.prec := by exact_mod_cast hn
  rcases hnq.lt_or_eq with hlt | heq
  · have hlog : ilog2 |(n : ℚ) * pow2 e| < f.prec + e := by
      apply pow2_lt_iff.1
      refine lt_of_le_of_lt (ilog2_le hq) ?_
      rw [habs, pow2_add, pow2_nat]
      exact mul_lt_mul_of_pos_right hlt (pow2_pos e)
    have hu : ulpExp f ((n : ℚ) * pow2 e) ≤ e := by unfold ulpExp; omega
    obtain ⟨m, hm⟩ := pow2_grid hu
    have hg : (n : ℚ) * pow2 e = (n * m : ℤ) * pow2 (ulpExp f ((n : ℚ) * pow2 e)) := by
      conv_lhs => rw [hm]
      push_cast; ring
    exact le_antisymm
      ((roundQ_le_grid f _ (n * m) hg.le).trans hg.ge)
      (hg.le.trans (grid_le_roundQ f _ (n * m) hg.ge))
  · have hlog : ilog2 |(n : ℚ) * pow2 e| = f.prec + e := by
      have hpe : |(n : ℚ) * pow2 e| = pow2 (f.prec + e) := by rw [habs, heq, pow2_add, pow2_nat]
      exact ilog2_unique hpe.ge (by rw [hpe]; exact pow2_lt (by omega))
    have hu : ulpExp f ((n : ℚ) * pow2 e) ≤ e + 1 := by unfold ulpExp; omega
    -- an even number of units
    have hev : (n : ℚ) * pow2 e = (n / 2 : ℤ) * pow2 (e + 1) := by
      have hp : 5 ≤ f.prec := f.hprec
      have : n % 2 = 0 := by
        have h2 : (2 : ℤ) ∣ |n| := by
          have : |n| = 2 ^ f.prec := by exact_mod_cast heq
          rw [this]; exact dvd_pow_self 2 (by omega)
        have := (dvd_abs 2 n).1 h2
        omega
      have h2 : n = n / 2 * 2 := by omega
      have h3 : (n : ℚ) = (n / 2 : ℤ) * 2 := by exact_mod_cast h2
      rw [pow2_add, pow2_eq 1]
      rw [h3]; push_cast; ring_nf
    obtain ⟨m, hm⟩ := pow2_grid hu
    have hg : (n : ℚ) * pow2 e = (n / 2 * m : ℤ) * pow2 (ulpExp f ((n : ℚ) * pow2 e)) := by
      conv_lhs => rw [hev, hm]
      push_cast; ring
    exact le_antisymm
      ((roundQ_le_grid f _ _ hg.le).trans hg.ge)
      (hg.le.trans (grid_le_roundQ f _ _ hg.ge))

theorem Repr.fix {f : Fmt} {q : ℚ} (h : Repr f q) : roundQ f q = q := by
  obtain ⟨_, n, e, rfl, hn, he⟩ := h
  exact roundQ_fix f n e hn.le he

/-- the result of rounding is representable if it is below the limit -/
theorem roundQ_repr (f : Fmt) (q : ℚ) (h : |roundQ f q| < pow2 f.emax) : Repr f (roundQ f q) := by
  refine ⟨h, ?_⟩
  rcases eq_or_ne q 0 with h0 | h0
  · subst h0
    exact ⟨0, f.emin, by simp [roundQ_zero], by simp, le_refl _⟩
  have hq : 0 < |q| := abs_pos.2 h0
  -- `|q| / ulp < 2^prec`
  have hb : |q| ≤ pow2 (f.prec + ulpExp f q) :=
    (lt_ilog2 hq).le.trans (pow2_le (by unfold ulpExp; omega))
  have hr : |roundQ f q| ≤ pow2 (f.prec + ulpExp f q) := by
    have e1 : pow2 (f.prec + ulpExp f q) = ((2 ^ f.prec : ℤ) : ℚ) * pow2 (ulpExp f q) := by
      rw [pow2_add, pow2_nat]; push_cast; rfl
    have e2 : -pow2 (f.prec + ulpExp f q) = ((-2 ^ f.prec : ℤ) : ℚ) * pow2 (ulpExp f q) := by
      rw [pow2_add, pow2_nat]; push_cast; ring
    rw [abs_le] at hb ⊢
    refine ⟨?_, ?_⟩
    · rw [e2]; exact grid_le_roundQ f q _ (by rw [← e2]; exact hb.1)
    · rw [e1]; exact roundQ_le_grid f q _ (by rw [← e1]; exact hb.2)
  have he : f.emin ≤ ulpExp f q := le_max_right _ _
  have hn : |(rne (q / pow2 (ulpExp f q)) : ℚ)| ≤ 2 ^ f.prec := by
    rw [roundQ_eq, abs_mul, abs_of_pos (pow2_pos _), pow2_add, pow2_nat] at hr
    exact le_of_mul_le_mul_right hr (pow2_pos _)
  rcases hn.lt_or_eq with hlt | heq
  · exact ⟨_, _, roundQ_eq f q, by exact_mod_cast hlt, he⟩
  · -- a power of two
    have hz : |rne (q / pow2 (ulpExp f q))| = 2 ^ f.prec := by exact_mod_cast heq
    have hp : 5 ≤ f.prec := f.hprec
    have hsplit : (2 : ℤ) ^ f.prec = 2 * 2 ^ (f.prec - 1) := by
      rw [← pow_succ']; congr 1; omega
    have hpos : (0 : ℤ) < 2 ^ (f.prec - 1) := by positivity
    obtain ⟨r, hr'⟩ : ∃ r, r = rne (q / pow2 (ulpExp f q)) := ⟨_, rfl⟩
    rw [← hr'] at hz
    refine ⟨r / 2, ulpExp f q + 1, ?_, ?_, by omega⟩
    · have : r = r / 2 * 2 := by
        rcases abs_choice r with h' | h' <;> rw [h'] at hz <;> omega
      have h3 : (r : ℚ) = (r / 2 : ℤ) * 2 := by exact_mod_cast this
      rw [roundQ_eq, ← hr', h3, pow2_add, pow2_eq 1]; push_cast; ring_nf
    · rw [abs_lt]
      rcases abs_choice r with h' | h' <;> rw [h'] at hz <;> constructor <;> omega

theorem Repr.neg {f : Fmt} {q : ℚ} (h : Repr f q) : Repr f (-q) := by
  obtain ⟨h1, n, e, rfl, hn, he⟩ := h
  exact ⟨by rwa [abs_neg], -n, e, by push_cast; ring, by rwa [abs_neg], he⟩

/-- integers up to `2^prec` are representable -/
theorem repr_int (f : Fmt) (n : ℤ) (hn : |n| ≤ 2 ^ f.prec) : Repr f n := by
  have hfix : roundQ f (n : ℚ) = n := by
    have := roundQ_fix f n 0 hn (by have := f.hemin; omega)
    rwa [pow2_zero, mul_one] at this
  have hlt : |(n : ℚ)| < pow2 f.emax := by
    have h1 : |(n : ℚ)| ≤ pow2 f.prec := by rw [pow2_nat]; exact_mod_cast hn
    exact lt_of_le_of_lt h1 (pow2_lt (by have := f.hemax; omega))
  have := roundQ_repr f n (by rwa [hfix])
  rwa [hfix] at this

/-- integer square root by two bits at a time; `fuel` at least the number of bits -/
def isqrt : ℕ → ℕ → ℕ
  | 0, _ => 0
  | fuel + 1, n =>
    if n = 0 then 0
    else
      let r := 2 * isqrt fuel (n / 4)
      if (r + 1) * (r + 1) ≤ n then r + 1 else r

/-- a rational that rounds like the square root of `q > 0`: the root is computed to at least
`prec + 2` bits, and a remainder is replaced by half a unit -/
def sqrtQ (f : Fmt) (q : ℚ) : ℚ :=
  let k : ℤ := f.prec + 3 - ilog2 q / 2
  let y := q * (pow2 k * pow2 k)
  let n := y.floor.toNat
  let s := isqrt n n
  (if ((s * s : ℕ) : ℚ) = y then (s : ℚ) else (s : ℚ) + 1 / 2) / pow2 k

end Fl

/-- The numbers of a format: NaN, the infinities, the signed zeros and the other finite numbers. -/
inductive Flt (f : Fmt) where
  | nan
  | inf (neg : Bool)
  | zero (neg : Bool)
  | fin (q : ℚ) (h : q ≠ 0 ∧ Fl.Repr f q)
deriving DecidableEq

/-- `f64` -/
abbrev F64 := Flt b64
/-- `f32` -/
abbrev F32 := Flt b32

namespace Flt
open Fl
variable {f : Fmt}

/-- the rational a finite number stands for (0 for NaN and the infinities) -/
def val : Flt f → ℚ
  | fin q _ => q
  | _ => 0

/-- finite, that is neither NaN nor an infinity -/
def isFin : Flt f → Bool
  | fin _ _ => true
  | zero _ => true
  | _ => false

/-- the sign bit (of NaN: not modelled, taken as 0) -/
def sign : Flt f → Bool
  | nan => false
  | inf s => s
  | zero s => s
  | fin q _ => decide (q < 0)

/-- the rounding of an exact result; `s` is the sign if the result is a zero -/
def ofQ (s : Bool) (q : ℚ) : Flt f :=
  if h : |roundQ f q| < pow2 f.emax then
    if h0 : roundQ f q = 0 then zero s else fin (roundQ f q) ⟨h0, roundQ_repr f q h⟩
  else inf (decide (q < 0))

/-- unary minus: flips the sign bit -/
def neg : Flt f → Flt f
  | nan => nan
  | inf s => inf (!s)
  | zero s => zero (!s)
  | fin q h => fin (-q) ⟨neg_ne_zero.2 h.1, h.2.neg⟩

/-- absolute value -/
def abs (a : Flt f) : Flt f := if a.sign then a.neg else a

/-- addition; an exact zero is `+0` unless both operands are `-0` -/
def add : Flt f → Flt f → Flt f
  | nan, _ => nan
  | _, nan => nan
  | inf s, inf t => if s = t then inf s else nan
  | inf s, _ => inf s
  | _, inf t => inf t
  | zero s, zero t => zero (s && t)
  | a, b => ofQ false (a.val + b.val)

/-- subtraction -/
def sub (a b : Flt f) : Flt f := add a b.neg

/-- multiplication -/
def mul : Flt f → Flt f → Flt f
  | nan, _ => nan
  | _, nan => nan
  | inf _, zero _ => nan
  | zero _, inf _ => nan
  | inf s, b => inf (s != b.sign)
  | a, inf t => inf (a.sign != t)
  | a, b => ofQ (a.sign != b.sign) (a.val * b.val)

/-- division -/
def div : Flt f → Flt f → Flt f
  | nan, _ => nan
  | _, nan => nan
  | inf _, inf _ => nan
  | zero _, zero _ => nan
  | inf s, b => inf (s != b.sign)
  | a, inf t => zero (a.sign != t)
  | a, zero t => inf (a.sign != t)
  | a, b => ofQ (a.sign != b.sign) (a.val / b.val)

/-- square root -/
def sqrt : Flt f → Flt f
  | nan => nan
  | inf s => if s then nan else inf false
  | zero s => zero s
  | fin q _ => if q < 0 then nan else ofQ false (sqrtQ f q)

/-- `.ceil()` -/
def ceil : Flt f → Flt f
  | fin q _ => ofQ (decide (q < 0)) q.ceil
  | a => a

/-- `<` -/
def lt : Flt f → Flt f → Bool
  | nan, _ => false
  | _, nan => false
  | inf s, inf t => s && !t
  | inf s, _ => s
  | _, inf t => !t
  | a, b => decide (a.val < b.val)

/-- `==` -/
def beq : Flt f → Flt f → Bool
  | nan, _ => false
  | _, nan => false
  | inf s, inf t => s == t
  | inf _, _ => false
  | _, inf _ => false
  | a, b => decide (a.val = b.val)

/-- `<=` -/
def le (a b : Flt f) : Bool := lt a b || beq a b

/-- `core::f64::min`: the other operand if one is NaN -/
def fmin (a b : Flt f) : Flt f := if a = nan then b else if b = nan then a else if lt b a then b else a
/-- `core::f64::max` -/
def fmax (a b : Flt f) : Flt f := if a = nan then b else if b = nan then a else if lt a b then b else a

/-- the bit pattern without the sign, as an integer (NaN: 0, never used) -/
def ord : Flt f → ℤ
  | nan => 0
  | zero _ => 0
  | inf _ => (f.emax - f.prec - f.emin + 2) * 2 ^ (f.prec - 1)
  | fin q _ => (ulpExp f q - f.emin) * 2 ^ (f.prec - 1) + (|q| / pow2 (ulpExp f q)).floor

/-- `EPSILON`: the distance from one to the next number -/
def epsilon : Flt f := ofQ false (pow2 (1 - f.prec))

/-- `UlpsEq::ulps_eq` of the crate `approx` for floats, with `epsilon = EPSILON` and `max_ulps = 4`:
close in absolute terms, or of the same sign and at most four bit patterns apart. -/
def ulpsEq (a b : Flt f) : Bool :=
  if le (abs (sub a b)) epsilon then true
  else if a = nan || b = nan then false
  else if a.sign != b.sign then false
  else decide (|a.ord - b.ord| ≤ 4)

/-- `as usize` on a 64 bit machine: towards zero, saturating, NaN to 0 -/
def toUsize : Flt f → ℕ
  | nan => 0
  | inf s => if s then 0 else 2 ^ 64 - 1
  | zero _ => 0
  | fin q _ => min q.floor.toNat (2 ^ 64 - 1)

end Flt

/-- the part of the mathematical library that IEEE 754 does not determine -/
class Libm (f : Fmt) where
  atan2 : Flt f → Flt f → Flt f

/-- Floats are scalars. -/
instance fltScalar (f : Fmt) [Libm f] : Scalar (Flt f) where
  zero := .zero false
  one := Flt.ofQ false 1
  two := Flt.ofQ false 2
  inf := .inf false
  add := Flt.add
  sub := Flt.sub
  mul := Flt.mul
  div := Flt.div
  neg := Flt.neg
  sqrt := Flt.sqrt
  ceil := Flt.ceil
  atan2 := Libm.atan2
  lt := Flt.lt
  le := Flt.le
  beq := Flt.beq
  fmin := Flt.fmin
  fmax := Flt.fmax
  ulpsEq := Flt.ulpsEq
  isFinite := Flt.isFin
  isSignNeg := Flt.sign
  toUsize := Flt.toUsize
  ofUsize n := Flt.ofQ false n

end Verif
