import Verif.Model.Debug
import Verif.Spec.Decimal
import Verif.Proofs.Float
import Verif.Proofs.FloatRound
import Verif.Props.ObjText
/-!
# C96: the `Debug` text of lines and boxes is faithful
-/
set_option linter.unusedSectionVars false
set_option linter.unusedSimpArgs false
set_option linter.unusedVariables false
namespace Verif.Props.Debug
open Verif Verif.Model Verif.Fl Verif.Flt Verif.Spec
variable {f : Fmt}

/-! ### numerals -/

theorem natOf_eq : natOf = readNat := rfl

theorem natOf_digits {s : List Char} {n : ℕ} (h : natOf s = some n) : s ≠ [] ∧ ∀ c ∈ s, c.isDigit = true := by
  unfold natOf at h
  split at h
  · rename_i hc; exact ⟨hc.1, by simpa using hc.2⟩
  · cases h

theorem dot_not_digit : Char.isDigit '.' = false := by decide

/-- the shape of a decimal numeral -/
theorem decimal_shape {s : List Char} {v : ℚ} (h : decimal s = some v) :
    (∃ n : ℕ, natOf s = some n ∧ v = n) ∨
    ∃ (a b : List Char) (n m : ℕ), s = a ++ '.' :: b ∧ natOf a = some n ∧ natOf b = some m ∧ v = n + m / 10 ^ b.length := by
  unfold decimal at h
  split at h
  · cases e : natOf s with
    | none => rw [e] at h; cases h
    | some n => rw [e] at h; exact Or.inl ⟨n, rfl, (Option.some.inj h).symm⟩
  · rename_i c b hd
    split at h
    · rename_i n m ea eb
      refine Or.inr ⟨_, b, n, m, ?_, ea, eb, (Option.some.inj h).symm⟩
      have hc : c = '.' := by
        have := List.head?_dropWhile_not (p := fun x : Char => decide (x ≠ '.')) (l := s)
        rw [hd] at this
        simpa using this
      subst hc
      rw [← hd, List.takeWhile_append_dropWhile]
    · cases h

theorem decimal_dot {a b : List Char} {n m : ℕ} (ha : natOf a = some n) (hb : natOf b = some m) :
    decimal (a ++ '.' :: b) = some ((n : ℚ) + m / 10 ^ b.length) := by
  have hn : ∀ x ∈ a, decide (x ≠ '.') = true := by
    intro x hx
    have := (natOf_digits ha).2 x hx
    simp only [ne_eq, decide_not, Bool.not_eq_eq_eq_not, Bool.not_true, decide_eq_false_iff_not]
    rintro rfl
    rw [dot_not_digit] at this; cases this
  unfold decimal
  rw [List.dropWhile_append_of_pos hn, List.takeWhile_append_of_pos hn]
  simp [ha, hb]

/-- the characters of a decimal numeral -/
theorem decimal_chars {s : List Char} {v : ℚ} (h : decimal s = some v) : s ≠ [] ∧ ∀ c ∈ s, c.isDigit = true ∨ c = '.' := by
  rcases decimal_shape h with ⟨n, hn, -⟩ | ⟨a, b, n, m, rfl, ha, hb, -⟩
  · exact ⟨(natOf_digits hn).1, fun c hc => Or.inl ((natOf_digits hn).2 c hc)⟩
  · refine ⟨by simp, fun c hc => ?_⟩
    simp only [List.mem_append, List.mem_cons] at hc
    rcases hc with hc | hc | hc
    · exact Or.inl ((natOf_digits ha).2 c hc)
    · exact Or.inr hc
    · exact Or.inl ((natOf_digits hb).2 c hc)

/-- a decimal numeral is read as the float nearest to it -/
theorem number_decimal {s : List Char} {v : ℚ} (h : decimal s = some v) : number f s = some (ofQ false v) := by
  obtain ⟨hne, hc⟩ := decimal_chars h
  have key : ∀ c, c ∈ s → (c = '-' ∨ c = 'N' ∨ c = 'i') → False := by
    intro c hm he
    rcases hc c hm with h1 | h1 <;> rcases he with rfl | rfl | rfl <;> revert h1 <;> decide
  have hu : unsignedNumber f s = some (ofQ false v) := by
    unfold unsignedNumber
    rw [if_neg (fun e => key 'N' (by rw [e]; simp) (by simp)), if_neg (fun e => key 'i' (by rw [e]; simp) (by simp)), h]; rfl
  unfold number
  split
  · exact absurd (by simp) (key '-' (by simp))
  · exact hu

theorem number_neg_decimal {s : List Char} {v : ℚ} (h : decimal s = some v) : number f ('-' :: s) = some (neg (ofQ false v)) := by
  obtain ⟨hne, hc⟩ := decimal_chars h
  have key : ∀ c, c ∈ s → (c = '-' ∨ c = 'N' ∨ c = 'i') → False := by
    intro c hm he
    rcases hc c hm with h1 | h1 <;> rcases he with rfl | rfl | rfl <;> revert h1 <;> decide
  show (unsignedNumber f s).map Flt.neg = _
  unfold unsignedNumber
  rw [if_neg (fun e => key 'N' (by rw [e]; simp) (by simp)), if_neg (fun e => key 'i' (by rw [e]; simp) (by simp)), h]; rfl

/-! ### whole numbers -/

/-- rounding keeps whole numbers whole -/
theorem roundQ_whole (f : Fmt) (n : ℤ) : ∃ m : ℤ, roundQ f n = m := by
  rw [roundQ_eq]
  rcases le_total 0 (ulpExp f n) with h | h
  · obtain ⟨m, hm⟩ := pow2_grid h
    rw [pow2_zero, mul_one] at hm
    exact ⟨_, by rw [hm]; exact_mod_cast rfl⟩
  · obtain ⟨m, hm⟩ := pow2_grid h
    rw [pow2_zero] at hm
    have hp := pow2_ne (ulpExp f n)
    have : (n : ℚ) / pow2 (ulpExp f n) = ((n * m : ℤ) : ℚ) := by
      rw [div_eq_iff hp]; push_cast; rw [mul_assoc, ← hm, mul_one]
    rw [this, rne_int]
    exact ⟨n, by push_cast; rw [mul_assoc, ← hm, mul_one]⟩

/-- numbers of a format are multiples of its least unit -/
theorem repr_unit {q : ℚ} (h : Fl.Repr f q) : ∃ n : ℤ, q = n * pow2 f.emin := by
  obtain ⟨-, n, e, hq, -, he⟩ := h
  obtain ⟨m, hm⟩ := pow2_grid he
  exact ⟨n * m, by rw [hq, hm]; push_cast; ring⟩

/-- a whole number below a number of the format is one itself -/
theorem repr_trunc {q : ℚ} (h : Fl.Repr f q) {t : ℤ} (ht : |(t : ℚ)| ≤ |q|) (hc : |q - t| < 1) : Fl.Repr f (t : ℚ) := by
  by_cases hb : |t| ≤ 2 ^ f.prec
  · exact repr_int f t hb
  · -- then the number is whole
    have hq : ∃ m : ℤ, q = m := by
      obtain ⟨-, n, e, hq, hn, he⟩ := h
      rcases le_total 0 e with h0 | h0
      · obtain ⟨m, hm⟩ := pow2_grid h0
        rw [pow2_zero, mul_one] at hm
        exact ⟨n * m, by rw [hq, hm]; push_cast; ring⟩
      · exfalso
        have h1 : pow2 e ≤ 1 := by have := pow2_le h0; rwa [pow2_zero] at this
        have h2 : |q| < 2 ^ f.prec := by
          rw [hq, abs_mul, abs_of_pos (pow2_pos e)]
          have h3 : |(n : ℚ)| < 2 ^ f.prec := by exact_mod_cast hn
          have := mul_le_mul_of_nonneg_left h1 (abs_nonneg (n : ℚ))
          linarith
        have h4 : (2 : ℚ) ^ f.prec < |(t : ℚ)| := by
          have := not_le.1 hb
          exact_mod_cast this
        linarith
    obtain ⟨m, hm⟩ := hq
    have : m = t := by
      rw [hm] at hc
      have : |m - t| < 1 := by exact_mod_cast hc
      have := Int.abs_lt_one_iff.1 this
      omega
    rw [← this, ← hm]; exact h

theorem trunc_facts (q : ℚ) : let t : ℤ := if q < 0 then q.ceil else q.floor
    |(t : ℚ)| ≤ |q| ∧ |q - t| < 1 := by
  intro t
  by_cases h : q < 0
  · have e : t = q.ceil := if_pos h
    have h1 : q ≤ q.ceil := Rat.ceil_le_iff.1 le_rfl
    have h2 : (q.ceil : ℚ) < q + 1 := Rat.ceil_lt
    have h3 : (q.ceil : ℚ) ≤ 0 := by
      have : q.ceil ≤ 0 := Rat.ceil_le_iff.2 (by push_cast; exact h.le)
      exact_mod_cast this
    rw [e, abs_of_nonpos h3, abs_of_neg h, abs_lt]
    exact ⟨by linarith, by linarith, by linarith⟩
  · have e : t = q.floor := if_neg h
    have h1 : (q.floor : ℚ) ≤ q := Rat.floor_le q
    have h2 : q < q.floor + 1 := by have := Rat.lt_floor_add_one q; exact_mod_cast this
    have h3 : (0 : ℚ) ≤ q.floor := by
      have : 0 ≤ q.floor := Rat.le_floor_iff.2 (by push_cast; exact not_lt.1 h)
      exact_mod_cast this
    rw [e, abs_of_nonneg h3, abs_of_nonneg (not_lt.1 h), abs_lt]
    exact ⟨by linarith, by linarith, by linarith⟩

theorem is_trunc {x : Flt f} (h : x.isFin = true) :
    ∃ t : ℤ, Is (fltTrunc x) (t : ℚ) ∧ |(t : ℚ)| ≤ |x.val| ∧ |x.val - t| < 1 ∧ Fl.Repr f (t : ℚ) := by
  cases x with
  | nan => cases h
  | inf s => cases h
  | zero s => exact ⟨0, ⟨rfl, by show (0 : ℚ) = _; simp⟩, by simp, by show |(0 : ℚ) - _| < 1; simp, by
      have := is_repr (is_zero (f := f) false); simpa using this⟩
  | fin q hq =>
    obtain ⟨h1, h2⟩ := trunc_facts q
    obtain ⟨t, ht⟩ : ∃ t : ℤ, t = if q < 0 then q.ceil else q.floor := ⟨_, rfl⟩
    rw [← ht] at h1 h2
    have hr := repr_trunc hq.2 h1 h2
    refine ⟨t, ?_, h1, h2, hr⟩
    have e : fltTrunc (.fin q hq : Flt f) = ofQ (decide (q < 0)) (t : ℚ) := by rw [ht]; rfl
    rw [e]
    exact is_ofQ_repr _ hr

/-- the test of `format_float` finds exactly the finite numbers that are whole -/
theorem fract_zero (x : Flt f) : Flt.beq (fltFract x) (.zero false) = true ↔ x.isFin = true ∧ ∃ n : ℤ, x.val = n := by
  by_cases hx : x.isFin = true
  · obtain ⟨t, ht, h1, h2, hr⟩ := is_trunc hx
    obtain ⟨m, hm⟩ := repr_unit hr
    obtain ⟨n, hn⟩ := repr_unit (is_repr (is_self hx))
    have hq : x.val - t = ((n - m : ℤ) : ℚ) * pow2 f.emin := by rw [hm, hn]; push_cast; ring
    have hlt : |roundQ f (x.val - t)| < pow2 f.emax := by
      have h1' : |x.val - t| ≤ 1 := h2.le
      have hb := abs_le.1 h1'
      have one : roundQ f 1 = 1 := by
        have := roundQ_fix f 1 0 (by have := f.hprec; simp; exact one_le_pow₀ (by norm_num)) (by have := f.hemin; omega)
        rw [pow2_zero] at this; simpa using this
      have a := roundQ_mono f hb.1
      have b := roundQ_mono f hb.2
      rw [roundQ_neg, one] at a
      rw [one] at b
      have : |roundQ f (x.val - t)| ≤ 1 := abs_le.2 ⟨a, b⟩
      refine lt_of_le_of_lt this ?_
      have := pow2_lt (a := 0) (b := f.emax) (by have := f.hemax; omega)
      rwa [pow2_zero] at this
    have hs : Is (fltFract x) (roundQ f (x.val - t)) := is_sub (is_self hx) ht hlt
    rw [is_beq hs (is_zero false), decide_eq_true_eq]
    constructor
    · intro h0
      refine ⟨hx, t, ?_⟩
      by_contra hne
      have hd : n - m ≠ 0 := by
        intro e
        rw [e] at hq; push_cast at hq; rw [zero_mul] at hq
        exact hne (by linarith)
      have u : roundQ f (pow2 f.emin) = pow2 f.emin := by
        have := roundQ_fix f 1 f.emin (by simp; exact one_le_pow₀ (by norm_num)) le_rfl
        simpa using this
      have hp := pow2_pos f.emin
      rcases lt_or_gt_of_ne hd with hd | hd
      · have h3 : x.val - t ≤ -pow2 f.emin := by
          have : ((n - m : ℤ) : ℚ) ≤ -1 := by exact_mod_cast (by omega : n - m ≤ -1)
          rw [hq]; nlinarith
        have := roundQ_mono f h3
        rw [roundQ_neg, u, h0] at this
        linarith
      · have h3 : pow2 f.emin ≤ x.val - t := by
          have : (1 : ℚ) ≤ ((n - m : ℤ) : ℚ) := by exact_mod_cast (by omega : 1 ≤ n - m)
          rw [hq]; nlinarith
        have := roundQ_mono f h3
        rw [u, h0] at this
        linarith
    · rintro ⟨-, k, hk⟩
      have : k = t := by
        rw [hk] at h2
        have : |k - t| < 1 := by exact_mod_cast h2
        have := Int.abs_lt_one_iff.1 this
        omega
      rw [hk, this, sub_self, roundQ_zero]
  · constructor
    · intro h
      cases x with
      | nan => cases h
      | inf s => cases s <;> cases h
      | zero s => exact absurd rfl hx
      | fin q hq => exact absurd rfl hx
    · exact fun h => absurd h.1 hx

/-! ### `format_float` -/

/-- the texts of numbers the standard library makes -/
structure TextOk (T : NumText f) : Prop where
  plain : DisplayOk T.plain
  one : DisplayOneOk T.one

theorem ofQ_val {x : Flt f} (hx : x.isFin = true) (hs : x.sign = false) : ofQ false x.val = x := by
  cases x with
  | nan => cases hx
  | inf s => cases hx
  | zero s => cases s with
    | false => exact ofQ_zero false
    | true => cases hs
  | fin q hq =>
    have hr : roundQ f q = q := by
      obtain ⟨-, n, e, h1, h2, h3⟩ := hq.2
      rw [h1]; exact roundQ_fix f n e h2.le h3
    show ofQ false q = _
    unfold ofQ
    rw [dif_pos (by rw [hr]; exact hq.2.1), dif_neg (by rw [hr]; exact hq.1)]
    congr 1

theorem neg_neg' (x : Flt f) : x.neg.neg = x := by
  cases x with
  | nan => rfl
  | inf s => simp [Flt.neg]
  | zero s => simp [Flt.neg]
  | fin q h => simp [Flt.neg]

theorem fin_neg {x : Flt f} (h : x.isFin = true) : x.neg.isFin = true := by cases x <;> first | rfl | cases h
theorem sign_neg {x : Flt f} (h : x ≠ .nan) (hs : x.sign = true) : x.neg.sign = false := by
  cases x with
  | nan => exact absurd rfl h
  | inf s => cases hs; rfl
  | zero s => cases hs; rfl
  | fin q hq =>
    have : q < 0 := by simpa [Flt.sign] using hs
    show decide (-q < 0) = false
    rw [decide_eq_false_iff_not]; linarith
theorem val_neg' {x : Flt f} (h : x.isFin = true) : x.neg.val = -x.val := (is_neg (is_self h)).2
theorem val_nonneg {x : Flt f} (hs : x.sign = false) : 0 ≤ x.val := by
  cases x with
  | fin q hq =>
    have : ¬ q < 0 := by simpa [Flt.sign] using hs
    exact not_lt.1 this
  | nan => exact le_rfl
  | inf s => exact le_rfl
  | zero s => exact le_rfl

/-- the text of a whole number -/
theorem one_whole {one : Flt f → String} (h : DisplayOneOk one) {x : Flt f} (hx : x.isFin = true) (hs : x.sign = false)
    {k : ℕ} (hk : x.val = k) : (one x).toList = Nat.toDigits 10 k ++ ['.', '0'] := by
  obtain ⟨n, d, hd, ht, hv⟩ := h.pos x hx hs
  have hd9 : d.toNat - '0'.toNat ≤ 9 := by
    have h1 : '0'.toNat = 48 := rfl
    have : d.toNat ≤ 57 := by
      simp only [Char.isDigit, Bool.and_eq_true, decide_eq_true_eq] at hd
      exact hd.2
    omega
  have hlo : 48 ≤ d.toNat := by
    simp only [Char.isDigit, Bool.and_eq_true, decide_eq_true_eq] at hd
    exact hd.1
  obtain ⟨j, hj⟩ : ∃ j, j = d.toNat - '0'.toNat := ⟨_, rfl⟩
  rw [← hj] at hv hd9
  rw [hk] at hv
  have h10 : |(10 * n + j - 10 * k : ℚ)| ≤ 1 / 2 := by
    have e : (10 * n + j - 10 * k : ℚ) = 10 * (n + j / 10 - k) := by ring
    rw [e, abs_mul, abs_of_pos (by norm_num : (0 : ℚ) < 10)]
    linarith
  have hz : (10 * n + j - 10 * k : ℤ) = 0 := by
    have : |(10 * n + j - 10 * k : ℤ)| < 1 := by
      have : |(10 * n + j - 10 * k : ℚ)| < 1 := by linarith
      exact_mod_cast this
    exact Int.abs_lt_one_iff.1 this
  have hn : n = k := by omega
  have hj0 : j = 0 := by omega
  have hd0 : d = '0' := by
    have : d.toNat = 48 := by rw [hj0] at hj; have : '0'.toNat = 48 := rfl; omega
    exact Char.toNat_inj.1 this
  rw [ht, hn, hd0]

theorem natOf_zero : natOf ['0'] = some 0 := by decide

/-- what `format_float` prints for a finite number without sign bit: a numeral with a decimal point, that reads as the number -/
theorem format_pos {T : NumText f} (hT : TextOk T) {x : Flt f} (hx : x.isFin = true) (hs : x.sign = false) :
    ∃ (a b : List Char) (n m : ℕ), (formatFloat T x).toList = a ++ '.' :: b ∧ natOf a = some n ∧ natOf b = some m ∧
      ofQ false ((n : ℚ) + m / 10 ^ b.length) = x := by
  unfold formatFloat
  by_cases h : Flt.beq (fltFract x) (.zero false) = true
  · rw [if_pos h]
    obtain ⟨-, k, hk⟩ := (fract_zero x).1 h
    have h0 := val_nonneg hs
    obtain ⟨k', rfl⟩ : ∃ k' : ℕ, k = k' := ⟨k.toNat, by
      have : 0 ≤ k := by rw [hk] at h0; exact_mod_cast h0
      omega⟩
    have ht := one_whole hT.one hx hs (k := k') (by rw [hk]; simp)
    refine ⟨_, _, k', 0, ht, readNat_toDigits k', natOf_zero, ?_⟩
    have : ((k' : ℚ) + (0 : ℕ) / 10 ^ ['0'].length) = x.val := by rw [hk]; simp
    rw [this, ofQ_val hx hs]
  · rw [if_neg h]
    obtain ⟨v, hv, hr⟩ := hT.plain.pos x hx hs
    rcases decimal_shape hv with ⟨n, hn, he⟩ | ⟨a, b, n, m, e, ha, hb, he⟩
    · exfalso
      apply h
      rw [fract_zero]
      refine ⟨hx, ?_⟩
      obtain ⟨k, hk⟩ := roundQ_whole f n
      refine ⟨k, ?_⟩
      have hlt : |roundQ f v| < pow2 f.emax := by
        by_contra hc
        unfold ofQ at hr
        rw [dif_neg hc] at hr
        rw [← hr] at hx; cases hx
      have := (is_ofQ (f := f) false hlt).2
      rw [hr] at this
      rw [this, he]; simpa using hk
    · exact ⟨a, b, n, m, e, ha, hb, by rw [← he]; exact hr⟩

theorem format_neg {T : NumText f} (hT : TextOk T) {x : Flt f} (hx : x ≠ .nan) (hs : x.sign = true) :
    (formatFloat T x).toList = '-' :: (formatFloat T x.neg).toList := by
  have hc : Flt.beq (fltFract x.neg) (.zero false) = Flt.beq (fltFract x) (.zero false) := by
    rw [Bool.eq_iff_iff, fract_zero, fract_zero]
    constructor
    · rintro ⟨h1, n, h2⟩
      have h3 : x.isFin = true := by have := fin_neg h1; rwa [neg_neg'] at this
      exact ⟨h3, -n, by rw [val_neg' h3] at h2; push_cast; linarith⟩
    · rintro ⟨h1, n, h2⟩
      exact ⟨fin_neg h1, -n, by rw [val_neg' h1, h2]; push_cast; rfl⟩
  unfold formatFloat
  rw [hc]
  by_cases h : Flt.beq (fltFract x) (.zero false) = true
  · rw [if_pos h, if_pos h, hT.one.neg x ((fract_zero x).1 h).1 hs, String.toList_append]; rfl
  · rw [if_neg h, if_neg h, hT.plain.neg x hx hs, String.toList_append]; rfl

theorem format_nan {T : NumText f} (hT : TextOk T) : (formatFloat T .nan).toList = ['N', 'a', 'N'] := by
  have : formatFloat T .nan = T.plain .nan := rfl
  rw [this, hT.plain.nan]; rfl

theorem format_inf {T : NumText f} (hT : TextOk T) : (formatFloat T (.inf false)).toList = ['i', 'n', 'f'] := by
  have : formatFloat T (.inf false) = T.plain (.inf false) := rfl
  rw [this, hT.plain.inf]; rfl

/-- Every number can be read back from its text, with the sign of zero. -/
theorem C96_number_reads_back {T : NumText f} (hT : TextOk T) (x : Flt f) : number f (formatFloat T x).toList = some x := by
  have pos : ∀ y : Flt f, y.isFin = true → y.sign = false → number f (formatFloat T y).toList = some y ∧
      number f ('-' :: (formatFloat T y).toList) = some y.neg := by
    intro y hy hs
    obtain ⟨a, b, n, m, ht, ha, hb, hr⟩ := format_pos hT hy hs
    rw [ht]
    have hd := decimal_dot ha hb
    exact ⟨by rw [number_decimal hd, hr], by rw [number_neg_decimal hd, hr]⟩
  by_cases hn : x = .nan
  · subst hn; rw [format_nan hT]; rfl
  cases hs : x.sign with
  | false =>
    by_cases hx : x.isFin = true
    · exact (pos x hx hs).1
    · cases x with
      | nan => exact absurd rfl hn
      | inf s => cases hs; rw [format_inf hT]; rfl
      | zero s => exact absurd rfl hx
      | fin q h => exact absurd rfl hx
  | true =>
    rw [format_neg hT hn hs]
    by_cases hx : x.isFin = true
    · rw [(pos _ (fin_neg hx) (sign_neg hn hs)).2, neg_neg']
    · cases x with
      | nan => exact absurd rfl hn
      | inf s => cases hs; show number f ('-' :: (formatFloat T (.inf false)).toList) = _; rw [format_inf hT]; rfl
      | zero s => exact absurd rfl hx
      | fin q h => exact absurd rfl hx

/-- The text of a finite number is an optional minus sign, digits, one decimal point, digits; the minus sign is there
if the sign bit is set. -/
theorem C96_number_has_a_point {T : NumText f} (hT : TextOk T) (x : Flt f) (hx : x.isFin = true) :
    ∃ a b : List Char, a ≠ [] ∧ b ≠ [] ∧ (∀ c ∈ a ++ b, c.isDigit = true) ∧
      (formatFloat T x).toList = (if x.sign then ['-'] else []) ++ (a ++ '.' :: b) := by
  have pos : ∀ y : Flt f, y.isFin = true → y.sign = false → ∃ a b : List Char, a ≠ [] ∧ b ≠ [] ∧
      (∀ c ∈ a ++ b, c.isDigit = true) ∧ (formatFloat T y).toList = a ++ '.' :: b := by
    intro y hy hs
    obtain ⟨a, b, n, m, ht, ha, hb, hr⟩ := format_pos hT hy hs
    refine ⟨a, b, (natOf_digits ha).1, (natOf_digits hb).1, ?_, ht⟩
    intro c hc
    rcases List.mem_append.1 hc with hc | hc
    · exact (natOf_digits ha).2 c hc
    · exact (natOf_digits hb).2 c hc
  have hn : x ≠ .nan := by rintro rfl; cases hx
  cases hs : x.sign with
  | false =>
    obtain ⟨a, b, h1, h2, h3, h4⟩ := pos x hx hs
    exact ⟨a, b, h1, h2, h3, by rw [h4]; rfl⟩
  | true =>
    obtain ⟨a, b, h1, h2, h3, h4⟩ := pos _ (fin_neg hx) (sign_neg hn hs)
    exact ⟨a, b, h1, h2, h3, by rw [format_neg hT hn hs, h4]; rfl⟩

/-- A whole number is printed with all its digits and `.0`. -/
theorem C96_whole_number {T : NumText f} (hT : TextOk T) (x : Flt f) (hx : x.isFin = true) (n : ℤ) (hn : x.val = n) :
    (formatFloat T x).toList = (if x.sign then ['-'] else []) ++ (Nat.toDigits 10 n.natAbs ++ ['.', '0']) := by
  have pos : ∀ y : Flt f, y.isFin = true → y.sign = false → ∀ k : ℕ, y.val = k →
      (formatFloat T y).toList = Nat.toDigits 10 k ++ ['.', '0'] := by
    intro y hy hs k hk
    have : formatFloat T y = T.one y := if_pos ((fract_zero y).2 ⟨hy, k, by rw [hk]; simp⟩)
    rw [this]; exact one_whole hT.one hy hs hk
  have hne : x ≠ .nan := by rintro rfl; cases hx
  cases hs : x.sign with
  | false =>
    have h0 := val_nonneg hs
    rw [hn] at h0
    have : 0 ≤ n := by exact_mod_cast h0
    obtain ⟨k, rfl⟩ := Int.eq_ofNat_of_zero_le this
    rw [pos x hx hs k (by rw [hn]; simp)]; simp
  | true =>
    have h0 := val_nonneg (sign_neg hne hs)
    rw [val_neg' hx, hn] at h0
    have h1 : 0 ≤ -n := by exact_mod_cast h0
    obtain ⟨k, hk⟩ := Int.eq_ofNat_of_zero_le h1
    obtain rfl : n = -(k : ℤ) := by omega
    rw [format_neg hT hne hs, pos _ (fin_neg hx) (sign_neg hne hs) k (by rw [val_neg' hx, hn]; simp)]; simp

/-- NaN and the infinities are printed without a point, as `NaN`, `inf` and `-inf`. -/
theorem C96_not_finite {T : NumText f} (hT : TextOk T) : formatFloat T .nan = "NaN" ∧
    formatFloat T (.inf false) = "inf" ∧ formatFloat T (.inf true) = "-inf" := by
  refine ⟨hT.plain.nan, hT.plain.inf, ?_⟩
  have : formatFloat T (.inf true) = T.plain (.inf true) := rfl
  rw [this, hT.plain.neg (.inf true) (fun h => (nomatch h)) rfl]
  show "-" ++ T.plain (.inf false) = _
  rw [hT.plain.inf]; rfl

/-! ### a reader of the texts of lines and boxes (specification) -/

/-- a number, ended by the character `c`; returns the rest too -/
def readUntil (f : Fmt) (c : Char) (s : List Char) : Option (Flt f × List Char) :=
  match cut c s with
  | some (a, r) => (number f a).map (fun x => (x, r))
  | none => none

/-- the text must begin with `t`; what comes after it -/
def skip (t s : List Char) : Option (List Char) := if t <+: s then some (s.drop t.length) else none

/-- `(x,y)-(x,y)` -/
def readLine2 (f : Fmt) (s : List Char) : Option (Line2 (Flt f) × List Char) := do
  let s ← skip ['('] s
  let (x0, s) ← readUntil f ',' s
  let (y0, s) ← readUntil f ')' s
  let s ← skip ['-', '('] s
  let (x1, s) ← readUntil f ',' s
  let (y1, s) ← readUntil f ')' s
  return (⟨⟨x0, y0⟩, ⟨x1, y1⟩⟩, s)

/-- `(x,y,z)-(x,y,z)` -/
def readLine3 (f : Fmt) (s : List Char) : Option (Line3 (Flt f) × List Char) := do
  let s ← skip ['('] s
  let (x0, s) ← readUntil f ',' s
  let (y0, s) ← readUntil f ',' s
  let (z0, s) ← readUntil f ')' s
  let s ← skip ['-', '('] s
  let (x1, s) ← readUntil f ',' s
  let (y1, s) ← readUntil f ',' s
  let (z1, s) ← readUntil f ')' s
  return (⟨⟨x0, y0, z0⟩, ⟨x1, y1, z1⟩⟩, s)

/-- `Aabb2[None]` or `Aabb2[(x,y)-(x,y)]` -/
def readAabb2 (f : Fmt) (s : List Char) : Option (Aabb2 (Flt f) × List Char) :=
  match skip "Aabb2[None]".toList s with
  | some s => some (⟨none⟩, s)
  | none => do
    let s ← skip "Aabb2[".toList s
    let (l, s) ← readLine2 f s
    let s ← skip [']'] s
    return (⟨some (l.start, l.end)⟩, s)

/-! ### proofs -/

theorem format_chars {T : NumText f} (hT : TextOk T) (x : Flt f) :
    ∀ c ∈ (formatFloat T x).toList, c.isDigit = true ∨ c ∈ ['.', '-', 'N', 'a', 'i', 'n', 'f'] := by
  intro c hc
  by_cases hx : x.isFin = true
  · obtain ⟨a, b, -, -, h3, h4⟩ := C96_number_has_a_point hT x hx
    rw [h4] at hc
    simp only [List.mem_append, List.mem_cons] at hc h3
    rcases hc with hc | hc | hc | hc
    · cases hs : x.sign with
      | false => rw [hs] at hc; simp at hc
      | true => rw [hs] at hc; simp at hc; subst hc; right; decide
    · exact Or.inl (h3 c (Or.inl hc))
    · subst hc; right; decide
    · exact Or.inl (h3 c (Or.inr hc))
  · right
    obtain ⟨h1, h2, h3⟩ := C96_not_finite hT
    cases x with
    | nan => rw [h1] at hc; revert hc; revert c; decide
    | inf s =>
      cases s with
      | false => rw [h2] at hc; revert hc; revert c; decide
      | true => rw [h3] at hc; revert hc; revert c; decide
    | zero s => exact absurd rfl hx
    | fin q h => exact absurd rfl hx

theorem readUntil_format {T : NumText f} (hT : TextOk T) (x : Flt f) (c : Char) (hc : c = ',' ∨ c = ')') (r : List Char) :
    readUntil f c ((formatFloat T x).toList ++ c :: r) = some (x, r) := by
  have hn : c ∉ (formatFloat T x).toList := by
    intro hm
    rcases format_chars hT x c hm with h | h
    · rcases hc with rfl | rfl <;> revert h <;> decide
    · rcases hc with rfl | rfl <;> revert h <;> decide
  unfold readUntil
  rw [cut_append _ _ _ hn]
  simp only [C96_number_reads_back hT, Option.map]

theorem skip_append (t s : List Char) : skip t (t ++ s) = some s := by
  unfold skip; rw [if_pos (List.prefix_append t s), List.drop_left]

theorem line2_toList (T : NumText f) (l : Line2 (Flt f)) (r : List Char) : (debugLine2 T l).toList ++ r =
    ['('] ++ ((formatFloat T l.start.x).toList ++ ',' :: ((formatFloat T l.start.y).toList ++ ')' :: (['-', '('] ++
    ((formatFloat T l.end.x).toList ++ ',' :: ((formatFloat T l.end.y).toList ++ ')' :: r))))) := by
  simp [debugLine2, String.toList_append]

theorem readLine2_debug {T : NumText f} (hT : TextOk T) (l : Line2 (Flt f)) (r : List Char) :
    readLine2 f ((debugLine2 T l).toList ++ r) = some (l, r) := by
  rw [line2_toList]
  unfold readLine2
  simp only [skip_append, readUntil_format hT _ _ (Or.inl rfl), readUntil_format hT _ _ (Or.inr rfl), bind, Option.bind, pure]

/-- The text of a 2D line can be read back, bit for bit. -/
theorem C96_line2_reads_back {T : NumText f} (hT : TextOk T) (l : Line2 (Flt f)) :
    readLine2 f (debugLine2 T l).toList = some (l, []) := by
  have := readLine2_debug hT l []
  rwa [List.append_nil] at this

theorem line3_toList (T : NumText f) (l : Line3 (Flt f)) (r : List Char) : (debugLine3 T l).toList ++ r =
    ['('] ++ ((formatFloat T l.start.x).toList ++ ',' :: ((formatFloat T l.start.y).toList ++ ',' ::
    ((formatFloat T l.start.z).toList ++ ')' :: (['-', '('] ++
    ((formatFloat T l.end.x).toList ++ ',' :: ((formatFloat T l.end.y).toList ++ ',' :: ((formatFloat T l.end.z).toList ++ ')' :: r))))))) := by
  simp [debugLine3, String.toList_append]

/-- The text of a 3D line can be read back, bit for bit. -/
theorem C96_line3_reads_back {T : NumText f} (hT : TextOk T) (l : Line3 (Flt f)) :
    readLine3 f (debugLine3 T l).toList = some (l, []) := by
  have e := line3_toList T l []
  rw [List.append_nil] at e
  rw [e]
  unfold readLine3
  simp only [skip_append, readUntil_format hT _ _ (Or.inl rfl), readUntil_format hT _ _ (Or.inr rfl), bind, Option.bind, pure]

/-- The text of a box can be read back; the empty box is told apart from every other one. -/
theorem C96_aabb2_reads_back {T : NumText f} (hT : TextOk T) (b : Aabb2 (Flt f)) :
    readAabb2 f (debugAabb2 T b).toList = some (b, []) := by
  obtain ⟨mm⟩ := b
  cases mm with
  | none =>
    have h : skip "Aabb2[None]".toList "Aabb2[None]".toList = some [] := by decide
    show readAabb2 f "Aabb2[None]".toList = _
    unfold readAabb2
    rw [h]
  | some p =>
    obtain ⟨lo, hi⟩ := p
    have e : (debugAabb2 T ⟨some (lo, hi)⟩).toList = "Aabb2[".toList ++ ((debugLine2 T ⟨lo, hi⟩).toList ++ [']']) := by
      simp [debugAabb2, debugLine2, String.toList_append]
    have h0 : skip "Aabb2[None]".toList (debugAabb2 T ⟨some (lo, hi)⟩).toList = none := by
      unfold skip
      rw [if_neg]
      intro h
      rw [e, line2_toList] at h
      have := List.IsPrefix.getElem h (i := 6) (by decide)
      revert this
      simp
    unfold readAabb2
    rw [h0, e]
    have h2 : skip [']'] [']'] = some [] := by decide
    simp only [skip_append, readLine2_debug hT, h2, bind, Option.bind, pure]

/-- Different lines have different texts. -/
theorem C96_line2_text_determines {T : NumText f} (hT : TextOk T) (l m : Line2 (Flt f)) (h : debugLine2 T l = debugLine2 T m) :
    l = m := by
  have h1 := C96_line2_reads_back hT l
  rw [h, C96_line2_reads_back hT m] at h1
  exact (congrArg Prod.fst (Option.some.inj h1)).symm

/-- An overlap is printed like its line, a point with the text of the vector type: if the latter does not begin with a parenthesis
the text tells which one it is. -/
theorem C96_intersection_text {T : NumText f} (hT : TextOk T) (vec : V2 (Flt f) → String)
    (hv : ∀ p, (vec p).toList.head? ≠ some '(') (hinj : Function.Injective vec) :
    Function.Injective (debugIntersection T vec) := by
  intro a b h
  have hp : ∀ l : Line2 (Flt f), (debugLine2 T l).toList.head? = some '(' := by
    intro l
    have := line2_toList T l []
    rw [List.append_nil] at this
    rw [this]; rfl
  cases a with
  | point p =>
    cases b with
    | point q => exact congrArg _ (hinj h)
    | overlap l => exact absurd (by rw [show vec p = debugLine2 T l from h]; exact hp l) (hv p)
  | overlap l =>
    cases b with
    | point q => exact absurd (by rw [show vec q = debugLine2 T l from h.symm]; exact hp l) (hv q)
    | overlap m => exact congrArg _ (C96_line2_text_determines hT l m h)

/-- The text of a vertex index of the merged hulls (`12A3`) shows the three fields. -/
theorem C96_vertex_index_text : Function.Injective debugVertexIndex := by
  intro v w h
  have key : ∀ (u : VertexIndex), ∃ c, (c = 'A' ∧ u.fromA = true ∨ c = 'B' ∧ u.fromA = false) ∧
      (debugVertexIndex u).toList = Nat.toDigits 10 u.index ++ c :: Nat.toDigits 10 u.indexIndex := by
    intro u
    unfold debugVertexIndex
    cases hu : u.fromA with
    | true => exact ⟨'A', Or.inl ⟨rfl, rfl⟩, by simp [String.toList_append, toList_toString]⟩
    | false => exact ⟨'B', Or.inr ⟨rfl, rfl⟩, by simp [String.toList_append, toList_toString]⟩
  have nd : ∀ (n : ℕ) (s : List Char), (Nat.toDigits 10 n ++ s).takeWhile Char.isDigit = Nat.toDigits 10 n ++ s.takeWhile Char.isDigit :=
    fun n s => List.takeWhile_append_of_pos (fun c hc => digit_ne hc)
  have dd : ∀ (n : ℕ) (s : List Char), (Nat.toDigits 10 n ++ s).dropWhile Char.isDigit = s.dropWhile Char.isDigit :=
    fun n s => List.dropWhile_append_of_pos (fun c hc => digit_ne hc)
  obtain ⟨c, hc, ev⟩ := key v
  obtain ⟨d, hd, ew⟩ := key w
  rw [h, ew] at ev
  have hcn : c.isDigit = false := by rcases hc with ⟨rfl, -⟩ | ⟨rfl, -⟩ <;> decide
  have hdn : d.isDigit = false := by rcases hd with ⟨rfl, -⟩ | ⟨rfl, -⟩ <;> decide
  have h1 := congrArg (List.takeWhile Char.isDigit) ev
  have h2 := congrArg (List.dropWhile Char.isDigit) ev
  rw [nd, nd] at h1
  rw [dd, dd] at h2
  simp only [List.takeWhile_cons, List.dropWhile_cons, hcn, hdn, Bool.false_eq_true, if_false, List.append_nil] at h1 h2
  have inj : ∀ {n m : ℕ}, Nat.toDigits 10 n = Nat.toDigits 10 m → n = m := by
    intro n m e
    have := readNat_toDigits n
    rw [e, readNat_toDigits] at this
    exact (Option.some.inj this).symm
  obtain ⟨h3, h4⟩ := List.cons.inj h2
  have i1 := inj h1
  have i2 := inj h4
  have i3 : v.fromA = w.fromA := by
    rcases hc with ⟨rfl, hc⟩ | ⟨rfl, hc⟩ <;> rcases hd with ⟨rfl, hd⟩ | ⟨rfl, hd⟩ <;> first | (exact absurd h3 (by decide)) | rw [hc, hd]
  cases v; cases w
  simp only at i1 i2 i3
  subst i1 i2 i3
  rfl

/-- The text of a key of the event queue, `(x, y, Some(3))`, shows position and index, if the texts of numbers differ and
contain no comma. -/
theorem C96_site_event_key_text (num : Flt f → String) (hn : ∀ x, ',' ∉ (num x).toList) (hinj : Function.Injective num)
    (p q : V2 (Flt f)) (i j : Option Nat) (h : debugSiteEventKey num p i = debugSiteEventKey num q j) : p = q ∧ i = j := by
  have key : ∀ (p : V2 (Flt f)) (i : Option Nat), ∃ t : List Char, (t = ['N', 'o', 'n', 'e', ')'] ∧ i = none ∨
      ∃ n, i = some n ∧ t = ['S', 'o', 'm', 'e', '('] ++ (Nat.toDigits 10 n ++ [')', ')'])) ∧
      (debugSiteEventKey num p i).toList = '(' :: ((num p.x).toList ++ ',' :: (' ' :: (num p.y).toList ++ ',' :: (' ' :: t))) := by
    intro p i
    cases i with
    | none => exact ⟨_, Or.inl ⟨rfl, rfl⟩, by simp [debugSiteEventKey, String.toList_append]⟩
    | some n => exact ⟨_, Or.inr ⟨n, rfl, rfl⟩, by simp [debugSiteEventKey, String.toList_append, toList_toString]⟩
  obtain ⟨t, ht, ep⟩ := key p i
  obtain ⟨u, hu, eq⟩ := key q j
  rw [h, eq] at ep
  have h1 := congrArg (cut ',') (List.cons.inj ep).2
  rw [cut_append _ _ _ (hn q.x), cut_append _ _ _ (hn p.x)] at h1
  obtain ⟨h2, h3⟩ := Prod.mk.inj (Option.some.inj h1)
  have hy : ∀ x : Flt f, ',' ∉ ' ' :: (num x).toList := fun x hm => by
    rcases List.mem_cons.1 hm with e | e
    · revert e; decide
    · exact hn x e
  have h4 := congrArg (cut ',') h3
  rw [cut_append _ _ _ (hy q.y), cut_append _ _ _ (hy p.y)] at h4
  obtain ⟨h5, h6⟩ := Prod.mk.inj (Option.some.inj h4)
  have hx' := hinj (String.toList_inj.1 h2)
  have hy' := hinj (String.toList_inj.1 (List.cons.inj h5).2)
  have htu := (List.cons.inj h6).2
  refine ⟨by cases p; cases q; simp only at hx' hy'; rw [hx', hy'], ?_⟩
  rcases ht with ⟨rfl, rfl⟩ | ⟨n, rfl, rfl⟩ <;> rcases hu with ⟨rfl, rfl⟩ | ⟨m, rfl, rfl⟩
  · rfl
  · exact absurd (List.cons.inj htu).1 (by decide)
  · exact absurd (List.cons.inj htu).1 (by decide)
  · have := List.append_cancel_right (List.append_cancel_left htu)
    have h7 := readNat_toDigits n
    rw [← this, readNat_toDigits] at h7
    exact h7.symm

/-! ### texts as promised exist: exact decimals -/

/-- the last `k` digits of `n` -/
def lastDigits : ℕ → ℕ → List Char
  | 0, _ => []
  | k + 1, n => lastDigits k (n / 10) ++ [Nat.digitChar (n % 10)]

theorem digitChar_digit {d : ℕ} (h : d < 10) : (Nat.digitChar d).isDigit = true ∧ (Nat.digitChar d).toNat - '0'.toNat = d := by
  revert d; decide

theorem lastDigits_length : ∀ k n, (lastDigits k n).length = k
  | 0, _ => rfl
  | k + 1, n => by simp [lastDigits, lastDigits_length k]

theorem lastDigits_all : ∀ k n, (lastDigits k n).all Char.isDigit = true
  | 0, _ => rfl
  | k + 1, n => by
    have := (digitChar_digit (Nat.mod_lt n (show 0 < 10 by norm_num))).1
    simp only [lastDigits, List.all_append, lastDigits_all k, List.all_cons, this, List.all_nil, Bool.and_self]

theorem lastDigits_value : ∀ k n, (lastDigits k n).foldl (fun n c => 10 * n + (c.toNat - '0'.toNat)) 0 = n % 10 ^ k
  | 0, n => by simp [lastDigits, Nat.mod_one]
  | k + 1, n => by
    have := (digitChar_digit (Nat.mod_lt n (show 0 < 10 by norm_num))).2
    rw [lastDigits, List.foldl_append, lastDigits_value k]
    simp only [List.foldl_cons, List.foldl_nil, this]
    rw [pow_succ, Nat.mul_comm (10 ^ k) 10, Nat.mod_mul]
    omega

theorem natOf_lastDigits (k n : ℕ) (h : k ≠ 0) : natOf (lastDigits k n) = some (n % 10 ^ k) := by
  unfold natOf
  have hne : lastDigits k n ≠ [] := by
    intro e
    have := lastDigits_length k n
    rw [e] at this
    exact h this.symm
  rw [if_pos ⟨hne, lastDigits_all k n⟩, lastDigits_value]

/-- the numeral with `k` digits after the point for `n / 10 ^ k` -/
def fixed (k n : ℕ) : List Char := Nat.toDigits 10 (n / 10 ^ k) ++ '.' :: lastDigits k n

theorem decimal_fixed (k n : ℕ) (h : k ≠ 0) : decimal (fixed k n) = some ((n : ℚ) / 10 ^ k) := by
  unfold fixed
  rw [decimal_dot (readNat_toDigits _) (natOf_lastDigits k n h), lastDigits_length]
  congr 1
  have hp : (10 : ℚ) ^ k ≠ 0 := by positivity
  have : ((n : ℕ) : ℚ) = ((10 ^ k * (n / 10 ^ k) + n % 10 ^ k : ℕ) : ℚ) := by rw [Nat.div_add_mod]
  rw [eq_div_iff hp, add_mul, div_mul_cancel₀ _ hp]
  rw [this]; push_cast; ring

/-- a number with a power of two as denominator, written exactly -/
def exactDigits (q : ℚ) : List Char := fixed (q.den + 1) (q * 10 ^ (q.den + 1)).floor.toNat

/-- the signed text of a number, from the text `t` of numbers without sign bit -/
def signed {f : Fmt} (t : ℚ → List Char) : Flt f → String
  | .nan => "NaN"
  | .inf false => "inf"
  | .inf true => "-inf"
  | x => if x.sign then "-" ++ String.ofList (t (-x.val)) else String.ofList (t x.val)

theorem signed_pos {t : ℚ → List Char} {x : Flt f} (hx : x.isFin = true) (hs : x.sign = false) :
    (signed t x).toList = t x.val := by
  cases x with
  | nan => cases hx
  | inf s => cases hx
  | zero s => cases hs; exact String.toList_ofList
  | fin q h => simp only [signed]; rw [if_neg (by rw [hs]; exact Bool.false_ne_true), String.toList_ofList]

theorem signed_neg {t : ℚ → List Char} {x : Flt f} (hx : x.isFin = true) (hs : x.sign = true) :
    signed t x = "-" ++ signed t x.neg := by
  have h2 := sign_neg (by rintro rfl; cases hx) hs
  have h3 := val_neg' hx
  cases x with
  | nan => cases hx
  | inf s => cases hx
  | zero s => cases hs; show "-" ++ String.ofList (t (-0)) = "-" ++ String.ofList (t 0); rw [neg_zero]
  | fin q h =>
    have e1 : signed t (.fin q h : Flt f) = if (Flt.fin q h : Flt f).sign then "-" ++ String.ofList (t (-q)) else String.ofList (t q) := rfl
    have e2 : signed t (Flt.fin q h : Flt f).neg = if (Flt.fin q h : Flt f).neg.sign then "-" ++ String.ofList (t (-(-q))) else String.ofList (t (-q)) := rfl
    rw [e1, e2, hs, h2, if_pos rfl, if_neg Bool.false_ne_true]

theorem repr_den {q : ℚ} (h : Fl.Repr f q) : ∃ k : ℕ, q.den = 2 ^ k := by
  obtain ⟨-, n, e, hq, -, -⟩ := h
  rcases le_total 0 e with h0 | h0
  · obtain ⟨m, hm⟩ := pow2_grid h0
    rw [pow2_zero, mul_one] at hm
    have : q = ((n * m : ℤ) : ℚ) := by rw [hq, hm]; push_cast; ring
    exact ⟨0, by rw [this, Rat.den_intCast]; rfl⟩
  · obtain ⟨k, hk⟩ : ∃ k : ℕ, e = -(k : ℤ) := ⟨e.natAbs, by omega⟩
    have e1 : q = (n : ℚ) / ((2 ^ k : ℕ) : ℚ) := by
      rw [hq, hk, div_eq_mul_inv]
      congr 1
      rw [pow2_eq, zpow_neg, zpow_natCast]; push_cast; rfl
    have : q.den ∣ 2 ^ k := by
      have h4 := Rat.den_dvd n ((2 ^ k : ℕ) : ℤ)
      rw [e1]
      have h5 : ((n : ℚ) / ((2 ^ k : ℕ) : ℚ)) = Rat.divInt n ((2 ^ k : ℕ) : ℤ) := by
        rw [Rat.divInt_eq_div]; push_cast; rfl
      rw [h5]
      exact_mod_cast h4
    obtain ⟨j, -, hj⟩ := (Nat.dvd_prime_pow Nat.prime_two).1 this
    exact ⟨j, hj⟩

theorem decimal_exact {q : ℚ} (h0 : 0 ≤ q) (h : Fl.Repr f q) : decimal (exactDigits q) = some q := by
  obtain ⟨k, hk⟩ := repr_den h
  unfold exactDigits
  rw [decimal_fixed _ _ (Nat.succ_ne_zero _)]
  congr 1
  have hd : q.den ∣ 10 ^ (q.den + 1) := by
    have h1 : 2 ^ k ∣ 10 ^ k := pow_dvd_pow_of_dvd (by norm_num) k
    have h2 : k ≤ q.den + 1 := by rw [hk]; exact (Nat.lt_two_pow_self (n := k)).le.trans (Nat.le_succ _)
    calc q.den = 2 ^ k := hk
      _ ∣ 10 ^ k := h1
      _ ∣ _ := pow_dvd_pow 10 h2
  obtain ⟨c, hc⟩ := hd
  have hq : q * 10 ^ (q.den + 1) = ((q.num * c : ℤ) : ℚ) := by
    have : (10 : ℚ) ^ (q.den + 1) = (q.den : ℚ) * c := by exact_mod_cast hc
    rw [this, ← mul_assoc, Rat.mul_den_eq_num]; push_cast; rfl
  have hn : 0 ≤ q.num * c := mul_nonneg (Rat.num_nonneg.2 h0) (by positivity)
  have hp : (10 : ℚ) ^ (q.den + 1) ≠ 0 := by positivity
  rw [hq, Rat.floor_intCast, div_eq_iff hp, hq]
  have : (((q.num * c).toNat : ℤ) : ℚ) = ((q.num * c : ℤ) : ℚ) := by rw [Int.toNat_of_nonneg hn]
  exact_mod_cast this

theorem repr_val {x : Flt f} (hx : x.isFin = true) : Fl.Repr f x.val := is_repr (is_self hx)

/-- the nearest numeral with one digit after the point -/
def oneDigit (q : ℚ) : List Char := fixed 1 (q * 10 + 1 / 2).floor.toNat

theorem exact_plain : DisplayOk (signed (f := f) exactDigits) where
  nan := rfl
  inf := rfl
  neg := by
    intro x hn hs
    by_cases hx : x.isFin = true
    · exact signed_neg hx hs
    · cases x with
      | nan => exact absurd rfl hn
      | inf s =>
        cases hs
        show "-inf" = "-" ++ "inf"
        decide
      | zero s => exact absurd rfl hx
      | fin q h => exact absurd rfl hx
  pos := by
    intro x hx hs
    refine ⟨x.val, ?_, ofQ_val hx hs⟩
    rw [signed_pos hx hs]
    exact decimal_exact (val_nonneg hs) (repr_val hx)

theorem oneDigit_spec {q : ℚ} (h0 : 0 ≤ q) : ∃ (n : ℕ) (d : Char), d.isDigit = true ∧
    oneDigit q = Nat.toDigits 10 n ++ ['.', d] ∧ |(n : ℚ) + ((d.toNat - '0'.toNat : ℕ) : ℚ) / 10 - q| ≤ 1 / 20 := by
  obtain ⟨n, hn⟩ : ∃ n : ℕ, n = (q * 10 + 1 / 2).floor.toNat := ⟨_, rfl⟩
  have hf : (0 : ℤ) ≤ (q * 10 + 1 / 2).floor := Rat.le_floor_iff.2 (by push_cast; linarith)
  have hc : (n : ℚ) = (q * 10 + 1 / 2).floor := by
    have : (n : ℤ) = (q * 10 + 1 / 2).floor := by rw [hn]; exact Int.toNat_of_nonneg hf
    rw [← this]; rfl
  have l1 := Rat.floor_le (q * 10 + 1 / 2)
  have l2 : q * 10 + 1 / 2 < (q * 10 + 1 / 2).floor + 1 := by
    have := Rat.lt_floor_add_one (q * 10 + 1 / 2); exact_mod_cast this
  obtain ⟨d1, d2⟩ := digitChar_digit (Nat.mod_lt n (show 0 < 10 by norm_num))
  refine ⟨n / 10, Nat.digitChar (n % 10), d1, ?_, ?_⟩
  · unfold oneDigit
    rw [← hn]; simp [fixed, lastDigits]
  · rw [d2]
    have : (n : ℚ) = 10 * ((n / 10 : ℕ) : ℚ) + ((n % 10 : ℕ) : ℚ) := by
      have := (Nat.div_add_mod n 10).symm
      exact_mod_cast this
    rw [← hc] at l1 l2
    rw [abs_le]
    constructor <;> linarith

theorem exact_one : DisplayOneOk (signed (f := f) oneDigit) where
  neg := fun x hx hs => signed_neg hx hs
  pos := by
    intro x hx hs
    rw [signed_pos hx hs]
    exact oneDigit_spec (val_nonneg hs)

/-- texts that are as the standard library promises: exact decimals -/
def exactText (f : Fmt) : NumText f := ⟨signed exactDigits, signed oneDigit⟩

theorem C96_texts_exist (f : Fmt) : TextOk (exactText f) := ⟨exact_plain, exact_one⟩

/-! ### concrete texts -/

/-- the line from (0, -0) to (-12, infinity) in `f32`, and the empty box -/
theorem C96_concrete : debugLine2 (exactText b32) ⟨⟨.zero false, .zero true⟩, ⟨ofQ false (-12), .inf false⟩⟩ =
    "(0.0,-0.0)-(-12.0,inf)" ∧ debugAabb2 (exactText b32) ⟨none⟩ = "Aabb2[None]" := by
  constructor <;> decide +kernel

end Verif.Props.Debug
