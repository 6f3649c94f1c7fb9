import Verif.Proofs.FloatIntersect
/-!
# A point on a segment, in floating point
-/
namespace Verif.Proofs.FloatLinePoint
open Verif Verif.Model Verif.Spec Fl Flt Scalar Verif.Proofs.FloatHull Verif.Proofs.FloatIntersect
variable {f : Fmt} [Libm f]
set_option linter.unusedSectionVars false
set_option linter.unusedVariables false

/-- bit patterns grow at most as fast as the number of units of the smaller number -/
theorem ord_upper {a b : Flt f} {x y : ℚ} (ha : Is a x) (hb : Is b y) (hx : 0 < x) (hxy : x ≤ y) :
    (b.ord : ℚ) - a.ord ≤ (y - x) / pow2 (ulpExp f x) := by
  have hy := lt_of_lt_of_le hx hxy
  rw [ord_eq ha hx.ne', ord_eq hb hy.ne', abs_of_pos hx, abs_of_pos hy]
  have hle : ulpExp f x ≤ ulpExp f y := ulpExp_mono f hx hxy
  obtain ⟨d, hd⟩ : ∃ d : ℕ, ulpExp f y = ulpExp f x + d := ⟨(ulpExp f y - ulpExp f x).toNat, by omega⟩
  have hbig : d ≠ 0 → pow2 (ulpExp f y) * 2 ^ (f.prec - 1) ≤ y := by
    intro h0
    have h1 := ilog2_le hy
    refine le_trans ?_ h1
    have hp := f.hprec
    rw [← pow2_nat, ← pow2_add]
    apply pow2_le
    have h2 : f.emin ≤ ulpExp f x := le_max_right _ _
    have h3 : ulpExp f y = max (ilog2 |y| + 1 - f.prec) f.emin := rfl
    rw [abs_of_pos hy] at h3
    omega
  obtain ⟨u, hu⟩ : ∃ u, u = pow2 (ulpExp f x) := ⟨_, rfl⟩
  have hup : 0 < u := hu ▸ pow2_pos _
  rw [hd, pow2_add, pow2_nat, ← hu] at hbig
  rw [hd, pow2_add, pow2_nat, ← hu]
  obtain ⟨P, hP⟩ : ∃ P : ℚ, P = 2 ^ (f.prec - 1) := ⟨_, rfl⟩
  have hPp : 0 < P := hP ▸ by positivity
  rw [← hP] at hbig ⊢
  push_cast
  have e1 : (y - x) / u = y / u - x / u := by ring
  have key : (d : ℚ) * P + y / (u * 2 ^ d) ≤ y / u := by
    rcases Nat.eq_zero_or_pos d with h0 | h0
    · subst h0; simp
    · have h1 := hbig h0.ne'
      obtain ⟨Q, hQ⟩ : ∃ Q : ℚ, Q = 2 ^ d := ⟨_, rfl⟩
      have hQp : 0 < Q := hQ ▸ by positivity
      have hQd : (d : ℚ) + 1 ≤ Q := by
        have : d + 1 ≤ 2 ^ d := Nat.lt_two_pow_self
        rw [hQ]; exact_mod_cast this
      rw [← hQ] at h1 ⊢
      -- `y = u Q Y`, `P ≤ Y`
      obtain ⟨Y, hY⟩ : ∃ Y, Y = y / (u * Q) := ⟨_, rfl⟩
      have hYP : P ≤ Y := by rw [hY, le_div_iff₀ (by positivity)]; linarith
      have e2 : y / u = Q * Y := by rw [hY]; field_simp
      rw [e2, ← hY]
      nlinarith
  linarith

theorem sign_pos {a : Flt f} {x : ℚ} (h : Is a x) (hx : 0 < x) : a.sign = false := by
  obtain ⟨h1, rfl⟩ := h
  cases a with
  | nan => simp [isFin] at h1
  | inf s => simp [isFin] at h1
  | zero s => simp [Flt.val] at hx
  | fin q hh => simp only [Flt.val] at hx; simp [Flt.sign, hx.le]

/-- `ulps_eq` of two positive numbers -/
theorem ulps_pos {a b : Flt f} {x y : ℚ} (ha : Is a x) (hb : Is b y) (hx : 0 < x) (hy : 0 < y) :
    Flt.ulpsEq a b = true ↔ |roundQ f (x - y)| ≤ pow2 (1 - f.prec) ∨ |a.ord - b.ord| ≤ 4 := by
  have hlim : |roundQ f (x - y)| < pow2 f.emax := by
    rcases le_total x y with h | h
    · have := abs_roundQ_le (q := x - y) (is_repr hb) (by rw [abs_of_nonpos (by linarith)]; linarith)
      exact lt_of_le_of_lt (this.trans (le_abs_self _)) (is_repr hb).1
    · have := abs_roundQ_le (q := x - y) (is_repr ha) (by rw [abs_of_nonneg (by linarith)]; linarith)
      exact lt_of_le_of_lt (this.trans (le_abs_self _)) (is_repr ha).1
  have hs := is_abs (is_sub ha hb hlim)
  have hle := is_le hs (is_epsilon (f := f))
  have ha0 : a ≠ nan := by rintro rfl; simp [Is, isFin] at ha
  have hb0 : b ≠ nan := by rintro rfl; simp [Is, isFin] at hb
  unfold Flt.ulpsEq
  rw [hle, sign_pos ha hx, sign_pos hb hy]
  by_cases h : |roundQ f (x - y)| ≤ pow2 (1 - f.prec)
  · simp [h]
  · simp [h, ha0, hb0]

theorem ulp_ge (x : ℚ) (hx : 0 < x) : pow2 (-f.prec) * x ≤ pow2 (ulpExp f x) := by
  have h1 := lt_ilog2 hx
  have h2 : pow2 (ilog2 x + 1 - f.prec) ≤ pow2 (ulpExp f x) := by
    apply pow2_le
    have := le_max_left (ilog2 |x| + 1 - f.prec) f.emin
    rw [abs_of_pos hx] at this
    unfold ulpExp
    rw [abs_of_pos hx]; exact this
  refine le_trans ?_ h2
  rw [show ilog2 x + 1 - (f.prec : ℤ) = -f.prec + (ilog2 x + 1) by ring, pow2_add]
  exact mul_le_mul_of_nonneg_left h1.le (pow2_pos _).le

theorem ulp_le (x : ℚ) (hx : pow2 (f.emin + f.prec - 1) ≤ x) : pow2 (ulpExp f x) ≤ 2 * pow2 (-f.prec) * x := by
  have hx0 : 0 < x := lt_of_lt_of_le (pow2_pos _) hx
  have h1 := ilog2_le hx0
  have h2 : f.emin + f.prec - 1 ≤ ilog2 x := by
    have h3 := lt_of_le_of_lt hx (lt_ilog2 hx0)
    have := pow2_lt_iff.1 h3
    omega
  have e : ulpExp f x = 1 + (-f.prec + ilog2 x) := by
    unfold ulpExp
    rw [abs_of_pos hx0, max_eq_left (by omega)]; ring
  rw [e, pow2_add, pow2_add, pow2_eq 1]
  have := mul_le_mul_of_nonneg_left h1 (pow2_pos (-(f.prec : ℤ))).le
  norm_num
  linarith

/-- numbers that differ by four units of the smaller one are equal for `ulps_eq` -/
theorem ulps_true {a b : Flt f} {x y : ℚ} (ha : Is a x) (hb : Is b y) (hx : 0 < x) (hy : 0 < y)
    (h : |x - y| ≤ 4 * pow2 (-f.prec) * min x y) : Flt.ulpsEq a b = true := by
  rw [ulps_pos ha hb hx hy]
  right
  have main : ∀ {a b : Flt f} {x y : ℚ}, Is a x → Is b y → 0 < x → x ≤ y → y - x ≤ 4 * pow2 (-f.prec) * x →
      0 ≤ b.ord - a.ord ∧ b.ord - a.ord ≤ 4 := by
    intro a b x y ha hb hx hxy h
    have hu := pow2_pos (ulpExp f x)
    have h1 := ord_upper ha hb hx hxy
    have h2 : (y - x) / pow2 (ulpExp f x) ≤ 4 := by
      rw [div_le_iff₀ hu]
      have := ulp_ge (f := f) x hx
      linarith
    have h3 : (b.ord : ℚ) - a.ord ≤ 4 := h1.trans h2
    refine ⟨?_, by exact_mod_cast h3⟩
    rcases hxy.eq_or_lt with he | hlt
    · have e1 := ord_eq ha hx.ne'
      have e2 := ord_eq hb (he ▸ hx.ne')
      rw [← he] at e2
      have : (b.ord : ℚ) = a.ord := by rw [e1, e2]
      have : b.ord = a.ord := by exact_mod_cast this
      omega
    · have h4 := ord_diff ha hb (abs_pos.2 hx.ne') (by rwa [abs_of_pos hx, abs_of_pos (hx.trans hlt)])
      have h5 : (0 : ℚ) ≤ (b.ord : ℚ) - a.ord := by
        refine le_trans ?_ h4
        rw [abs_of_pos hx, abs_of_pos (hx.trans hlt)]
        exact div_nonneg (by linarith) (pow2_pos _).le
      exact_mod_cast h5
  rcases le_total x y with hxy | hxy
  · rw [min_eq_left hxy, abs_of_nonpos (by linarith)] at h
    obtain ⟨h1, h2⟩ := main ha hb hx hxy (by linarith)
    rw [abs_le]; constructor <;> omega
  · rw [min_eq_right hxy, abs_of_nonneg (by linarith)] at h
    obtain ⟨h1, h2⟩ := main hb ha hy hxy (by linarith)
    rw [abs_le]; constructor <;> omega

/-- numbers that are equal for `ulps_eq` differ by little -/
theorem ulps_near {a b : Flt f} {x y : ℚ} (ha : Is a x) (hb : Is b y) (hx : 0 < x) (hxy : x ≤ y)
    (hbig : pow2 (f.emin + f.prec - 1) ≤ y) (h6 : pow2 (-f.prec) ≤ 1 / 64) (h : Flt.ulpsEq a b = true) :
    y - x ≤ 2.1 * pow2 (-f.prec) ∨ y - x ≤ 8 * pow2 (-f.prec) * y := by
  rw [ulps_pos ha hb hx (lt_of_lt_of_le hx hxy)] at h
  have hε := pow2_pos (-(f.prec : ℤ))
  rcases h with h | h
  · left
    have h1 := roundQ_rel f (x - y)
    have e : pow2 (1 - f.prec) = 2 * pow2 (-f.prec) := by
      rw [show (1 : ℤ) - f.prec = 1 + -f.prec by ring, pow2_add, pow2_eq 1]; norm_num
    rw [e] at h
    have h2 : pow2 (f.emin - 1) ≤ pow2 (-f.prec) / 64 := by
      have e64 : pow2 (-f.prec) / 64 = pow2 (-f.prec - 6) := by
        rw [show -(f.prec : ℤ) - 6 = -f.prec + -6 by ring, pow2_add, pow2_eq (-6)]; norm_num; ring
      rw [e64]
      apply pow2_le
      have := f.hemin; have := f.hprec
      by_contra hc
      have h7 : (f.prec : ℤ) ≤ 5 := by omega
      have : pow2 (-6) < pow2 (-f.prec) := pow2_lt (by omega)
      rw [pow2_eq (-6)] at this
      norm_num at this
      linarith
    rw [abs_le] at h h1
    rw [abs_of_nonpos (show x - y ≤ 0 by linarith)] at h1
    have h3 : pow2 (-f.prec) * -(x - y) ≤ 1 / 64 * -(x - y) := mul_le_mul_of_nonneg_right h6 (by linarith)
    linarith
  · right
    rcases hxy.eq_or_lt with he | hlt
    · rw [he]; simp; have := hx.trans_le hxy; positivity
    have hy := hx.trans hlt
    have h4 := ord_diff ha hb (abs_pos.2 hx.ne') (by rwa [abs_of_pos hx, abs_of_pos hy])
    rw [abs_of_pos hx, abs_of_pos hy] at h4
    have h5 : (b.ord : ℚ) - a.ord ≤ 4 := by
      rw [abs_le] at h
      have : b.ord - a.ord ≤ 4 := by omega
      exact_mod_cast this
    have h6 := (div_le_iff₀ (pow2_pos _)).1 (h4.trans h5)
    have := ulp_le (f := f) y hbig
    linarith

/-- the square root of a positive number -/
theorem is_sqrt {a : Flt f} {q : ℚ} (ha : Is a q) (hq : 0 < q) (h : |roundQ f (sqrtQ f q)| < pow2 f.emax) :
    Is (Scalar.sqrt a) (roundQ f (sqrtQ f q)) := by
  obtain ⟨h1, rfl⟩ := ha
  cases a with
  | nan => simp [isFin] at h1
  | inf s => simp [isFin] at h1
  | zero s => simp [Flt.val] at hq
  | fin q hh =>
    simp only [Flt.val] at hq h ⊢
    have e : Flt.sqrt (fin q hh) = if q < 0 then nan else ofQ false (sqrtQ f q) := rfl
    rw [if_neg (not_lt.2 hq.le)] at e
    show Is (Flt.sqrt (fin q hh)) _
    rw [e]
    exact is_ofQ false h

/-- the computed length of a vector with integer coordinates -/
theorem sqrt_grid' {s B : ℤ} (G : GoodGrid f s B) (hB : 1 ≤ B) {z : Flt f} {N : ℤ} (hz : Is z (N * pow2 (s + s)))
    (hN : 1 ≤ N) (hN' : N ≤ 2 ^ f.prec) :
    ∃ v : ℚ, Is (Scalar.sqrt z) v ∧
      |(v : ℝ) - Real.sqrt ((N * pow2 (s + s) : ℚ) : ℝ)| ≤
        65 / 64 * ((pow2 (-f.prec) : ℚ) : ℝ) * Real.sqrt ((N * pow2 (s + s) : ℚ) : ℝ) ∧
      ((pow2 s : ℚ) : ℝ) ≤ Real.sqrt ((N * pow2 (s + s) : ℚ) : ℝ) ∧
      Real.sqrt ((N * pow2 (s + s) : ℚ) : ℝ) ≤ 2 ^ (f.prec - 3) * ((pow2 s : ℚ) : ℝ) := by
  obtain ⟨g1, g2, g3, g4, g5⟩ := grid_facts G hB
  have hu := pow2_pos s
  have hNq : (1 : ℚ) ≤ N := by exact_mod_cast hN
  have hq : 0 < (N : ℚ) * pow2 (s + s) := mul_pos (by linarith) (pow2_pos _)
  obtain ⟨q, hqd⟩ : ∃ q, q = (N : ℚ) * pow2 (s + s) := ⟨_, rfl⟩
  have hlow : ((pow2 s : ℚ) : ℝ) ≤ Real.sqrt (q : ℝ) := by
    apply Real.le_sqrt_of_sq_le
    have : pow2 s * pow2 s ≤ q := by
      rw [hqd, pow2_add]
      have := mul_pos hu hu
      nlinarith
    rw [sq]; exact_mod_cast this
  have hup : Real.sqrt (q : ℝ) ≤ 2 ^ (f.prec - 3) * ((pow2 s : ℚ) : ℝ) := by
    apply Real.sqrt_le_iff.2
    refine ⟨by positivity, ?_⟩
    have h3 : (N : ℚ) ≤ 2 ^ (f.prec - 3) * 2 ^ (f.prec - 3) := by
      have h1 : (N : ℚ) ≤ 2 ^ f.prec := by exact_mod_cast hN'
      have h6 : 6 ≤ f.prec := by
        by_contra hcon
        have : pow2 (-5) ≤ pow2 (-(f.prec : ℤ)) := pow2_le (by omega)
        rw [pow2_eq (-5)] at this
        norm_num at this
        linarith
      have h2 : (2 : ℚ) ^ f.prec ≤ 2 ^ (f.prec - 3 + (f.prec - 3)) := pow_le_pow_right₀ (by norm_num) (by omega)
      rw [pow_add] at h2
      linarith
    have : q ≤ (2 ^ (f.prec - 3) * pow2 s) * (2 ^ (f.prec - 3) * pow2 s) := by
      rw [hqd, pow2_add]
      have := mul_le_mul_of_nonneg_right h3 (mul_pos hu hu).le
      linarith
    rw [sq]; exact_mod_cast this
  have herr := sqrt_err f (q := q) (hqd ▸ hq)
  have hη : ((pow2 (f.emin - 1) : ℚ) : ℝ) ≤ ((pow2 (-f.prec) : ℚ) : ℝ) * Real.sqrt q / 64 := by
    have h1 : ((pow2 (f.emin - 1) : ℚ) : ℝ) ≤ ((pow2 (-f.prec) : ℚ) : ℝ) * ((pow2 s : ℚ) : ℝ) / 64 := by exact_mod_cast g3
    have h2 : (0 : ℝ) < ((pow2 (-f.prec) : ℚ) : ℝ) := by exact_mod_cast pow2_pos _
    have := mul_le_mul_of_nonneg_left hlow h2.le
    linarith
  have herr' : |((roundQ f (sqrtQ f q) : ℚ) : ℝ) - Real.sqrt q| ≤ 65 / 64 * ((pow2 (-f.prec) : ℚ) : ℝ) * Real.sqrt q := by
    refine herr.trans ?_
    linarith
  have hfin : |roundQ f (sqrtQ f q)| < pow2 f.emax := by
    have h5 : ((pow2 (-f.prec) : ℚ) : ℝ) ≤ 1 / 64 := by
      have := (Rat.cast_le (K := ℝ)).2 g5
      push_cast at this; exact this
    have h0 : (0 : ℝ) < ((pow2 (-f.prec) : ℚ) : ℝ) := by exact_mod_cast pow2_pos _
    have hs0 := Real.sqrt_nonneg (q : ℝ)
    have h1 : |((roundQ f (sqrtQ f q) : ℚ) : ℝ)| ≤ 2 * (2 ^ (f.prec - 3) * ((pow2 s : ℚ) : ℝ)) := by
      have h2 : 65 / 64 * ((pow2 (-f.prec) : ℚ) : ℝ) * Real.sqrt q ≤ 65 / 64 * (1 / 64) * Real.sqrt q :=
        mul_le_mul_of_nonneg_right (by linarith) hs0
      rw [abs_le] at herr' ⊢
      constructor <;> linarith
    have h2 : |roundQ f (sqrtQ f q)| ≤ 2 * (2 ^ (f.prec - 3) * pow2 s) := by exact_mod_cast h1
    refine lt_of_le_of_lt h2 ?_
    have hp := f.hprec
    have e : 2 * (2 ^ (f.prec - 3) * pow2 s) = pow2 (1 + ((f.prec - 3 : ℕ) + s)) := by
      rw [pow2_add, pow2_add, pow2_nat, pow2_eq 1]; norm_num
    rw [e]
    apply pow2_lt
    have := G.fits; have := G.coarse; have := f.hemax
    omega
  refine ⟨_, is_sqrt hz hq (hqd ▸ hfin), ?_, ?_, ?_⟩
  · rw [← hqd]; exact herr'
  · rw [← hqd]; exact hlow
  · rw [← hqd]; exact hup

theorem sqrt_grid {s B : ℤ} (G : GoodGrid f s B) (hB : 1 ≤ B) {z : Flt f} {N : ℤ} (hz : Is z (N * pow2 (s + s)))
    (hN : 1 ≤ N) (hN' : N < 2 ^ (f.prec - 3)) :
    ∃ v : ℚ, Is (Scalar.sqrt z) v ∧
      |(v : ℝ) - Real.sqrt ((N * pow2 (s + s) : ℚ) : ℝ)| ≤
        65 / 64 * ((pow2 (-f.prec) : ℚ) : ℝ) * Real.sqrt ((N * pow2 (s + s) : ℚ) : ℝ) ∧
      ((pow2 s : ℚ) : ℝ) ≤ Real.sqrt ((N * pow2 (s + s) : ℚ) : ℝ) ∧
      Real.sqrt ((N * pow2 (s + s) : ℚ) : ℝ) ≤ 2 ^ (f.prec - 3) * ((pow2 s : ℚ) : ℝ) :=
  sqrt_grid' G hB hz hN (hN'.le.trans (by
    have h := pow_split f
    have : (0 : ℤ) < 2 ^ (f.prec - 3) := by positivity
    omega))

/-- the comparison of the three computed lengths -/
theorem lengths {s B : ℤ} (G : GoodGrid f s B) (hB : 1 ≤ B) {z1 z2 z3 : Flt f} {N1 N2 N3 : ℤ}
    (h1 : Is z1 (N1 * pow2 (s + s))) (h2 : Is z2 (N2 * pow2 (s + s))) (h3 : Is z3 (N3 * pow2 (s + s)))
    (n1 : 1 ≤ N1) (n2 : 1 ≤ N2) (n3 : 1 ≤ N3) (m1 : N1 < 2 ^ (f.prec - 3)) (m2 : N2 < 2 ^ (f.prec - 3))
    (m3 : N3 < 2 ^ (f.prec - 3)) {a x y : ℝ} (ea : a = Real.sqrt ((N1 * pow2 (s + s) : ℚ) : ℝ))
    (ex : x = Real.sqrt ((N2 * pow2 (s + s) : ℚ) : ℝ)) (ey : y = Real.sqrt ((N3 * pow2 (s + s) : ℚ) : ℝ)) (htri : a ≤ x + y) :
    (x + y = a → Scalar.ulpsEq (Scalar.sqrt z1) (Scalar.add (Scalar.sqrt z2) (Scalar.sqrt z3)) = true) ∧
    (Scalar.ulpsEq (Scalar.sqrt z1) (Scalar.add (Scalar.sqrt z2) (Scalar.sqrt z3)) = true →
      x + y ≤ a + ((pow2 (-f.prec) : ℚ) : ℝ) * (16 * a + 4)) := by
  obtain ⟨g1, g2, g3, g4, g5⟩ := grid_facts G hB
  obtain ⟨v1, i1, r1, l1, u1⟩ := sqrt_grid G hB h1 n1 m1
  obtain ⟨v2, i2, r2, l2, u2⟩ := sqrt_grid G hB h2 n2 m2
  obtain ⟨v3, i3, r3, l3, u3⟩ := sqrt_grid G hB h3 n3 m3
  rw [← ea] at r1 l1 u1
  rw [← ex] at r2 l2 u2
  rw [← ey] at r3 l3 u3
  obtain ⟨ε, hεd⟩ : ∃ ε : ℝ, ε = ((pow2 (-f.prec) : ℚ) : ℝ) := ⟨_, rfl⟩
  obtain ⟨u, hud⟩ : ∃ u : ℝ, u = ((pow2 s : ℚ) : ℝ) := ⟨_, rfl⟩
  have hε : 0 < ε := by rw [hεd]; exact_mod_cast pow2_pos _
  have hu : 0 < u := by rw [hud]; exact_mod_cast pow2_pos _
  have hε6 : ε ≤ 1 / 64 := by
    have := (Rat.cast_le (K := ℝ)).2 g5
    rw [hεd]; push_cast at this; exact this
  rw [← hεd] at r1 r2 r3 ⊢
  rw [← hud] at l1 l2 l3 u1 u2 u3
  have ha : 0 < a := by linarith
  have hx : 0 < x := by linarith
  have hy : 0 < y := by linarith
  obtain ⟨κ, hκ⟩ : ∃ κ, κ = 65 / 64 * ε := ⟨_, rfl⟩
  rw [← hκ] at r1 r2 r3
  have hκ0 : 0 < κ := by rw [hκ]; linarith
  have hκ6 : κ ≤ 1 / 60 := by rw [hκ]; linarith
  rw [abs_le] at r1 r2 r3
  have ka : κ * a ≤ 1 / 60 * a := mul_le_mul_of_nonneg_right hκ6 ha.le
  have kx : κ * x ≤ 1 / 60 * x := mul_le_mul_of_nonneg_right hκ6 hx.le
  have ky : κ * y ≤ 1 / 60 * y := mul_le_mul_of_nonneg_right hκ6 hy.le
  -- the sum
  have hv2 : (0 : ℝ) < v2 := by linarith
  have hv3 : (0 : ℝ) < v3 := by linarith
  have hv1 : (0 : ℝ) < v1 := by linarith
  have hrel := roundQ_rel f (v2 + v3)
  have hpos : 0 < v2 + v3 := by exact_mod_cast add_pos hv2 hv3
  rw [abs_of_pos hpos] at hrel
  obtain ⟨w, hw⟩ : ∃ w, w = roundQ f (v2 + v3) := ⟨_, rfl⟩
  rw [← hw] at hrel
  have hrelR : |(w : ℝ) - (v2 + v3)| ≤ κ * (v2 + v3) := by
    have h' : |(w : ℝ) - (v2 + v3)| ≤ ε * (v2 + v3) + ((pow2 (f.emin - 1) : ℚ) : ℝ) := by
      rw [hεd]; exact_mod_cast hrel
    have h'' : ((pow2 (f.emin - 1) : ℚ) : ℝ) ≤ ε * u / 64 := by
      rw [hεd, hud]; exact_mod_cast g3
    have h3' : ε * u ≤ ε * (v2 + v3) := by
      apply mul_le_mul_of_nonneg_left _ hε.le
      linarith
    have e1 : κ * ((v2 : ℝ) + v3) = ε * (v2 + v3) + ε * (v2 + v3) / 64 := by rw [hκ]; ring
    rw [e1]; linarith
  have hfin : |roundQ f (v2 + v3)| < pow2 f.emax := by
    have hp := f.hprec
    have rr : Repr f ((2 ^ (f.prec - 1) : ℤ) * pow2 s) := by
      apply repr_grid (GoodGrid.unit G)
      rw [abs_of_pos (by positivity)]
      exact pow_le_pow_right₀ (by norm_num) (by omega)
    refine lt_of_le_of_lt ((abs_roundQ_le rr ?_).trans (le_abs_self _)) rr.1
    rw [abs_of_pos hpos]
    have e4 : (2 : ℝ) ^ (f.prec - 1) = 4 * 2 ^ (f.prec - 3) := by
      rw [show f.prec - 1 = 2 + (f.prec - 3) by omega, pow_add]; norm_num
    have : (v2 : ℝ) + v3 ≤ 2 ^ (f.prec - 1) * u := by
      rw [e4]
      obtain ⟨PU, hPU⟩ : ∃ PU, PU = (2 : ℝ) ^ (f.prec - 3) * u := ⟨_, rfl⟩
      rw [← hPU] at u2 u3
      rw [show 4 * (2 : ℝ) ^ (f.prec - 3) * u = 4 * PU by rw [hPU]; ring]
      linarith
    rw [hud] at this
    push_cast
    exact_mod_cast this
  have iw := is_add i2 i3 hfin
  rw [← hw] at iw
  rw [abs_le] at hrelR
  have hvs : κ * ((v2 : ℝ) + v3) ≤ 1 / 60 * (v2 + v3) := mul_le_mul_of_nonneg_right hκ6 (add_pos hv2 hv3).le
  have hw0 : (0 : ℝ) < w := by linarith
  have hv1q : 0 < v1 := by exact_mod_cast hv1
  have hwq : 0 < w := by exact_mod_cast hw0
  constructor
  · intro he
    show Flt.ulpsEq _ _ = true
    apply ulps_true i1 iw hv1q hwq
    have hkk : κ * (κ * a) ≤ 1 / 60 * (κ * a) := mul_le_mul_of_nonneg_right hκ6 (mul_pos hκ0 ha).le
    have hs1 : κ * ((v2 : ℝ) + v3) ≤ κ * (a + κ * a) := by
      apply mul_le_mul_of_nonneg_left _ hκ0.le
      have : κ * x + κ * y = κ * a := by rw [← he]; ring
      linarith
    have hkxy : κ * x + κ * y = κ * a := by rw [← he]; ring
    have hd : |(v1 : ℝ) - w| ≤ (3 + 1 / 60) * (κ * a) := by
      rw [abs_le]
      constructor <;> linarith
    have hmin : (1 - 2 / 60 - 1 / 60) * a ≤ min (v1 : ℝ) w := by
      apply le_min
      · linarith
      · linarith
    have goalR : |(v1 : ℝ) - w| ≤ 4 * ε * min (v1 : ℝ) w := by
      refine hd.trans ?_
      have := mul_le_mul_of_nonneg_left hmin (show (0 : ℝ) ≤ 4 * ε by linarith)
      refine le_trans ?_ this
      rw [hκ]
      have := mul_pos hε ha
      linarith
    rw [hεd] at goalR
    exact_mod_cast goalR
  · intro h
    have h : Flt.ulpsEq _ _ = true := h
    -- the exact sum is not much above the computed one
    have hkey : x + y ≤ w + 2 * κ * (x + y) := by
      have hk2 : κ * ((v2 : ℝ) + v3) ≤ κ * (x + y) ∨ (x + y : ℝ) < v2 + v3 := by
        rcases le_or_gt ((v2 : ℝ) + v3) (x + y) with hc | hc
        · left; exact mul_le_mul_of_nonneg_left hc hκ0.le
        · right; exact hc
      rcases hk2 with hk2 | hk2
      · have e : κ * x + κ * y = κ * (x + y) := by ring
        linarith
      · have h4 : (1 - κ) * (x + y) ≤ (1 - κ) * (v2 + v3) := mul_le_mul_of_nonneg_left hk2.le (by linarith)
        have : 0 < κ * (x + y) := by positivity
        linarith
    obtain ⟨S, hS⟩ : ∃ S, S = x + y := ⟨_, rfl⟩
    rw [← hS] at hkey htri ⊢
    have hS0 : 0 < S := by linarith
    have hka : v1 ≤ a + κ * a := by linarith
    -- computed sum against computed length
    have hcmp : (w : ℝ) ≤ v1 ∨ (w : ℝ) - v1 ≤ 2.1 * ε ∨ (w : ℝ) - v1 ≤ 8 * ε * w := by
      rcases le_total w v1 with hc | hc
      · left; exact_mod_cast hc
      · right
        have hbig : pow2 (f.emin + f.prec - 1) ≤ w := by
          have hsu : (1 / 2 : ℝ) * u ≤ w := by linarith
          have e2 : ((pow2 (s - 1) : ℚ) : ℝ) = 1 / 2 * u := by
            rw [show s - 1 = s + -1 by ring, pow2_add, pow2_eq (-1), hud]; push_cast; norm_num; ring
          have h7 : pow2 (s - 1) ≤ w := by
            rw [← e2] at hsu; exact_mod_cast hsu
          refine le_trans (pow2_le ?_) h7
          have := G.coarse; have := f.hemin; have := f.hprec; omega
        rcases ulps_near i1 iw hv1q hc hbig g5 h with h' | h'
        · left
          have := (Rat.cast_le (K := ℝ)).2 h'
          rw [hεd]; push_cast at this; linarith
        · right; rw [hεd]; exact_mod_cast h'
    -- conclude
    have hSε : ε * S ≤ 1 / 64 * S := mul_le_mul_of_nonneg_right hε6 hS0.le
    have hεa : 0 < ε * a := mul_pos hε ha
    have hκS : κ * S = 65 / 64 * (ε * S) := by rw [hκ]; ring
    have hκa : κ * a = 65 / 64 * (ε * a) := by rw [hκ]; ring
    -- a first bound: `S ≤ 1.25 a + 4 ε`
    have hfirst : ∀ c : ℝ, S ≤ a + c → ε * S ≤ ε * a + ε * c := by
      intro c hc
      have := mul_le_mul_of_nonneg_left hc hε.le
      linarith
    have hεε : ε * ε ≤ 1 / 64 * ε := mul_le_mul_of_nonneg_right hε6 hε.le
    have hεεa : ε * (ε * a) ≤ 1 / 64 * (ε * a) := mul_le_mul_of_nonneg_right hε6 hεa.le
    have hwS : (w : ℝ) ≤ S * (1 + 3 * κ) := by
      have hv : (v2 : ℝ) + v3 ≤ S + κ * S := by rw [hS]; linarith
      have hk3 : κ * ((v2 : ℝ) + v3) ≤ κ * (S + κ * S) := mul_le_mul_of_nonneg_left hv hκ0.le
      have hk4 : κ * (κ * S) ≤ 1 / 60 * (κ * S) := mul_le_mul_of_nonneg_right hκ6 (mul_pos hκ0 hS0).le
      have := mul_pos hκ0 hS0
      linarith
    have hεw : ε * w ≤ 1.06 * (ε * S) := by
      have h8 := mul_le_mul_of_nonneg_left hwS hε.le
      have h9 : κ * (ε * S) ≤ 1 / 60 * (ε * S) := mul_le_mul_of_nonneg_right hκ6 (mul_pos hε hS0).le
      linarith
    rcases hcmp with hc | hc | hc
    · -- S ≤ a + κ a + 2 κ S
      have h8 : S ≤ a + (0.0625 * a) := by linarith
      have h9 := hfirst _ h8
      linarith
    · have h8 : S ≤ a + (0.0625 * a + 2.3 * ε) := by linarith
      have h9 := hfirst _ h8
      linarith
    · have h8 : S ≤ a + (0.25 * a) := by linarith
      have h9 := hfirst _ h8
      linarith

end Verif.Proofs.FloatLinePoint
