import Verif.Proofs.FloatLinePoint
import Verif.Proofs.FloatSimplify
import Verif.Props.Discretize
/-!
# `discretize` in floating point: error analysis
-/
set_option linter.unusedSectionVars false
set_option linter.unusedVariables false
namespace Verif.Proofs.FloatDiscretize
open Verif Verif.Model Verif.Spec Scalar Verif.Proofs.FloatHull Verif.Proofs.FloatIntersect Verif.Proofs.FloatLinePoint Fl Flt
section
variable {f : Fmt} [Libm f]

theorem ceil_bounds (q : ℚ) : q ≤ q.ceil ∧ (q.ceil : ℚ) < q + 1 := by
  refine ⟨Rat.ceil_le_iff.1 le_rfl, ?_⟩
  have := Rat.ceil_lt (x := q)
  exact this

/-- `ceil` of a positive float of moderate size is the integer, and `as usize` gives it -/
theorem ceil_usize {x : Flt f} {q : ℚ} (hx : Is x q) (h0 : 0 < q) (h1 : q ≤ 2 ^ f.prec) (h2 : q ≤ 2 ^ 63) :
    ∃ n : ℕ, 1 ≤ n ∧ Is (Scalar.ceil x) n ∧ Scalar.toUsize (Scalar.ceil x) = n ∧ q ≤ n ∧ (n : ℚ) < q + 1 := by
  obtain ⟨c1, c2⟩ := ceil_bounds q
  have hc0 : 1 ≤ q.ceil := by
    have : (0 : ℚ) < q.ceil := lt_of_lt_of_le h0 c1
    exact_mod_cast this
  obtain ⟨n, hn⟩ : ∃ n : ℕ, (n : ℤ) = q.ceil := ⟨q.ceil.toNat, Int.toNat_of_nonneg (by omega)⟩
  have hnq : (n : ℚ) = q.ceil := by rw [← hn]; rfl
  have hle : ∀ m : ℕ, q ≤ 2 ^ m → n ≤ 2 ^ m := by
    intro m hm
    have : q.ceil ≤ (2 ^ m : ℤ) := Rat.ceil_le_iff.2 (by push_cast; exact hm)
    rw [← hn] at this
    exact_mod_cast this
  have hr : Repr f (q.ceil : ℚ) := repr_int f _ (by
    rw [abs_of_nonneg (by omega), ← hn]
    exact_mod_cast hle _ h1)
  have hI : Is (Scalar.ceil x) (q.ceil : ℚ) := by
    obtain ⟨x1, x2⟩ := hx
    cases x with
    | nan => cases x1
    | inf s => cases x1
    | zero s => exact absurd (show (0 : ℚ) = q from x2) h0.ne
    | fin r hr' =>
      have e : r = q := x2
      have : Is (Flt.ofQ (decide (r < 0)) (r.ceil : ℚ) : Flt f) (q.ceil : ℚ) := by
        rw [e]
        exact is_ofQ_repr _ hr
      exact this
  refine ⟨n, by omega, hnq ▸ hI, ?_, hnq ▸ c1, hnq ▸ c2⟩
  have hpos : (q.ceil : ℚ) ≠ 0 := by
    have : q.ceil ≠ 0 := by omega
    exact_mod_cast this
  generalize Scalar.ceil x = c at hI
  show Flt.toUsize c = n
  obtain ⟨y1, y2⟩ := hI
  cases c with
  | nan => cases y1
  | inf s => cases y1
  | zero s => exact absurd (show (0 : ℚ) = q.ceil from y2).symm hpos
  | fin r hr' =>
    have e : r = q.ceil := y2
    have : Flt.toUsize (fin r hr' : Flt f) = min r.floor.toNat (2 ^ 64 - 1) := rfl
    rw [this, e, Rat.floor_intCast, ← hn, Int.toNat_natCast]
    have := hle 63 h2
    apply min_eq_left
    omega

/-- one coordinate of a point of `discretize`: `p + (D / n) * i` -/
theorem step_coord {s B : ℤ} (G : GoodGrid f s B) (hlow : f.emin + 2 * f.prec ≤ s) (hB : 1 ≤ B) {p D c : Flt f} {k m : ℤ}
    {n i : ℕ} (hp : Is p (k * pow2 s)) (hD : Is D (m * pow2 s)) (hc : Is c n) (hk : |k| ≤ B) (hm : |m| ≤ 2 * B) (hkm : |k + m| ≤ B)
    (hi : i < n) (hn : n ≤ 2 ^ (f.prec - 1)) :
    ∃ x, Is (Scalar.add p (Scalar.mul (Scalar.div D c) (Scalar.ofUsize i))) x ∧
      |x - (k + m * ((i : ℚ) / n)) * pow2 s| ≤ 6 * B * (pow2 (-f.prec) * pow2 s) ∧ (i = 0 → x = k * pow2 s) := by
  obtain ⟨g1, g2, g3, g4, g5⟩ := grid_facts G hB
  have hprec := f.hprec
  obtain ⟨ε, hε⟩ : ∃ ε, ε = pow2 (-f.prec) := ⟨_, rfl⟩
  obtain ⟨u, hu⟩ : ∃ u, u = pow2 s := ⟨_, rfl⟩
  obtain ⟨η, hη⟩ : ∃ u, u = pow2 (f.emin - 1) := ⟨_, rfl⟩
  have hεp : 0 < ε := hε ▸ pow2_pos _
  have hup : 0 < u := hu ▸ pow2_pos _
  have hηp : 0 < η := hη ▸ pow2_pos _
  have hBq : (1 : ℚ) ≤ B := by exact_mod_cast hB
  have hmq : |(m : ℚ)| ≤ 2 * B := by exact_mod_cast hm
  have hkq : |(k : ℚ)| ≤ B := by exact_mod_cast hk
  have hn0 : (0 : ℚ) < n := by exact_mod_cast (by omega : 0 < n)
  have hiq : (i : ℚ) ≤ n := by exact_mod_cast hi.le
  have hi0 : (0 : ℚ) ≤ i := by positivity
  have ht0 : 0 ≤ (i : ℚ) / n := by positivity
  have ht1 : (i : ℚ) / n ≤ 1 := (div_le_one hn0).2 hiq
  obtain ⟨W, hW⟩ : ∃ W, W = B * u := ⟨_, rfl⟩
  have huW : u ≤ W := by
    rw [hW]; have := mul_le_mul_of_nonneg_right hBq hup.le; linarith
  have rB : Repr f ((4 * B : ℤ) * u) := by
    rw [hu]
    apply repr_grid (GoodGrid.unit G)
    rw [abs_of_nonneg (by omega), pow_split]
    have := G.small
    have : B ≤ B * B := le_mul_of_one_le_left (by omega) hB
    omega
  have fin : ∀ q : ℚ, |q| ≤ 4 * W → |roundQ f q| < pow2 f.emax := by
    intro q hq
    have h1 := abs_roundQ_le rB (by push_cast; rw [hW] at hq; linarith)
    exact lt_of_le_of_lt (h1.trans (le_abs_self _)) rB.1
  -- the step
  obtain ⟨A, hA⟩ : ∃ A, A = |(m : ℚ) * u| := ⟨_, rfl⟩
  have hA0 : 0 ≤ A := hA ▸ abs_nonneg _
  have hAW : A ≤ 2 * W := by
    rw [hA, abs_mul, abs_of_pos hup, hW]
    have := mul_le_mul_of_nonneg_right hmq hup.le
    linarith
  obtain ⟨b, hb⟩ : ∃ b, b = (m : ℚ) * u / n := ⟨_, rfl⟩
  have hbA : |b| * n = A := by rw [hb, abs_div, abs_of_pos hn0, hA]; field_simp
  have hbW : |b| ≤ 2 * W := by
    have h1 : |b| * 1 ≤ |b| * n := mul_le_mul_of_nonneg_left (by exact_mod_cast (by omega : 1 ≤ n)) (abs_nonneg _)
    linarith
  have hst := is_div hD hc hn0.ne' (by rw [← hu, ← hb]; exact fin b (by linarith))
  rw [← hu, ← hb] at hst
  have hsterr : |roundQ f b - b| ≤ ε * |b| := by
    rcases eq_or_ne m 0 with h0 | h0
    · have : b = 0 := by rw [hb, h0]; simp
      rw [this, roundQ_zero]; simp
    · rw [hε]
      apply roundQ_rel_normal
      have h1 : (1 : ℚ) ≤ |(m : ℚ)| := by exact_mod_cast Int.one_le_abs h0
      have h2 : (n : ℚ) ≤ pow2 (f.prec - 1 : ℕ) := by rw [pow2_nat]; exact_mod_cast hn
      have h3 : |b| * pow2 (f.prec - 1 : ℕ) ≥ u := by
        have h4 := mul_le_mul_of_nonneg_left h2 (abs_nonneg b)
        have h5 : u ≤ A := by
          rw [hA, abs_mul, abs_of_pos hup]
          have := mul_le_mul_of_nonneg_right h1 hup.le
          linarith
        linarith
      have h4 : pow2 (f.emin + f.prec - 1) * pow2 (f.prec - 1 : ℕ) ≤ u := by
        rw [hu, ← pow2_add]; exact pow2_le (by omega)
      exact le_of_mul_le_mul_right (h4.trans h3) (pow2_pos _)
  obtain ⟨st, hste⟩ : ∃ st, st = roundQ f b := ⟨_, rfl⟩
  rw [← hste] at hst hsterr
  -- the product with the number of the step
  have hio : Is (Scalar.ofUsize i : Flt f) i := by
    have : |(i : ℤ)| ≤ 2 ^ f.prec := by
      rw [abs_of_nonneg (by positivity)]
      have h1 : i ≤ 2 ^ (f.prec - 1) := by omega
      have h2 : 2 ^ (f.prec - 1) ≤ 2 ^ f.prec := Nat.pow_le_pow_right (by norm_num) (by omega)
      exact_mod_cast h1.trans h2
    have h := is_ofQ_repr (f := f) false (repr_int f i this)
    exact h
  have hbi : |b| * i ≤ A := by
    have := mul_le_mul_of_nonneg_left hiq (abs_nonneg b)
    linarith
  have hPerr : |st * i - b * i| ≤ ε * A := by
    rw [← sub_mul, abs_mul, abs_of_nonneg hi0]
    have h1 := mul_le_mul_of_nonneg_right hsterr hi0
    have h2 := mul_le_mul_of_nonneg_left hbi hεp.le
    have e : ε * |b| * i = ε * (|b| * i) := by ring
    rw [e] at h1
    linarith
  rw [← hε] at g2 g3 g4 g5
  rw [← hu] at g3
  rw [← hη] at g3 g4
  have hεA : ε * A ≤ 1 / 64 * A := mul_le_mul_of_nonneg_right g5 hA0
  have hbiabs : |b * i| ≤ A := by rw [abs_mul, abs_of_nonneg hi0]; exact hbi
  have hPabs : |st * i| ≤ A + ε * A := by
    have := abs_sub_abs_le_abs_sub (st * i) (b * i)
    linarith
  have hmul := is_mul hst hio (fin _ (by linarith))
  have hR1 := roundQ_rel f (st * i)
  rw [← hε, ← hη] at hR1
  obtain ⟨Q, hQ⟩ : ∃ Q, Q = roundQ f (st * i) := ⟨_, rfl⟩
  rw [← hQ] at hmul hR1
  have hεW : ε * W ≤ 1 / 64 * W := mul_le_mul_of_nonneg_right g5 (by linarith)
  have hηW : η ≤ ε * W / 64 := by
    have := mul_le_mul_of_nonneg_left huW hεp.le
    linarith
  have hεAW : ε * A ≤ 2 * (ε * W) := by
    have := mul_le_mul_of_nonneg_left hAW hεp.le
    linarith
  have hQerr : |Q - b * i| ≤ 42 / 10 * (ε * W) := by
    have h1 : |Q - b * i| ≤ |Q - st * i| + |st * i - b * i| := abs_sub_le _ _ _
    have h2 := mul_le_mul_of_nonneg_left hPabs hεp.le
    have h3 : ε * (ε * A) ≤ 1 / 64 * (ε * A) := mul_le_mul_of_nonneg_right g5 (by positivity)
    have e : ε * (A + ε * A) = ε * A + ε * (ε * A) := by ring
    rw [e] at h2
    linarith
  -- the sum
  obtain ⟨X, hX⟩ : ∃ X, X = ((k : ℚ) + m * ((i : ℚ) / n)) * u := ⟨_, rfl⟩
  have hXb : X = k * u + b * i := by rw [hX, hb]; field_simp
  have hXabs : |X| ≤ W := by
    have hkm' : |(k : ℚ) + m| ≤ B := by exact_mod_cast hkm
    have h1 : |(k : ℚ) + m * ((i : ℚ) / n)| ≤ B := by
      have e : (k : ℚ) + m * ((i : ℚ) / n) = (1 - (i : ℚ) / n) * k + (i : ℚ) / n * (k + m) := by ring
      rw [e]
      refine (abs_add_le _ _).trans ?_
      rw [abs_mul, abs_mul, abs_of_nonneg (by linarith : 0 ≤ 1 - (i : ℚ) / n), abs_of_nonneg ht0]
      have a1 := mul_le_mul_of_nonneg_left hkq (by linarith : 0 ≤ 1 - (i : ℚ) / n)
      have a2 := mul_le_mul_of_nonneg_left hkm' ht0
      linarith
    rw [hX, abs_mul, abs_of_pos hup, hW]
    exact mul_le_mul_of_nonneg_right h1 hup.le
  have hSerr : |(k * u + Q) - X| ≤ 42 / 10 * (ε * W) := by
    have : (k * u + Q) - X = Q - b * i := by rw [hXb]; ring
    rw [this]; exact hQerr
  have hSabs : |k * u + Q| ≤ 11 / 10 * W := by
    have := abs_sub_abs_le_abs_sub (k * u + Q) X
    linarith
  rw [← hu] at hp
  have hadd := is_add hp hmul (fin _ (by linarith))
  refine ⟨_, hadd, ?_, ?_⟩
  · have hR2 := roundQ_rel f (k * u + Q)
    rw [← hε, ← hη] at hR2
    have h1 : |roundQ f (k * u + Q) - X| ≤ |roundQ f (k * u + Q) - (k * u + Q)| + |(k * u + Q) - X| := abs_sub_le _ _ _
    have h2 := mul_le_mul_of_nonneg_left hSabs hεp.le
    have e : 6 * B * (ε * u) = 6 * (ε * W) := by rw [hW]; ring
    rw [← hu, ← hε, ← hX, e]
    linarith
  · intro h0
    have : Q = 0 := by rw [hQ, h0]; simp [roundQ_zero]
    rw [this, add_zero, ← hu]
    have hr : Repr f ((k : ℚ) * u) := is_repr hp
    exact hr.fix

/-- the number of steps -/
theorem step_count {s B : ℤ} {d : ℚ} (G : StepGrid f s B d) (hB : 1 ≤ B) {z dist : Flt f} {N : ℤ} (hz : Is z (N * pow2 (s + s)))
    (hN : 1 ≤ N) (hN' : N ≤ 2 ^ f.prec) (hN4 : N ≤ 16 * (B * B)) (hd : Is dist d) :
    Scalar.lt Scalar.zero (Scalar.sqrt z) = true ∧
    ∃ n : ℕ, Is (Scalar.ceil (Scalar.div (Scalar.sqrt z) dist)) n ∧
      Scalar.toUsize (Scalar.ceil (Scalar.div (Scalar.sqrt z) dist)) = n ∧ n ≤ 2 ^ (f.prec - 1) ∧
      StepCountWithin (3 * (2 : ℝ) ^ (-(f.prec : ℤ))) (Real.sqrt ((N * pow2 (s + s) : ℚ) : ℝ)) (d : ℝ) n := by
  obtain ⟨g1, g2, g3, g4, g5⟩ := grid_facts G.toGoodGrid hB
  have hprec := f.hprec
  obtain ⟨v, hv, hverr, hvlow, -⟩ := sqrt_grid' G.toGoodGrid hB hz hN hN'
  obtain ⟨L, hL⟩ : ∃ L, L = Real.sqrt ((N * pow2 (s + s) : ℚ) : ℝ) := ⟨_, rfl⟩
  rw [← hL] at hverr hvlow
  have hdp := G.pos
  obtain ⟨e, he⟩ : ∃ e : ℝ, e = ((pow2 (-f.prec) : ℚ) : ℝ) := ⟨_, rfl⟩
  have hep : 0 < e := by rw [he]; exact_mod_cast pow2_pos _
  have he64 : e ≤ 1 / 64 := by
    have := (Rat.cast_le (K := ℝ)).2 g5
    push_cast at this; rw [he]; exact this
  have hup : (0 : ℝ) < ((pow2 s : ℚ) : ℝ) := by exact_mod_cast pow2_pos s
  have hLp : 0 < L := lt_of_lt_of_le hup hvlow
  have hdR : (0 : ℝ) < d := by exact_mod_cast hdp
  rw [← he] at hverr
  have heL : e * L ≤ 1 / 64 * L := mul_le_mul_of_nonneg_right he64 hLp.le
  have hva : (v : ℝ) ≤ L + 65 / 64 * e * L := by rw [abs_le] at hverr; linarith
  have hvb : L - 65 / 64 * e * L ≤ v := by rw [abs_le] at hverr; linarith
  have e65 : 65 / 64 * e * L = 65 / 64 * (e * L) := by ring
  rw [e65] at hva hvb
  have hvhalf : ((pow2 s : ℚ) : ℝ) / 2 ≤ v := by linarith
  have hvp : 0 < v := by
    have : (0 : ℝ) < v := by linarith
    exact_mod_cast this
  -- bounds for the quotient
  have hL4 : L ≤ 4 * B * ((pow2 s : ℚ) : ℝ) := by
    rw [hL]
    apply Real.sqrt_le_iff.2
    have hBR : (1 : ℝ) ≤ B := by exact_mod_cast hB
    refine ⟨by positivity, ?_⟩
    have h1 : (N : ℚ) * pow2 (s + s) ≤ (4 * B * pow2 s) * (4 * B * pow2 s) := by
      rw [pow2_add]
      have h2 : (N : ℚ) ≤ 16 * (B * B) := by exact_mod_cast hN4
      have := mul_le_mul_of_nonneg_right h2 (mul_pos (pow2_pos s) (pow2_pos s)).le
      linarith
    rw [sq]; exact_mod_cast h1
  have hfew : ∀ K : ℕ, min (f.prec - 2) 62 ≤ K → v / d ≤ 2 * 2 ^ K := by
    intro K hK
    have h1 := G.few
    rw [← pow2_eq] at h1
    have h2 : (2 : ℚ) ^ (min (f.prec - 2) 62) ≤ 2 ^ K := pow_le_pow_right₀ (by norm_num) hK
    have h3 : 4 * (B : ℚ) * pow2 s ≤ d * 2 ^ K := h1.trans (mul_le_mul_of_nonneg_left h2 hdp.le)
    have h4 : (4 : ℝ) * B * ((pow2 s : ℚ) : ℝ) ≤ d * 2 ^ K := by exact_mod_cast h3
    have h5 : (v : ℝ) ≤ 2 * (d * 2 ^ K) := by linarith
    have h6 : v ≤ 2 * (d * 2 ^ K) := by exact_mod_cast h5
    rw [div_le_iff₀ hdp]
    linarith
  have hq1 : v / d ≤ 2 ^ (f.prec - 1) := by
    have := hfew (f.prec - 2) (min_le_left _ _)
    rw [← pow_succ', show f.prec - 2 + 1 = f.prec - 1 by omega] at this
    exact this
  have hq2 : v / d ≤ 2 ^ 63 := by
    have := hfew 62 (min_le_right _ _)
    rw [← pow_succ'] at this
    exact this
  have hqlow : pow2 (f.emin + f.prec - 1) ≤ v / d := by
    rw [le_div_iff₀ hdp]
    have h1 := G.large
    rw [← pow2_eq] at h1
    have h2 : pow2 (f.emin + f.prec - 1) * d ≤ pow2 (f.emin + f.prec - 1) * pow2 (s - f.emin - f.prec) :=
      mul_le_mul_of_nonneg_left h1 (pow2_pos _).le
    rw [← pow2_add, show f.emin + f.prec - 1 + (s - f.emin - f.prec) = s + -1 by ring, pow2_add s (-1), pow2_eq (-1)] at h2
    have h3 : pow2 s / 2 ≤ v := by exact_mod_cast hvhalf
    have h4 : pow2 s * (2 : ℚ) ^ (-1 : ℤ) = pow2 s / 2 := by norm_num; ring
    rw [h4] at h2
    linarith
  have hqp : 0 < v / d := div_pos hvp hdp
  have r1 : Repr f ((2 : ℚ) ^ (f.prec - 1)) := by
    have := repr_int f (2 ^ (f.prec - 1)) (by
      rw [abs_of_nonneg (by positivity)]
      exact pow_le_pow_right₀ (by norm_num) (by omega))
    push_cast at this; exact this
  have hQle : ∀ K : ℕ, Repr f ((2 : ℚ) ^ K) → v / d ≤ 2 ^ K → roundQ f (v / d) ≤ 2 ^ K := by
    intro K hr hle
    have h1 := roundQ_mono f hle
    rwa [hr.fix] at h1
  have hQ1 := hQle _ r1 hq1
  have herr := roundQ_rel_normal f (q := v / d) (by rw [abs_of_pos hqp]; exact hqlow)
  rw [abs_of_pos hqp] at herr
  obtain ⟨Q, hQ⟩ : ∃ Q, Q = roundQ f (v / d) := ⟨_, rfl⟩
  rw [← hQ] at hQ1 herr
  have hQhalf : v / d / 2 ≤ Q := by
    have h1 : pow2 (-(f.prec : ℤ)) * (v / d) ≤ 1 / 64 * (v / d) := mul_le_mul_of_nonneg_right g5 hqp.le
    rw [abs_le] at herr
    linarith
  have hQp : 0 < Q := by linarith
  have hQ2 : Q ≤ 2 ^ 63 := by
    by_cases hp63 : f.prec - 1 ≤ 63
    · exact hQ1.trans (pow_le_pow_right₀ (by norm_num) hp63)
    · rw [hQ]
      refine hQle 63 ?_ hq2
      have := repr_int f (2 ^ 63) (by
        rw [abs_of_nonneg (by positivity)]
        exact pow_le_pow_right₀ (by norm_num) (by omega))
      push_cast at this; exact this
  have hQI : Is (Scalar.div (Scalar.sqrt z) dist) Q := by
    rw [hQ]
    refine is_div hv hd hdp.ne' ?_
    rw [← hQ, abs_of_pos hQp]
    exact lt_of_le_of_lt (hQ1.trans (le_abs_self _)) r1.1
  have hQ1' : Q ≤ 2 ^ f.prec := hQ1.trans (pow_le_pow_right₀ (by norm_num) (by omega))
  obtain ⟨n, n1, hnI, hnU, hn1, hn2⟩ := ceil_usize hQI hQp hQ1' hQ2
  refine ⟨?_, n, hnI, hnU, ?_, n1, ?_, ?_⟩
  · show Flt.lt _ _ = true
    rw [is_lt is_zeroQ hv]; exact decide_eq_true hvp
  · have h1 : (n : ℚ) < 2 ^ (f.prec - 1) + 1 := by linarith
    have h2 : n < 2 ^ (f.prec - 1) + 1 := by exact_mod_cast h1
    omega
  · -- lower
    have hel : (2 : ℝ) ^ (-(f.prec : ℤ)) = e := by rw [he, pow2_eq]; push_cast; rfl
    rw [← hL, hel]
    have h1 : (v : ℝ) / d - e * (v / d) ≤ n := by
      have h2 : v / d - pow2 (-(f.prec : ℤ)) * (v / d) ≤ n := by rw [abs_le] at herr; linarith
      have := (Rat.cast_le (K := ℝ)).2 h2
      push_cast at this
      rw [← he] at this
      exact this
    have h2 : (v : ℝ) - e * v ≤ n * d := by
      have h3 := mul_le_mul_of_nonneg_right h1 hdR.le
      have e3 : ((v : ℝ) / d - e * (v / d)) * d = v - e * v := by field_simp
      rw [e3] at h3; exact h3
    have h3 : e * v ≤ e * (L + 65 / 64 * (e * L)) := mul_le_mul_of_nonneg_left hva hep.le
    have h4 : e * (e * L) ≤ 1 / 64 * (e * L) := mul_le_mul_of_nonneg_right he64 (by positivity)
    have e5 : e * (L + 65 / 64 * (e * L)) = e * L + 65 / 64 * (e * (e * L)) := by ring
    have e6 : (1 - 3 * e) * L = L - 3 * (e * L) := by ring
    rw [e5] at h3
    rw [e6]
    have : 0 ≤ e * L := by positivity
    linarith
  · right
    have hel : (2 : ℝ) ^ (-(f.prec : ℤ)) = e := by rw [he, pow2_eq]; push_cast; rfl
    rw [← hL, hel]
    have h1 : (n : ℝ) - 1 < v / d + e * (v / d) := by
      have h2 : (n : ℚ) - 1 < v / d + pow2 (-(f.prec : ℤ)) * (v / d) := by rw [abs_le] at herr; linarith
      have := (Rat.cast_lt (K := ℝ)).2 h2
      push_cast at this
      rw [← he] at this
      exact this
    have h2 : ((n : ℝ) - 1) * d < v + e * v := by
      have h3 := mul_lt_mul_of_pos_right h1 hdR
      have e3 : ((v : ℝ) / d + e * (v / d)) * d = v + e * v := by field_simp
      rw [e3] at h3; exact h3
    have h3 : e * v ≤ e * (L + 65 / 64 * (e * L)) := mul_le_mul_of_nonneg_left hva hep.le
    have h4 : e * (e * L) ≤ 1 / 64 * (e * L) := mul_le_mul_of_nonneg_right he64 (by positivity)
    have e5 : e * (L + 65 / 64 * (e * L)) = e * L + 65 / 64 * (e * (e * L)) := by ring
    have e6 : (1 + 3 * e) * L = L + 3 * (e * L) := by ring
    rw [e5] at h3
    rw [e6]
    have : 0 ≤ e * L := by positivity
    linarith

end
end Verif.Proofs.FloatDiscretize
