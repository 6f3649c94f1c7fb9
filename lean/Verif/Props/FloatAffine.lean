import Verif.Spec.Affine
import Verif.Proofs.FloatIntersect
import Verif.Props.Aabb
import Verif.Props.FloatBox
import Verif.Props.FloatContain
/-!
# C87: `SimpleAffine` in floating point
-/
set_option linter.unusedSectionVars false
set_option linter.unusedVariables false
namespace Verif.Props
open Verif Verif.Spec Verif.Model Fl Flt Verif.Proofs.FloatHull Verif.Proofs.FloatIntersect
variable {f : Fmt} [Libm f]

namespace AffineFlt

/-! ### Numbers -/

/-- four roundings in a row -/
theorem chain {u η X b κ κ' x1 x2 x3 : ℚ} (hu0 : 0 ≤ u) (hu : u ≤ 1 / 64) (hη : 0 ≤ η)
    (h1 : |x1 - X| ≤ u * |X|) (hκ : |κ' - κ| ≤ 64 / 63 * u * |κ|) (h2 : |x2 - x1 * κ'| ≤ u * |x1 * κ'| + η)
    (h3 : |x3 - (x2 + b)| ≤ u * |x2 + b|) :
    |x3 - (X * κ + b)| ≤ u * (|X * κ + b| + 4 * |X * κ|) + 2 * η := by
  have e0 : |X * κ| = |X| * |κ| := abs_mul _ _
  have hX := abs_nonneg X
  have hk := abs_nonneg κ
  have ht := abs_nonneg (X * κ)
  -- the product
  have p1 : |x1 * κ' - X * κ| ≤ (u + 64 / 63 * u + u * (64 / 63 * u)) * |X * κ| := by
    have e : x1 * κ' - X * κ = (x1 - X) * κ + X * (κ' - κ) + (x1 - X) * (κ' - κ) := by ring
    rw [e]
    have a1 : |(x1 - X) * κ| ≤ u * |X * κ| := by
      rw [abs_mul, e0, ← mul_assoc]; exact mul_le_mul_of_nonneg_right h1 hk
    have a2 : |X * (κ' - κ)| ≤ 64 / 63 * u * |X * κ| := by
      rw [abs_mul, e0]
      calc |X| * |κ' - κ| ≤ |X| * (64 / 63 * u * |κ|) := mul_le_mul_of_nonneg_left hκ hX
        _ = _ := by ring
    have a3 : |(x1 - X) * (κ' - κ)| ≤ u * (64 / 63 * u) * |X * κ| := by
      rw [abs_mul, e0]
      calc |x1 - X| * |κ' - κ| ≤ (u * |X|) * (64 / 63 * u * |κ|) :=
            mul_le_mul h1 hκ (abs_nonneg _) (mul_nonneg hu0 hX)
        _ = _ := by ring
    calc _ ≤ |(x1 - X) * κ| + |X * (κ' - κ)| + |(x1 - X) * (κ' - κ)| := abs_add_three _ _ _
      _ ≤ _ := by linarith
  have huu : u * u ≤ 1 / 64 * u := mul_le_mul_of_nonneg_right hu hu0
  obtain ⟨T, hT⟩ : ∃ T, T = |X * κ| := ⟨_, rfl⟩
  rw [← hT] at p1 ht ⊢
  have huT : 0 ≤ u * T := mul_nonneg hu0 ht
  have huuT : u * (u * T) ≤ 1 / 64 * (u * T) := mul_le_mul_of_nonneg_right hu huT
  have p2 : |x1 * κ' - X * κ| ≤ 21 / 10 * (u * T) := by
    have : (u + 64 / 63 * u + u * (64 / 63 * u)) * T = u * T + 64 / 63 * (u * T) + 64 / 63 * (u * (u * T)) := by ring
    rw [this] at p1
    linarith
  have p3 : |x1 * κ'| ≤ T + 21 / 10 * (u * T) := by
    have := abs_sub_abs_le_abs_sub (x1 * κ') (X * κ)
    rw [← hT] at this
    linarith
  have p4 : u * |x1 * κ'| ≤ u * T + 21 / 10 * (u * (u * T)) := by
    have := mul_le_mul_of_nonneg_left p3 hu0
    linarith
  have p5 : |x2 - X * κ| ≤ 32 / 10 * (u * T) + η := by
    have e : x2 - X * κ = (x2 - x1 * κ') + (x1 * κ' - X * κ) := by ring
    rw [e]
    have := abs_add_le (x2 - x1 * κ') (x1 * κ' - X * κ)
    linarith
  have p6 : |x2 + b| ≤ |X * κ + b| + (32 / 10 * (u * T) + η) := by
    have e : x2 + b = (X * κ + b) + (x2 - X * κ) := by ring
    rw [e]
    have := abs_add_le (X * κ + b) (x2 - X * κ)
    linarith
  have p7 := mul_le_mul_of_nonneg_left p6 hu0
  have e : x3 - (X * κ + b) = (x3 - (x2 + b)) + (x2 - X * κ) := by ring
  rw [e]
  have p8 := abs_add_le (x3 - (x2 + b)) (x2 - X * κ)
  have p9 : u * η ≤ 1 / 64 * η := mul_le_mul_of_nonneg_right hu hη
  have e2 : u * (|X * κ + b| + (32 / 10 * (u * T) + η)) = u * |X * κ + b| + 32 / 10 * (u * (u * T)) + u * η := by ring
  have e3 : u * (|X * κ + b| + 4 * T) + 2 * η = u * |X * κ + b| + 4 * (u * T) + 2 * η := by ring
  rw [e2] at p7
  rw [e3]
  linarith

/-- the reciprocal of a rounded number -/
theorem recip_rel {u k k' : ℚ} (hu0 : 0 ≤ u) (hu : u ≤ 1 / 64) (hk : 0 < k) (h : |k' - k| ≤ u * k) :
    0 < k' ∧ |1 / k' - 1 / k| ≤ 64 / 63 * u * |1 / k| := by
  have h' := abs_le.1 h
  have h1 : u * k ≤ 1 / 64 * k := mul_le_mul_of_nonneg_right hu hk.le
  have hk' : 0 < k' := by linarith
  refine ⟨hk', ?_⟩
  have e : 1 / k' - 1 / k = -(k' - k) / (k' * k) := by field_simp; ring
  rw [e, abs_div, abs_neg, abs_of_pos (mul_pos hk' hk), abs_of_pos (by positivity : (0 : ℚ) < 1 / k), div_le_iff₀ (mul_pos hk' hk)]
  have e2 : 64 / 63 * u * (1 / k) * (k' * k) = 64 / 63 * u * k' := by field_simp
  rw [e2]
  have h2 : u * (63 / 64 * k) ≤ u * k' := mul_le_mul_of_nonneg_left (by linarith) hu0
  linarith

/-! ### Rounding -/

/-- a sum of two floats has no underflow error -/
theorem round_add_rel {x y : ℚ} (hx : Repr f x) (hy : Repr f y) :
    |roundQ f (x + y) - (x + y)| ≤ pow2 (-f.prec) * |x + y| := by
  rcases le_or_gt (pow2 (f.emin + f.prec - 1)) |x + y| with h | h
  · exact roundQ_rel_normal f h
  · obtain ⟨-, n, e, rfl, hn, he⟩ := hx
    obtain ⟨-, m, d, rfl, hm, hd⟩ := hy
    have key : ∀ (n e : ℤ), f.emin ≤ e → ∃ N : ℤ, (n : ℚ) * pow2 e = N * pow2 f.emin := by
      intro n e he
      refine ⟨n * 2 ^ (e - f.emin).toNat, ?_⟩
      have : pow2 e = 2 ^ (e - f.emin).toNat * pow2 f.emin := by
        rw [← pow2_nat, ← pow2_add]; congr 1; omega
      rw [this]; push_cast; ring
    obtain ⟨N, hN⟩ := key n e he
    obtain ⟨M, hM⟩ := key m d hd
    rw [hN, hM] at h ⊢
    have e3 : (N : ℚ) * pow2 f.emin + M * pow2 f.emin = ((N + M : ℤ) : ℚ) * pow2 f.emin := by push_cast; ring
    rw [e3] at h ⊢
    have hle : |N + M| ≤ 2 ^ f.prec := by
      rw [abs_mul, abs_of_pos (pow2_pos _), show f.emin + (f.prec : ℤ) - 1 = ((f.prec : ℤ) - 1) + f.emin by ring,
        pow2_add _ f.emin] at h
      have h1 := lt_of_mul_lt_mul_right h (pow2_pos f.emin).le
      have h2 : pow2 ((f.prec : ℤ) - 1) ≤ pow2 (f.prec : ℤ) := pow2_le (by omega)
      rw [pow2_nat] at h2
      have h3 : |((N + M : ℤ) : ℚ)| ≤ 2 ^ f.prec := (h1.trans_le h2).le
      exact_mod_cast h3
    rw [roundQ_fix f _ _ hle le_rfl, sub_self, abs_zero]
    exact mul_nonneg (pow2_pos _).le (abs_nonneg _)

/-- a rounded number is not much larger -/
theorem round_bound {u q C : ℚ} (hue : u = pow2 (-f.prec)) (hu : u ≤ 1 / 64) (hη : pow2 (f.emin - 1) ≤ 1 / 64)
    (hC : 1 ≤ C) (hq : |q| ≤ C) : |roundQ f q| ≤ 33 / 32 * C := by
  have h1 := roundQ_rel f q
  rw [← hue] at h1
  have h2 := abs_sub_abs_le_abs_sub (roundQ f q) q
  have h3 : u * |q| ≤ 1 / 64 * |q| := mul_le_mul_of_nonneg_right hu (abs_nonneg _)
  linarith

/-! ### One axis -/

/-- `((p + a) * q) + b` -/
theorem axis_ab {P A Q Bo : Flt f} {p a b k k' M : ℚ} (hu : pow2 (-f.prec) ≤ 1 / 64)
    (hη : pow2 (f.emin - 1) ≤ 1 / 64) (hM : 1 ≤ M) (hfit : 32 * (M * M) < pow2 f.emax)
    (hP : Is P p) (hA : Is A a) (hQ : Is Q k') (hB : Is Bo b) (hp : |p| ≤ 2 * M) (ha : |a| ≤ M) (hb : |b| ≤ M)
    (hk : 0 < k) (hkM : k ≤ M) (hkk : |k' - k| ≤ pow2 (-f.prec) * k) :
    ∃ v, Is (Scalar.add (Scalar.mul (Scalar.add P A) Q) Bo) v ∧
      |v - ((p + a) * k + b)| ≤ pow2 (-f.prec) * (|(p + a) * k + b| + 4 * |(p + a) * k|) + pow2 f.emin := by
  obtain ⟨u, hue⟩ : ∃ u, u = pow2 (-f.prec) := ⟨_, rfl⟩
  have hu0 : 0 ≤ u := by rw [hue]; exact (pow2_pos _).le
  rw [← hue] at hu hkk ⊢
  have hMM : M ≤ M * M := by nlinarith
  have b1 : |p + a| ≤ 3 * M := by have := abs_add_le p a; linarith
  have r1 := round_add_rel (is_repr hP) (is_repr hA)
  rw [← hue] at r1
  have c1 := round_bound hue hu hη (by linarith) b1
  have i1 := is_add hP hA (by linarith)
  have d1 : k' ≤ 33 / 32 * M := by
    have := (abs_le.1 hkk).2
    have h1 : u * k ≤ 1 / 64 * k := mul_le_mul_of_nonneg_right hu hk.le
    linarith
  have d0 := (recip_rel hu0 hu hk hkk).1
  have b2 : |roundQ f (p + a) * k'| ≤ 4 * (M * M) := by
    rw [abs_mul, abs_of_pos d0]
    calc _ ≤ (33 / 32 * (3 * M)) * (33 / 32 * M) := mul_le_mul c1 d1 d0.le (by linarith)
      _ ≤ _ := by nlinarith
  have r2 := roundQ_rel f (roundQ f (p + a) * k')
  rw [← hue] at r2
  have c2 := round_bound hue hu hη (by linarith) b2
  have i2 := is_mul i1 hQ (by linarith)
  have b3 : |roundQ f (roundQ f (p + a) * k') + b| ≤ 6 * (M * M) := by
    have := abs_add_le (roundQ f (roundQ f (p + a) * k')) b
    linarith
  have r3 := round_add_rel (is_repr i2) (is_repr hB)
  rw [← hue] at r3
  have c3 := round_bound hue hu hη (by linarith) b3
  have i3 := is_add i2 hB (by linarith)
  refine ⟨_, i3, ?_⟩
  have hkk' : |k' - k| ≤ 64 / 63 * u * |k| := by
    rw [abs_of_pos hk]
    have := mul_nonneg hu0 hk.le
    linarith
  have := chain hu0 hu (pow2_pos (f.emin - 1)).le r1 hkk' r2 r3
  have e : pow2 f.emin = 2 * pow2 (f.emin - 1) := by
    rw [show f.emin = (f.emin - 1) + 1 by ring, pow2_add, pow2_eq 1]; norm_num; ring
  rw [e]
  exact this

/-- `((p - b) / q) - a` -/
theorem axis_ba {P A Q Bo : Flt f} {p a b k k' M : ℚ} (hu : pow2 (-f.prec) ≤ 1 / 64)
    (hη : pow2 (f.emin - 1) ≤ 1 / 64) (hM : 1 ≤ M) (hfit : 32 * (M * M) < pow2 f.emax)
    (hP : Is P p) (hA : Is A a) (hQ : Is Q k') (hB : Is Bo b) (hp : |p| ≤ 2 * M) (ha : |a| ≤ M) (hb : |b| ≤ M)
    (hk : 0 < k) (hkM : 1 ≤ k * M) (hkk : |k' - k| ≤ pow2 (-f.prec) * k) :
    ∃ v, Is (Scalar.sub (Scalar.div (Scalar.sub P Bo) Q) A) v ∧
      |v - ((p - b) / k - a)| ≤ pow2 (-f.prec) * (|(p - b) / k - a| + 4 * |(p - b) / k|) + pow2 f.emin := by
  obtain ⟨u, hue⟩ : ∃ u, u = pow2 (-f.prec) := ⟨_, rfl⟩
  have hu0 : 0 ≤ u := by rw [hue]; exact (pow2_pos _).le
  rw [← hue] at hu hkk ⊢
  have hMM : M ≤ M * M := by nlinarith
  have b1 : |p - b| ≤ 3 * M := by have := abs_sub p b; linarith
  have r1 := round_add_rel (is_repr hP) (is_repr (is_neg hB))
  rw [← hue, ← sub_eq_add_neg] at r1
  have c1 := round_bound hue hu hη (by linarith) b1
  have i1 := is_sub hP hB (by linarith)
  obtain ⟨d0, dk⟩ := recip_rel hu0 hu hk hkk
  have d1 : 1 / k' ≤ 33 / 32 * M := by
    have h0 : 1 / k ≤ M := by rw [div_le_iff₀ hk]; linarith
    rw [abs_of_pos (by positivity : (0 : ℚ) < 1 / k)] at dk
    have h2 := (abs_le.1 dk).2
    have h3 : u * (1 / k) ≤ 1 / 64 * (1 / k) := mul_le_mul_of_nonneg_right hu (by positivity)
    linarith
  have b2 : |roundQ f (p - b) * (1 / k')| ≤ 4 * (M * M) := by
    rw [abs_mul, abs_of_pos (by positivity : (0 : ℚ) < 1 / k')]
    calc _ ≤ (33 / 32 * (3 * M)) * (33 / 32 * M) := mul_le_mul c1 d1 (by positivity) (by linarith)
      _ ≤ _ := by nlinarith
  have r2 := roundQ_rel f (roundQ f (p - b) * (1 / k'))
  rw [← hue] at r2
  have c2 := round_bound hue hu hη (by linarith) b2
  have i2 := is_div i1 hQ d0.ne' (by rw [div_eq_mul_one_div]; linarith)
  rw [div_eq_mul_one_div] at i2
  have b3 : |roundQ f (roundQ f (p - b) * (1 / k')) - a| ≤ 6 * (M * M) := by
    have := abs_sub (roundQ f (roundQ f (p - b) * (1 / k'))) a
    linarith
  have r3 := round_add_rel (is_repr i2) (is_repr (is_neg hA))
  rw [← hue] at r3
  have c3 := round_bound hue hu hη (by linarith) b3
  have i3 := is_sub i2 hA (by linarith)
  rw [← sub_eq_add_neg] at r3
  refine ⟨_, i3, ?_⟩
  have := chain (b := -a) hu0 hu (pow2_pos (f.emin - 1)).le r1 dk r2 (by rw [← sub_eq_add_neg]; exact r3)
  have e : pow2 f.emin = 2 * pow2 (f.emin - 1) := by
    rw [show f.emin = (f.emin - 1) + 1 by ring, pow2_add, pow2_eq 1]; norm_num; ring
  rw [e, div_eq_mul_one_div (p - b) k, sub_eq_add_neg ((p - b) * (1 / k)) a]
  exact this

/-! ### The transform -/

/-- half of a number on the grid -/
theorem half_grid {s B : ℤ} (G : AffineGrid f s B) {x : Flt f} {n : ℤ} (hx : Is x (n * pow2 s))
    (hn : |n| ≤ 2 ^ f.prec) : Is (Scalar.div x Scalar.two) (n * pow2 s / 2) := by
  have hU : UnitOk f (s - 1) := by
    have := G.half; have := (GoodGrid.unit G.toGoodGrid).2
    constructor <;> omega
  have e : (n : ℚ) * pow2 s / 2 = n * pow2 (s - 1) := by
    rw [sub_eq_add_neg, pow2_add, pow2_eq (-1)]; norm_num; ring
  have hr := repr_grid hU hn
  have := is_div hx is_two (by norm_num) (by rw [e, hr.fix]; exact hr.1)
  rwa [e, hr.fix, ← e] at this

/-- what is needed of the numbers of a transform -/
structure Good (t : SimpleAffine (Flt f)) (M : ℚ) (sl sh dl dh : V2 ℚ) (k' : ℚ) : Prop where
  ax : Is t.aOffset.x (-(centreOf sl sh).x)
  ay : Is t.aOffset.y (-(centreOf sl sh).y)
  bx : Is t.bOffset.x (centreOf dl dh).x
  by' : Is t.bOffset.y (centreOf dl dh).y
  sx : Is t.scale.x k'
  sy : Is t.scale.y k'
  rel : |k' - destinationSize dl dh / sourceSize sl sh| ≤ pow2 (-f.prec) * (destinationSize dl dh / sourceSize sl sh)
  D1 : 1 ≤ destinationSize dl dh
  DM : destinationSize dl dh ≤ M
  S1 : 1 ≤ sourceSize sl sh
  SM : sourceSize sl sh ≤ M
  cax : |(centreOf sl sh).x| ≤ M / 2
  cay : |(centreOf sl sh).y| ≤ M / 2
  cbx : |(centreOf dl dh).x| ≤ M / 2
  cby : |(centreOf dl dh).y| ≤ M / 2
  u64 : pow2 (-f.prec) ≤ 1 / 64
  eta : pow2 (f.emin - 1) ≤ pow2 (-f.prec) / 64
  M1 : 1 ≤ M
  fit : 32 * (M * M) < pow2 f.emax

theorem extent_facts {s B : ℤ} (G : AffineGrid f s B) (hB : 1 ≤ B) :
    1 ≤ extent s B ∧ 32 * (extent s B * extent s B) < pow2 f.emax ∧
      1 / extent s B ≥ pow2 (f.emin + f.prec - 1) := by
  obtain ⟨g1, g2, g3, g4, g5⟩ := grid_facts G.toGoodGrid hB
  have hp := f.hprec
  have hem := f.hemax
  have h0 : (1 : ℚ) ≤ extent s B := le_max_left _ _
  refine ⟨h0, ?_, ?_⟩
  · unfold extent
    rcases max_cases (1 : ℚ) (2 * B * (2 : ℚ) ^ s) with ⟨e, -⟩ | ⟨e, -⟩
    · rw [e]
      have : pow2 6 ≤ pow2 f.emax := pow2_le (by omega)
      rw [pow2_eq 6] at this
      norm_num at this ⊢
      linarith
    · rw [e, ← pow2_eq]
      have h1 : pow2 (f.prec + s + s) < pow2 f.emax := pow2_lt (by have := G.fits; omega)
      rw [pow2_add, pow2_add, pow2_nat] at h1
      have hs := mul_pos (pow2_pos s) (pow2_pos s)
      have h2 := mul_lt_mul_of_pos_right g1 hs
      have e2 : 32 * (2 * (B : ℚ) * pow2 s * (2 * B * pow2 s)) = 2 * (64 * B * B * (pow2 s * pow2 s)) := by ring
      have e3 : (2 : ℚ) ^ f.prec * (pow2 s * pow2 s) = 2 ^ f.prec * pow2 s * pow2 s := by ring
      have h3 : pow2 (f.prec + s + s + 1) ≤ pow2 f.emax := pow2_le (by have := G.fits; omega)
      rw [pow2_add, pow2_add, pow2_add, pow2_nat, pow2_eq 1] at h3
      norm_num at h3
      rw [e2]
      linarith
  · have hle : extent s B ≤ pow2 (1 - f.emin - f.prec) := by
      apply max_le
      · rw [← pow2_zero]; exact pow2_le (by have := f.hemin; omega)
      · have hB' : (1 : ℚ) ≤ B := by exact_mod_cast hB
        have h1 : 2 * (B : ℚ) ≤ 2 ^ f.prec := by nlinarith
        have h2 : pow2 (f.prec + s) ≤ pow2 (1 - f.emin - f.prec) := pow2_le (by have := G.wide; omega)
        rw [pow2_add, pow2_nat] at h2
        rw [← pow2_eq]
        exact (mul_le_mul_of_nonneg_right h1 (pow2_pos s).le).trans h2
    have hpos : (0 : ℚ) < extent s B := by linarith
    rw [ge_iff_le, le_div_iff₀ hpos]
    calc _ ≤ pow2 (f.emin + f.prec - 1) * pow2 (1 - f.emin - f.prec) :=
          mul_le_mul_of_nonneg_left hle (pow2_pos _).le
      _ = 1 := by rw [← pow2_add, show f.emin + (f.prec : ℤ) - 1 + (1 - f.emin - f.prec) = 0 by ring, pow2_zero]

theorem new_good {s B : ℤ} (G : AffineGrid f s B) (hB : 1 ≤ B) {sl sh dl dh : V2 (Flt f)} (h1 : OnGrid s B sl)
    (h2 : OnGrid s B sh) (h3 : OnGrid s B dl) (h4 : OnGrid s B dh) :
    ∃ t k', SimpleAffine.new ⟨some (sl, sh)⟩ ⟨some (dl, dh)⟩ = some t ∧
      Good t (extent s B) (exact sl) (exact sh) (exact dl) (exact dh) k' := by
  obtain ⟨M1, M2, M3⟩ := extent_facts G hB
  obtain ⟨g1, g2, g3, g4, g5⟩ := grid_facts G.toGoodGrid hB
  obtain ⟨k1, l1, a1, a2, a3, a4⟩ := OnGrid.coords h1
  obtain ⟨k2, l2, b1, b2, b3, b4⟩ := OnGrid.coords h2
  obtain ⟨k3, l3, c1, c2, c3, c4⟩ := OnGrid.coords h3
  obtain ⟨k4, l4, d1, d2, d3, d4⟩ := OnGrid.coords h4
  have hBp : 2 * B ≤ 2 ^ f.prec := by
    have : (64 : ℤ) * B * B < 2 ^ f.prec := by exact_mod_cast g1
    nlinarith
  have add2 : ∀ {k l : ℤ}, |k| ≤ B → |l| ≤ B → |k + l| ≤ 2 * B := by
    intro k l hk hl; have := abs_add_le k l; omega
  have hU := GoodGrid.unit G.toGoodGrid
  have sum : ∀ {x y : Flt f} {k l : ℤ}, Is x (k * pow2 s) → Is y (l * pow2 s) → |k| ≤ B → |l| ≤ B →
      Is (Scalar.add x y) ((k + l : ℤ) * pow2 s) := fun hx hy hk hl => grid_add hU hx hy ((add2 hk hl).trans hBp)
  -- centres
  have ctr : ∀ {x y : Flt f} {k l : ℤ}, Is x (k * pow2 s) → Is y (l * pow2 s) → |k| ≤ B → |l| ≤ B →
      Is (Scalar.div (Scalar.add x y) Scalar.two) ((x.val + y.val) / 2) ∧ |(x.val + y.val) / 2| ≤ extent s B / 2 := by
    intro x y k l hx hy hk hl
    have := half_grid G (sum hx hy hk hl) ((add2 hk hl).trans hBp)
    have e : ((k + l : ℤ) : ℚ) * pow2 s / 2 = (x.val + y.val) / 2 := by rw [hx.2, hy.2]; push_cast; ring
    rw [← e]
    refine ⟨this, ?_⟩
    rw [abs_div, abs_mul, abs_of_pos (pow2_pos s), abs_two]
    have h5 : |((k + l : ℤ) : ℚ)| ≤ 2 * B := by exact_mod_cast add2 hk hl
    have h6 : 2 * (B : ℚ) * pow2 s ≤ extent s B := by rw [pow2_eq]; exact le_max_right _ _
    have h7 := mul_le_mul_of_nonneg_right h5 (pow2_pos s).le
    linarith
  have ctrn : ∀ {x y : Flt f} {k l : ℤ}, Is x (k * pow2 s) → Is y (l * pow2 s) → |k| ≤ B → |l| ≤ B →
      Is (Scalar.div (Scalar.neg (Scalar.add x y)) Scalar.two) (-((x.val + y.val) / 2)) := by
    intro x y k l hx hy hk hl
    have h5 := is_neg (sum hx hy hk hl)
    have e0 : -(((k + l : ℤ) : ℚ) * pow2 s) = ((-(k + l) : ℤ) : ℚ) * pow2 s := by push_cast; ring
    rw [e0] at h5
    have := half_grid G h5 (by rw [abs_neg]; exact (add2 hk hl).trans hBp)
    have e : ((-(k + l) : ℤ) : ℚ) * pow2 s / 2 = -((x.val + y.val) / 2) := by rw [hx.2, hy.2]; push_cast; ring
    rw [← e]
    exact this
  -- sizes
  have siz : ∀ {x y : Flt f} {k l : ℤ}, Is x (k * pow2 s) → Is y (l * pow2 s) → |k| ≤ B → |l| ≤ B →
      Is (Scalar.fmax (Scalar.sub x y) Scalar.one) (max (x.val - y.val) 1) ∧ 1 ≤ max (x.val - y.val) 1 ∧
        max (x.val - y.val) 1 ≤ extent s B := by
    intro x y k l hx hy hk hl
    obtain ⟨h5, h6⟩ := grid_diff G.toGoodGrid hx hy hk hl
    have e : ((k - l : ℤ) : ℚ) * pow2 s = x.val - y.val := by rw [hx.2, hy.2]; push_cast; ring
    rw [← e]
    refine ⟨is_fmax h5 is_one, le_max_right _ _, max_le ?_ M1⟩
    have h7 : ((k - l : ℤ) : ℚ) ≤ 2 * B := by exact_mod_cast (le_abs_self _).trans h6
    have h8 : 2 * (B : ℚ) * pow2 s ≤ extent s B := by rw [pow2_eq]; exact le_max_right _ _
    exact (mul_le_mul_of_nonneg_right h7 (pow2_pos s).le).trans h8
  obtain ⟨s1, s2, s3⟩ := siz b1 a1 b3 a3
  obtain ⟨s4, s5, s6⟩ := siz b2 a2 b4 a4
  obtain ⟨e1, e2, e3⟩ := siz d1 c1 d3 c3
  obtain ⟨e4, e5, e6⟩ := siz d2 c2 d4 c4
  have hS : Is _ (sourceSize (exact sl) (exact sh)) := is_fmax s1 s4
  have hD : Is _ (destinationSize (exact dl) (exact dh)) := is_fmin e1 e4
  have S1 : 1 ≤ sourceSize (exact sl) (exact sh) := s2.trans (le_max_left _ _)
  have SM : sourceSize (exact sl) (exact sh) ≤ extent s B := max_le s3 s6
  have D1 : 1 ≤ destinationSize (exact dl) (exact dh) := le_min e2 e5
  have DM : destinationSize (exact dl) (exact dh) ≤ extent s B := (min_le_left _ _).trans e3
  have S0 : 0 < sourceSize (exact sl) (exact sh) := by linarith
  have M0 : 0 < extent s B := by linarith
  have klo : 1 / extent s B ≤ destinationSize (exact dl) (exact dh) / sourceSize (exact sl) (exact sh) :=
    div_le_div₀ (by linarith) D1 S0 SM
  have khi : destinationSize (exact dl) (exact dh) / sourceSize (exact sl) (exact sh) ≤ extent s B := by
    rw [div_le_iff₀ S0]; nlinarith
  have kpos : 0 < destinationSize (exact dl) (exact dh) / sourceSize (exact sl) (exact sh) :=
    lt_of_lt_of_le (by positivity) klo
  have hrel : |roundQ f (destinationSize (exact dl) (exact dh) / sourceSize (exact sl) (exact sh)) -
      destinationSize (exact dl) (exact dh) / sourceSize (exact sl) (exact sh)| ≤
      pow2 (-f.prec) * (destinationSize (exact dl) (exact dh) / sourceSize (exact sl) (exact sh)) := by
    have := roundQ_rel_normal f (q := destinationSize (exact dl) (exact dh) / sourceSize (exact sl) (exact sh))
      (by rw [abs_of_pos kpos]; exact M3.le.trans klo)
    rwa [abs_of_pos kpos] at this
  have hup := pow2_pos (-(f.prec : ℤ))
  have hbd := round_bound (f := f) rfl g5 (by linarith) M1 (by rw [abs_of_pos kpos]; exact khi)
  have hq := is_div hD hS S0.ne' (by nlinarith)
  exact ⟨_, _, rfl, ⟨ctrn a1 b1 a3 b3, ctrn a2 b2 a4 b4, (ctr c1 d1 c3 d3).1, (ctr c2 d2 c4 d4).1, hq, hq, hrel,
    D1, DM, S1, SM, (ctr a1 b1 a3 b3).2, (ctr a2 b2 a4 b4).2, (ctr c1 d1 c3 d3).2, (ctr c2 d2 c4 d4).2, g5, g4, M1, M2⟩⟩

theorem fin_is (x : Flt f) : Scalar.isFinite x = x.isFin := rfl

/-- the two maps of a good transform -/
theorem Good.ab {t : SimpleAffine (Flt f)} {M : ℚ} {sl sh dl dh : V2 ℚ} {k' : ℚ} (g : Good t M sl sh dl dh k')
    {p : V2 (Flt f)} (hx : p.x.isFin = true) (hy : p.y.isFin = true) (bx : |p.x.val| ≤ 2 * M) (by' : |p.y.val| ≤ 2 * M) :
    ∃ q, t.transformAb p = some q ∧ q.x.isFin = true ∧ q.y.isFin = true ∧
      |q.x.val - (affineImage sl sh dl dh (exact p)).x| ≤ pow2 (-f.prec) * (|(affineImage sl sh dl dh (exact p)).x| +
        4 * |(affineImage sl sh dl dh (exact p)).x - (centreOf dl dh).x|) + pow2 f.emin ∧
      |q.y.val - (affineImage sl sh dl dh (exact p)).y| ≤ pow2 (-f.prec) * (|(affineImage sl sh dl dh (exact p)).y| +
        4 * |(affineImage sl sh dl dh (exact p)).y - (centreOf dl dh).y|) + pow2 f.emin := by
  have hup := pow2_pos (-(f.prec : ℤ))
  have S0 : 0 < sourceSize sl sh := by linarith [g.S1]
  have D0 : 0 < destinationSize dl dh := by linarith [g.D1]
  have kpos := div_pos D0 S0
  have kM : destinationSize dl dh / sourceSize sl sh ≤ M := by
    rw [div_le_iff₀ S0]; have := g.DM; have := g.S1; have := g.M1; nlinarith
  have hη : pow2 (f.emin - 1) ≤ 1 / 64 := by have := g.eta; have := g.u64; linarith
  have M1 := g.M1
  obtain ⟨v, v1, v2⟩ := axis_ab g.u64 hη M1 g.fit (is_self hx) g.ax g.sx g.bx bx
    (by rw [abs_neg]; linarith [g.cax]) (by linarith [g.cbx]) kpos kM g.rel
  obtain ⟨w, w1, w2⟩ := axis_ab g.u64 hη M1 g.fit (is_self hy) g.ay g.sy g.by' by'
    (by rw [abs_neg]; linarith [g.cay]) (by linarith [g.cby]) kpos kM g.rel
  refine ⟨⟨_, _⟩, ?_, v1.1, w1.1, ?_, ?_⟩
  · unfold SimpleAffine.transformAb
    have ha := (fin_is _).trans v1.1
    have hb := (fin_is _).trans w1.1
    simp only [ha, hb, Bool.and_self, if_true]
  · have e : (affineImage sl sh dl dh (exact p)).x =
        (p.x.val + -(centreOf sl sh).x) * (destinationSize dl dh / sourceSize sl sh) + (centreOf dl dh).x := by
      unfold affineImage exact; ring
    rw [e, add_sub_cancel_right, v1.2]
    exact v2
  · have e : (affineImage sl sh dl dh (exact p)).y =
        (p.y.val + -(centreOf sl sh).y) * (destinationSize dl dh / sourceSize sl sh) + (centreOf dl dh).y := by
      unfold affineImage exact; ring
    rw [e, add_sub_cancel_right, w1.2]
    exact w2

theorem Good.ba {t : SimpleAffine (Flt f)} {M : ℚ} {sl sh dl dh : V2 ℚ} {k' : ℚ} (g : Good t M sl sh dl dh k')
    {p : V2 (Flt f)} (hx : p.x.isFin = true) (hy : p.y.isFin = true) (bx : |p.x.val| ≤ 2 * M) (by' : |p.y.val| ≤ 2 * M) :
    ∃ q, t.transformBa p = some q ∧ q.x.isFin = true ∧ q.y.isFin = true ∧
      |q.x.val - (affinePreimage sl sh dl dh (exact p)).x| ≤
        pow2 (-f.prec) * (|(affinePreimage sl sh dl dh (exact p)).x| +
        4 * |(affinePreimage sl sh dl dh (exact p)).x - (centreOf sl sh).x|) + pow2 f.emin ∧
      |q.y.val - (affinePreimage sl sh dl dh (exact p)).y| ≤
        pow2 (-f.prec) * (|(affinePreimage sl sh dl dh (exact p)).y| +
        4 * |(affinePreimage sl sh dl dh (exact p)).y - (centreOf sl sh).y|) + pow2 f.emin := by
  have hup := pow2_pos (-(f.prec : ℤ))
  have S0 : 0 < sourceSize sl sh := by linarith [g.S1]
  have D0 : 0 < destinationSize dl dh := by linarith [g.D1]
  have kpos := div_pos D0 S0
  have M1 := g.M1
  have kM : 1 ≤ destinationSize dl dh / sourceSize sl sh * M := by
    rw [div_mul_eq_mul_div, le_div_iff₀ S0]
    have := g.SM; have := g.D1; nlinarith
  have hη : pow2 (f.emin - 1) ≤ 1 / 64 := by have := g.eta; have := g.u64; linarith
  obtain ⟨v, v1, v2⟩ := axis_ba g.u64 hη M1 g.fit (is_self hx) g.ax g.sx g.bx bx
    (by rw [abs_neg]; linarith [g.cax]) (by linarith [g.cbx]) kpos kM g.rel
  obtain ⟨w, w1, w2⟩ := axis_ba g.u64 hη M1 g.fit (is_self hy) g.ay g.sy g.by' by'
    (by rw [abs_neg]; linarith [g.cay]) (by linarith [g.cby]) kpos kM g.rel
  have key : ∀ a b c : ℚ, (a - b) / (destinationSize dl dh / sourceSize sl sh) - -c =
      c + (a - b) * (sourceSize sl sh / destinationSize dl dh) := by
    intro a b c; field_simp; ring
  refine ⟨⟨_, _⟩, ?_, v1.1, w1.1, ?_, ?_⟩
  · unfold SimpleAffine.transformBa
    have ha := (fin_is _).trans v1.1
    have hb := (fin_is _).trans w1.1
    simp only [ha, hb, Bool.and_self, if_true]
  · have e : (affinePreimage sl sh dl dh (exact p)).x = _ :=
      (key p.x.val (centreOf dl dh).x (centreOf sl sh).x).symm
    rw [e, v1.2, show ∀ a b : ℚ, a - -b - b = a from fun a b => by ring]
    exact v2
  · have e : (affinePreimage sl sh dl dh (exact p)).y = _ :=
      (key p.y.val (centreOf dl dh).y (centreOf sl sh).y).symm
    rw [e, w1.2, show ∀ a b : ℚ, a - -b - b = a from fun a b => by ring]
    exact w2

/-- one axis of `Good.ab` for a point of the source box -/
theorem inside {u η c S D b p lo hi : ℚ} (hS : 1 ≤ S) (hD : 1 ≤ D) (hc : c = (lo + hi) / 2) (h1 : lo ≤ p) (h2 : p ≤ hi)
    (hs : hi - lo ≤ S) : |b + (p - c) * (D / S) - b| ≤ D / 2 ∧ |p - c| ≤ S / 2 := by
  have S0 : 0 < S := by linarith
  have D0 : 0 < D := by linarith
  have hp : |p - c| ≤ S / 2 := by rw [hc, abs_le]; constructor <;> linarith
  refine ⟨?_, hp⟩
  rw [add_sub_cancel_left, abs_mul, abs_of_pos (div_pos D0 S0)]
  calc _ ≤ S / 2 * (D / S) := mul_le_mul_of_nonneg_right hp (by positivity)
    _ = D / 2 := by field_simp

/-- one axis of the way there and back -/
theorem there_and_back {u η M p c b S D e v pre r : ℚ} (hu0 : 0 < u) (hu : u ≤ 1 / 64) (hη : η ≤ u / 32)
    (hS : 1 ≤ S) (hD : 1 ≤ D) (he : e = b + (p - c) * (D / S)) (ht : |e - b| ≤ D / 2) (hp : |p - c| ≤ S / 2)
    (hv : |v - e| ≤ u * (|e| + 4 * |e - b|) + η) (hpre : pre = c + (v - b) * (S / D))
    (hr : |r - pre| ≤ u * (|pre| + 4 * |pre - c|) + η) :
    |r - p| ≤ u * (|p| + (5 + 2 * |b| / D) * S) := by
  have S0 : 0 < S := by linarith
  have D0 : 0 < D := by linarith
  have e1 : |e| ≤ |b| + D / 2 := by
    have := abs_add_le (e - b) b
    rw [sub_add_cancel] at this
    linarith
  have v1 : |v - e| ≤ u * (|b| + 81 / 32 * D) := by
    have h1 : u * (|e| + 4 * |e - b|) ≤ u * (|b| + 5 / 2 * D) := mul_le_mul_of_nonneg_left (by linarith) hu0.le
    have h2 : u * 1 ≤ u * D := mul_le_mul_of_nonneg_left hD hu0.le
    have e2 : u * (|b| + 81 / 32 * D) = u * (|b| + 5 / 2 * D) + 1 / 32 * (u * D) := by ring
    rw [e2]
    linarith
  have e3 : pre - p = (v - e) * (S / D) := by rw [hpre, he]; field_simp; ring
  have w1 : |pre - p| ≤ u * (|b| / D * S + 81 / 32 * S) := by
    rw [e3, abs_mul, abs_of_pos (div_pos S0 D0)]
    calc _ ≤ u * (|b| + 81 / 32 * D) * (S / D) := mul_le_mul_of_nonneg_right v1 (div_pos S0 D0).le
      _ = _ := by field_simp
  have w2 : |pre| ≤ |p| + |pre - p| := by
    have := abs_add_le p (pre - p)
    rwa [add_sub_cancel] at this
  have w3 : |pre - c| ≤ S / 2 + |pre - p| := by
    have := abs_add_le (p - c) (pre - p)
    rw [show p - c + (pre - p) = pre - c by ring] at this
    linarith
  have w4 : |r - p| ≤ |r - pre| + |pre - p| := by
    have := abs_add_le (r - pre) (pre - p)
    rwa [show r - pre + (pre - p) = r - p by ring] at this
  obtain ⟨δ, hδ⟩ : ∃ δ, δ = |pre - p| := ⟨_, rfl⟩
  rw [← hδ] at w1 w2 w3 w4
  have hδ0 : 0 ≤ δ := by rw [hδ]; exact abs_nonneg _
  have w5 : u * (|pre| + 4 * |pre - c|) ≤ u * (|p| + 2 * S + 5 * δ) := mul_le_mul_of_nonneg_left (by linarith) hu0.le
  have w6 : u * (|p| + 2 * S + 5 * δ) = u * |p| + 2 * (u * S) + 5 * (u * δ) := by ring
  have w7 : u * δ ≤ 1 / 64 * δ := mul_le_mul_of_nonneg_right hu hδ0
  have w8 : u * 1 ≤ u * S := mul_le_mul_of_nonneg_left hS hu0.le
  have hb0 : 0 ≤ u * (|b| / D * S) := mul_nonneg hu0.le (mul_nonneg (div_nonneg (abs_nonneg _) D0.le) S0.le)
  have w9 : u * (|b| / D * S + 81 / 32 * S) = u * (|b| / D * S) + 81 / 32 * (u * S) := by ring
  have w10 : u * (|p| + (5 + 2 * |b| / D) * S) = u * |p| + 5 * (u * S) + 2 * (u * (|b| / D * S)) := by ring
  rw [w10]
  linarith

end AffineFlt

open AffineFlt

/-- C87: the map of the specification is the one the code computes in exact arithmetic. -/
theorem C87_image_is_the_exact_transform (sl sh dl dh p : V2 ℚ) :
    ∃ t, SimpleAffine.new ⟨some (sl, sh)⟩ ⟨some (dl, dh)⟩ = some t ∧
      t.transformAb p = some (affineImage sl sh dl dh p) ∧ t.transformBa p = some (affinePreimage sl sh dl dh p) := by
  have S1 : 1 ≤ sourceSize sl sh := (le_max_right _ _).trans (le_max_left _ _)
  have D1 : 1 ≤ destinationSize dl dh := le_min (le_max_right _ _) (le_max_right _ _)
  obtain ⟨t, ht⟩ : ∃ t, SimpleAffine.new ⟨some (sl, sh)⟩ ⟨some (dl, dh)⟩ = some t := ⟨_, rfl⟩
  obtain ⟨ea, eb, s, d, hs, hd, e⟩ := Aabb.affine_new sl sh dl dh t ht
  have hs' : s = sourceSize sl sh := hs
  have hd' : d = destinationSize dl dh := hd
  subst hs' hd'
  have S0 : sourceSize sl sh ≠ 0 := by linarith
  have D0 : destinationSize dl dh ≠ 0 := by linarith
  refine ⟨t, ht, ?_, ?_⟩
  · simp only [SimpleAffine.transformAb, ea, eb, e, exact_simp, Bool.and_true, if_true, affineImage, centreOf,
      Option.some.injEq, V2.mk.injEq]
    constructor <;> ring
  · simp only [SimpleAffine.transformBa, ea, eb, e, exact_simp, Bool.and_true, if_true, affinePreimage, centreOf,
      Option.some.injEq, V2.mk.injEq]
    constructor <;> (field_simp; ring)

/-- C87: `transform_ab` of a transform between two boxes on the grid (corners in any order), for every finite point
that is not too far out: the result differs from the exact image by at most `2^-prec` of the image and four times
`2^-prec` of its distance from the centre (and the smallest positive number). -/
theorem C87_transform_ab {s B : ℤ} (G : AffineGrid f s B) (hB : 1 ≤ B) (sl sh dl dh : V2 (Flt f)) (h1 : OnGrid s B sl)
    (h2 : OnGrid s B sh) (h3 : OnGrid s B dl) (h4 : OnGrid s B dh) :
    ∃ t, SimpleAffine.new ⟨some (sl, sh)⟩ ⟨some (dl, dh)⟩ = some t ∧ ∀ p : V2 (Flt f), p.x.isFin = true →
      p.y.isFin = true → |p.x.val| ≤ 2 * extent s B → |p.y.val| ≤ 2 * extent s B →
      ∃ q e c : V2 _, t.transformAb p = some q ∧ e = affineImage (exact sl) (exact sh) (exact dl) (exact dh) (exact p) ∧
        c = centreOf (exact dl) (exact dh) ∧ q.x.isFin = true ∧ q.y.isFin = true ∧
        |q.x.val - e.x| ≤ (2 : ℚ) ^ (-(f.prec : ℤ)) * (|e.x| + 4 * |e.x - c.x|) + 2 ^ f.emin ∧
        |q.y.val - e.y| ≤ (2 : ℚ) ^ (-(f.prec : ℤ)) * (|e.y| + 4 * |e.y - c.y|) + 2 ^ f.emin := by
  obtain ⟨t, k', ht, g⟩ := new_good G hB h1 h2 h3 h4
  refine ⟨t, ht, fun p hx hy bx by' => ?_⟩
  obtain ⟨q, q1, q2, q3, q4, q5⟩ := g.ab hx hy bx by'
  refine ⟨q, _, _, q1, rfl, rfl, q2, q3, ?_, ?_⟩
  · rw [← pow2_eq, ← pow2_eq]; exact q4
  · rw [← pow2_eq, ← pow2_eq]; exact q5

/-- C87: the same for `transform_ba`. -/
theorem C87_transform_ba {s B : ℤ} (G : AffineGrid f s B) (hB : 1 ≤ B) (sl sh dl dh : V2 (Flt f)) (h1 : OnGrid s B sl)
    (h2 : OnGrid s B sh) (h3 : OnGrid s B dl) (h4 : OnGrid s B dh) :
    ∃ t, SimpleAffine.new ⟨some (sl, sh)⟩ ⟨some (dl, dh)⟩ = some t ∧ ∀ p : V2 (Flt f), p.x.isFin = true →
      p.y.isFin = true → |p.x.val| ≤ 2 * extent s B → |p.y.val| ≤ 2 * extent s B →
      ∃ q e c : V2 _, t.transformBa p = some q ∧
        e = affinePreimage (exact sl) (exact sh) (exact dl) (exact dh) (exact p) ∧
        c = centreOf (exact sl) (exact sh) ∧ q.x.isFin = true ∧ q.y.isFin = true ∧
        |q.x.val - e.x| ≤ (2 : ℚ) ^ (-(f.prec : ℤ)) * (|e.x| + 4 * |e.x - c.x|) + 2 ^ f.emin ∧
        |q.y.val - e.y| ≤ (2 : ℚ) ^ (-(f.prec : ℤ)) * (|e.y| + 4 * |e.y - c.y|) + 2 ^ f.emin := by
  obtain ⟨t, k', ht, g⟩ := new_good G hB h1 h2 h3 h4
  refine ⟨t, ht, fun p hx hy bx by' => ?_⟩
  obtain ⟨q, q1, q2, q3, q4, q5⟩ := g.ba hx hy bx by'
  refine ⟨q, _, _, q1, rfl, rfl, q2, q3, ?_, ?_⟩
  · rw [← pow2_eq, ← pow2_eq]; exact q4
  · rw [← pow2_eq, ← pow2_eq]; exact q5

/-- coordinates between two coordinates on the grid -/
theorem between_small {s B : ℤ} {a b p : ℚ} {k l : ℤ} (ha : a = k * pow2 s) (hb : b = l * pow2 s) (hk : |k| ≤ B)
    (hl : |l| ≤ B) (h1 : a ≤ p) (h2 : p ≤ b) : |p| ≤ 2 * extent s B := by
  have hm : 2 * (B : ℚ) * pow2 s ≤ extent s B := by rw [pow2_eq]; exact le_max_right _ _
  have h0 : (1 : ℚ) ≤ extent s B := le_max_left _ _
  have hk' : |(k : ℚ)| ≤ B := by exact_mod_cast hk
  have hl' : |(l : ℚ)| ≤ B := by exact_mod_cast hl
  have e1 := mul_le_mul_of_nonneg_right (abs_le.1 hk').1 (pow2_pos s).le
  have e2 := mul_le_mul_of_nonneg_right (abs_le.1 hl').2 (pow2_pos s).le
  rw [abs_le]
  constructor <;> linarith

/-- C87: points of the source box are mapped into the destination box (if its sides are at least 1), up to
`6 * 2^-prec` times the largest coordinate on the axis. -/
theorem C87_stays_in_the_destination {s B : ℤ} (G : AffineGrid f s B) (hB : 1 ≤ B) (sl sh dl dh : V2 (Flt f))
    (h1 : OnGrid s B sl) (h2 : OnGrid s B sh) (h3 : OnGrid s B dl) (h4 : OnGrid s B dh)
    (hw : 1 ≤ dh.x.val - dl.x.val) (hh : 1 ≤ dh.y.val - dl.y.val) :
    ∃ t, SimpleAffine.new ⟨some (sl, sh)⟩ ⟨some (dl, dh)⟩ = some t ∧ ∀ p : V2 (Flt f), p.x.isFin = true →
      p.y.isFin = true → sl.x.val ≤ p.x.val → p.x.val ≤ sh.x.val → sl.y.val ≤ p.y.val → p.y.val ≤ sh.y.val →
      ∃ (q : V2 (Flt f)) (ε δ : ℚ), t.transformAb p = some q ∧ q.x.isFin = true ∧ q.y.isFin = true ∧
        ε = 6 * (2 : ℚ) ^ (-(f.prec : ℤ)) * max |dl.x.val| |dh.x.val| ∧
        δ = 6 * (2 : ℚ) ^ (-(f.prec : ℤ)) * max |dl.y.val| |dh.y.val| ∧
        dl.x.val - ε ≤ q.x.val ∧ q.x.val ≤ dh.x.val + ε ∧ dl.y.val - δ ≤ q.y.val ∧ q.y.val ≤ dh.y.val + δ := by
  obtain ⟨t, k', ht, g⟩ := new_good G hB h1 h2 h3 h4
  obtain ⟨k1, l1, a1, a2, a3, a4⟩ := OnGrid.coords h1
  obtain ⟨k2, l2, b1, b2, b3, b4⟩ := OnGrid.coords h2
  refine ⟨t, ht, fun p hx hy p1 p2 p3 p4 => ?_⟩
  obtain ⟨q, q1, q2, q3, q4, q5⟩ := g.ab hx hy (between_small a1.2 b1.2 a3 b3 p1 p2) (between_small a2.2 b2.2 a4 b4 p3 p4)
  refine ⟨q, _, _, q1, q2, q3, rfl, rfl, ?_⟩
  have hup := pow2_pos (-(f.prec : ℤ))
  have e : pow2 f.emin = 2 * pow2 (f.emin - 1) := by
    rw [show f.emin = (f.emin - 1) + 1 by ring, pow2_add, pow2_eq 1]; norm_num; ring
  have hη : pow2 f.emin ≤ pow2 (-(f.prec : ℤ)) * (1 / 32) := by rw [e]; linarith [g.eta]
  have D1 := g.D1
  have S1 := g.S1
  have hDx : destinationSize (exact dl) (exact dh) ≤ dh.x.val - dl.x.val :=
    (min_le_left _ _).trans (max_eq_left hw).le
  have hDy : destinationSize (exact dl) (exact dh) ≤ dh.y.val - dl.y.val :=
    (min_le_right _ _).trans (max_eq_left hh).le
  have hSx : sh.x.val - sl.x.val ≤ sourceSize (exact sl) (exact sh) := (le_max_left _ _).trans (le_max_left _ _)
  have hSy : sh.y.val - sl.y.val ≤ sourceSize (exact sl) (exact sh) := (le_max_left _ _).trans (le_max_right _ _)
  have ix := (inside (u := 0) (η := 0) (b := (centreOf (exact dl) (exact dh)).x) S1 D1
    (rfl : (centreOf (exact sl) (exact sh)).x = (sl.x.val + sh.x.val) / 2) p1 p2 hSx).1
  have iy := (inside (u := 0) (η := 0) (b := (centreOf (exact dl) (exact dh)).y) S1 D1
    (rfl : (centreOf (exact sl) (exact sh)).y = (sl.y.val + sh.y.val) / 2) p3 p4 hSy).1
  have fin : ∀ {lo hi c v d D u η : ℚ}, 0 < u → c = (lo + hi) / 2 → 1 ≤ hi - lo → D ≤ hi - lo →
      |d - c| ≤ D / 2 → |v - d| ≤ u * (|d| + 4 * |d - c|) + η → η ≤ u * (1 / 32) →
      lo - 6 * u * max |lo| |hi| ≤ v ∧ v ≤ hi + 6 * u * max |lo| |hi| := by
    intro lo hi c v d D u η hu hc hl hD hd hv hη
    obtain ⟨W, hW⟩ : ∃ W, W = max |lo| |hi| := ⟨_, rfl⟩
    have w1 : |lo| ≤ W := hW ▸ le_max_left _ _
    have w2 : |hi| ≤ W := hW ▸ le_max_right _ _
    rw [← hW]
    have w1' := abs_le.1 w1
    have w2' := abs_le.1 w2
    have hd' := abs_le.1 hd
    have z1 : lo ≤ d := by linarith
    have z2 : d ≤ hi := by linarith
    have hdW : |d| ≤ W := by rw [abs_le]; constructor <;> linarith
    have hdc : |d - c| ≤ W := by linarith
    have hv2 : u * (|d| + 4 * |d - c|) ≤ u * (5 * W) := mul_le_mul_of_nonneg_left (by linarith) hu.le
    have hW2 : u * (1 / 32) ≤ u * W := mul_le_mul_of_nonneg_left (by linarith) hu.le
    have := abs_le.1 hv
    constructor <;> linarith
  obtain ⟨f1, f2⟩ := fin hup rfl hw hDx ix q4 hη
  obtain ⟨f3, f4⟩ := fin hup rfl hh hDy iy q5 hη
  rw [← pow2_eq]
  exact ⟨f1, f2, f3, f4⟩

/-- C87: a point of the source box comes back from the destination with an error of a few units in the last place,
measured on the sizes of the boxes. -/
theorem C87_round_trip {s B : ℤ} (G : AffineGrid f s B) (hB : 1 ≤ B) (sl sh dl dh : V2 (Flt f))
    (h1 : OnGrid s B sl) (h2 : OnGrid s B sh) (h3 : OnGrid s B dl) (h4 : OnGrid s B dh) :
    ∃ t, SimpleAffine.new ⟨some (sl, sh)⟩ ⟨some (dl, dh)⟩ = some t ∧ ∀ p : V2 (Flt f), p.x.isFin = true →
      p.y.isFin = true → sl.x.val ≤ p.x.val → p.x.val ≤ sh.x.val → sl.y.val ≤ p.y.val → p.y.val ≤ sh.y.val →
      ∃ (q r : V2 (Flt f)) (S D : ℚ) (c : V2 ℚ), t.transformAb p = some q ∧ t.transformBa q = some r ∧
        S = sourceSize (exact sl) (exact sh) ∧ D = destinationSize (exact dl) (exact dh) ∧
        c = centreOf (exact dl) (exact dh) ∧ r.x.isFin = true ∧ r.y.isFin = true ∧
        |r.x.val - p.x.val| ≤ (2 : ℚ) ^ (-(f.prec : ℤ)) * (|p.x.val| + (5 + 2 * |c.x| / D) * S) ∧
        |r.y.val - p.y.val| ≤ (2 : ℚ) ^ (-(f.prec : ℤ)) * (|p.y.val| + (5 + 2 * |c.y| / D) * S) := by
  obtain ⟨t, k', ht, g⟩ := new_good G hB h1 h2 h3 h4
  obtain ⟨k1, l1, a1, a2, a3, a4⟩ := OnGrid.coords h1
  obtain ⟨k2, l2, b1, b2, b3, b4⟩ := OnGrid.coords h2
  refine ⟨t, ht, fun p hx hy p1 p2 p3 p4 => ?_⟩
  obtain ⟨q, q1, q2, q3, q4, q5⟩ := g.ab hx hy (between_small a1.2 b1.2 a3 b3 p1 p2) (between_small a2.2 b2.2 a4 b4 p3 p4)
  have hup := pow2_pos (-(f.prec : ℤ))
  have e : pow2 f.emin = 2 * pow2 (f.emin - 1) := by
    rw [show f.emin = (f.emin - 1) + 1 by ring, pow2_add, pow2_eq 1]; norm_num; ring
  have hη : pow2 f.emin ≤ pow2 (-(f.prec : ℤ)) / 32 := by rw [e]; linarith [g.eta]
  have D1 := g.D1
  have S1 := g.S1
  have hSx : sh.x.val - sl.x.val ≤ sourceSize (exact sl) (exact sh) := (le_max_left _ _).trans (le_max_left _ _)
  have hSy : sh.y.val - sl.y.val ≤ sourceSize (exact sl) (exact sh) := (le_max_left _ _).trans (le_max_right _ _)
  obtain ⟨ix, jx⟩ := inside (u := 0) (η := 0) (b := (centreOf (exact dl) (exact dh)).x) S1 D1
    (rfl : (centreOf (exact sl) (exact sh)).x = (sl.x.val + sh.x.val) / 2) p1 p2 hSx
  obtain ⟨iy, jy⟩ := inside (u := 0) (η := 0) (b := (centreOf (exact dl) (exact dh)).y) S1 D1
    (rfl : (centreOf (exact sl) (exact sh)).y = (sl.y.val + sh.y.val) / 2) p3 p4 hSy
  -- the image is not too far out
  have far : ∀ {d c v D u η M : ℚ}, 0 < u → u ≤ 1 / 64 → |c| ≤ M / 2 → D ≤ M → 1 ≤ M → |d - c| ≤ D / 2 →
      |v - d| ≤ u * (|d| + 4 * |d - c|) + η → η ≤ u / 32 → |v| ≤ 2 * M := by
    intro d c v D u η M hu hu2 hc hD hM hd hv hη
    have d1 : |d| ≤ M := by
      have := abs_add_le (d - c) c
      rw [sub_add_cancel] at this
      linarith
    have d2 : u * (|d| + 4 * |d - c|) ≤ 1 / 64 * (3 * M) :=
      mul_le_mul hu2 (by linarith) (by positivity) (by norm_num)
    have d3 := abs_add_le (v - d) d
    rw [sub_add_cancel] at d3
    linarith
  have gx := far hup g.u64 g.cbx g.DM g.M1 ix q4 hη
  have gy := far hup g.u64 g.cby g.DM g.M1 iy q5 hη
  obtain ⟨r, r1, r2, r3, r4, r5⟩ := g.ba q2 q3 gx gy
  refine ⟨q, r, _, _, _, q1, r1, rfl, rfl, rfl, r2, r3, ?_, ?_⟩
  · rw [← pow2_eq]
    exact there_and_back (M := 0) hup g.u64 hη S1 D1 rfl ix jx q4 rfl r4
  · rw [← pow2_eq]
    exact there_and_back (M := 0) hup g.u64 hη S1 D1 rfl iy jy q5 rfl r5

/-- C87: for all transforms and points, also infinite or NaN ones: what the four functions return is finite. -/
theorem C87_results_are_finite (t : SimpleAffine (Flt f)) (p q : V2 (Flt f)) :
    (t.transformAb p = some q ∨ t.transformBa p = some q) → q.x.isFin = true ∧ q.y.isFin = true := by
  rintro (h | h)
  · unfold SimpleAffine.transformAb at h
    dsimp only at h
    split at h
    · rename_i hc
      rw [Bool.and_eq_true] at hc
      cases h
      exact hc
    · cases h
  · unfold SimpleAffine.transformBa at h
    dsimp only at h
    split at h
    · rename_i hc
      rw [Bool.and_eq_true] at hc
      cases h
      exact hc
    · cases h

/-- the double next to `5`, above it -/
def fiveUp : F64 := Flt.ofQ false (5 + 1 / 2 ^ 48)

/-- C87: the error of `C87_stays_in_the_destination` does occur: with the source from -1 to 38 and the destination
from -50 to 5 (in `f64`) the upper right corner is mapped outside of the destination. -/
theorem C87_corner_leaves_the_destination :
    let _ : Libm b64 := ⟨fun _ _ => .nan⟩
    (SimpleAffine.new ⟨some (ipt b64 (-1) (-1), ipt b64 38 38)⟩ ⟨some (ipt b64 (-50) (-50), ipt b64 5 5)⟩).bind
      (fun t => t.transformAb (ipt b64 38 38)) = some ⟨fiveUp, fiveUp⟩ ∧ (5 : ℚ) < fiveUp.val := by
  decide +kernel

/-- the double next to `-16`, below it -/
def sixteenDown : F64 := Flt.ofQ true (-16 - 1 / 2 ^ 48)

/-- C87: and so does the one of `C87_round_trip`: with the source from -16 to 39 and the destination from 13 to 36
the lower left corner is mapped to the lower left corner, but does not come back. -/
theorem C87_corner_does_not_come_back :
    let _ : Libm b64 := ⟨fun _ _ => .nan⟩
    (SimpleAffine.new ⟨some (ipt b64 (-16) (-16), ipt b64 39 39)⟩ ⟨some (ipt b64 13 13, ipt b64 36 36)⟩).bind
      (fun t => t.transformAb (ipt b64 (-16) (-16))) = some (ipt b64 13 13) ∧
    (SimpleAffine.new ⟨some (ipt b64 (-16) (-16), ipt b64 39 39)⟩ ⟨some (ipt b64 13 13, ipt b64 36 36)⟩).bind
      (fun t => t.transformBa (ipt b64 13 13)) = some ⟨sixteenDown, sixteenDown⟩ ∧ sixteenDown.val < (-16 : ℚ) := by
  decide +kernel

/-- `2^1023` -/
def huge64 : F64 := Flt.ofQ false (2 ^ 1023)

/-- C87: a source box whose size overflows gives a transform without an error, but it maps every point to the centre
of the destination, and no point but the centre back. -/
theorem C87_huge_box_collapses :
    let _ : Libm b64 := ⟨fun _ _ => .nan⟩
    ∃ t, SimpleAffine.new ⟨some (⟨huge64.neg, huge64.neg⟩, ⟨huge64, huge64⟩)⟩
        ⟨some (ipt b64 0 0, ipt b64 10 10)⟩ = some t ∧
      t.transformAb (ipt b64 38 7) = some (ipt b64 5 5) ∧ t.transformAb (ipt b64 (-4) 100) = some (ipt b64 5 5) ∧
      t.transformBa (ipt b64 6 6) = none := by
  refine ⟨_, rfl, by decide +kernel, by decide +kernel, by decide +kernel⟩

/-- the hypotheses of the theorems are met, in `f64` -/
example : OnGrid 0 (2 ^ 23) (ipt b64 (-1) (-1)) ∧ OnGrid 0 (2 ^ 23) (ipt b64 38 38) ∧
    OnGrid 0 (2 ^ 23) (ipt b64 (-50) (-50)) ∧ OnGrid 0 (2 ^ 23) (ipt b64 5 5) ∧
    (1 : ℚ) ≤ (ipt b64 5 5).x.val - (ipt b64 (-50) (-50)).x.val ∧
    (ipt b64 (-1) (-1)).x.val ≤ (ipt b64 38 38).x.val ∧ |(ipt b64 38 38).x.val| ≤ 2 * extent 0 (2 ^ 23) := by
  have g : ∀ {k : ℤ}, |k| ≤ 2 ^ 23 → OnGrid 0 (2 ^ 23) (ipt b64 k k) := fun h => (onGrid_ipt goodGrid64 h h).1
  have v : ∀ {k : ℤ}, |k| ≤ 2 ^ 23 → (ipt b64 k k).x.val = k := fun h =>
    congrArg V2.x (onGrid_ipt goodGrid64 h h).2
  refine ⟨g (by norm_num), g (by norm_num), g (by norm_num), g (by norm_num), ?_⟩
  rw [v (by norm_num), v (by norm_num), v (by norm_num), v (by norm_num)]
  norm_num [extent]

end Verif.Props
