import Verif.Props.FloatArc
import Verif.Props.FloatAffine
/-!
# C88: the points of a discretized arc in floating point
-/
set_option linter.unusedSectionVars false
set_option linter.unusedVariables false
namespace Verif.Props
open Verif Verif.Spec Verif.Model Fl Flt Verif.Proofs.FloatHull Verif.Proofs.FloatIntersect
variable {f : Fmt} [Libm f]

/-! ### How far the points are from the parabola -/

namespace ArcFlt

theorem fin_ofQ {s : Bool} {q : ℚ} (h : (Flt.ofQ s q : Flt f).isFin = true) : Is (Flt.ofQ s q : Flt f) (roundQ f q) := by
  by_cases h' : |roundQ f q| < pow2 f.emax
  · exact is_ofQ s h'
  · unfold Flt.ofQ at h
    rw [dif_neg h'] at h
    cases h

theorem fin_add {a b : Flt f} (h : (Flt.add a b).isFin = true) :
    a.isFin = true ∧ b.isFin = true ∧ Is (Flt.add a b) (roundQ f (a.val + b.val)) := by
  have key : a.isFin = true ∧ b.isFin = true := by
    match a, b, h with
    | .nan, _, h => cases h
    | .inf _, .nan, h => cases h
    | .zero _, .nan, h => cases h
    | .fin _ _, .nan, h => cases h
    | .inf true, .inf true, h => cases h
    | .inf true, .inf false, h => cases h
    | .inf false, .inf true, h => cases h
    | .inf false, .inf false, h => cases h
    | .inf _, .zero _, h => cases h
    | .inf _, .fin _ _, h => cases h
    | .zero _, .inf _, h => cases h
    | .fin _ _, .inf _, h => cases h
    | .zero _, .zero _, _ => exact ⟨rfl, rfl⟩
    | .zero _, .fin _ _, _ => exact ⟨rfl, rfl⟩
    | .fin _ _, .zero _, _ => exact ⟨rfl, rfl⟩
    | .fin _ _, .fin _ _, _ => exact ⟨rfl, rfl⟩
  refine ⟨key.1, key.2, ?_⟩
  obtain ⟨s, e⟩ := add_ofQ key.1 key.2
  rw [e] at h ⊢
  exact fin_ofQ h

theorem fin_sub {a b : Flt f} (h : (Flt.sub a b).isFin = true) :
    a.isFin = true ∧ b.isFin = true ∧ Is (Flt.sub a b) (roundQ f (a.val - b.val)) := by
  obtain ⟨h1, h2, h3⟩ := fin_add h
  have h4 : b.isFin = true := by cases b <;> exact h2
  have e : (Flt.neg b).val = -b.val := (is_neg (is_self h4)).2
  rw [e, ← sub_eq_add_neg] at h3
  exact ⟨h1, h4, h3⟩

theorem fin_mul {a b : Flt f} (h : (Flt.mul a b).isFin = true) :
    a.isFin = true ∧ b.isFin = true ∧ Is (Flt.mul a b) (roundQ f (a.val * b.val)) := by
  have key : a.isFin = true ∧ b.isFin = true := by
    match a, b, h with
    | .nan, _, h => cases h
    | .inf _, .nan, h => cases h
    | .zero _, .nan, h => cases h
    | .fin _ _, .nan, h => cases h
    | .inf _, .inf _, h => cases h
    | .inf _, .zero _, h => cases h
    | .inf _, .fin _ _, h => cases h
    | .zero _, .inf _, h => cases h
    | .fin _ _, .inf _, h => cases h
    | .zero _, .zero _, _ => exact ⟨rfl, rfl⟩
    | .zero _, .fin _ _, _ => exact ⟨rfl, rfl⟩
    | .fin _ _, .zero _, _ => exact ⟨rfl, rfl⟩
    | .fin _ _, .fin _ _, _ => exact ⟨rfl, rfl⟩
  refine ⟨key.1, key.2, ?_⟩
  have e := mul_ofQ key.1 key.2
  rw [e] at h ⊢
  exact fin_ofQ h

theorem fin_div {a b : Flt f} {y : ℚ} (hb : Is b y) (hy : y ≠ 0) (h : (Flt.div a b).isFin = true) :
    a.isFin = true ∧ Is (Flt.div a b) (roundQ f (a.val / y)) := by
  obtain ⟨b1, rfl⟩ := hb
  have key : a.isFin = true := by
    match a, b, h, b1, hy with
    | .nan, _, h, _, _ => cases h
    | .inf _, .nan, h, _, _ => cases h
    | .inf _, .inf _, h, _, _ => cases h
    | .inf _, .zero _, h, _, _ => cases h
    | .inf _, .fin _ _, h, _, _ => cases h
    | .zero _, _, _, _, _ => exact rfl
    | .fin _ _, _, _, _, _ => exact rfl
  refine ⟨key, ?_⟩
  have e := div_ofQ key b1 hy
  rw [e] at h ⊢
  exact fin_ofQ h

/-- five roundings: `((x - a)² + b²) / (2b)` -/
theorem par_err {u η D B d p r n y : ℚ} (hu0 : 0 ≤ u) (hu : u ≤ 1 / 32) (hη0 : 0 ≤ η) (hη : η ≤ u * (u * (B * B)))
    (h1 : |d - D| ≤ u * |D|) (h2 : |p - d * d| ≤ u * |d * d| + η) (h3 : |r - B * B| ≤ u * |B * B|)
    (h4 : |n - (p + r)| ≤ u * |p + r|) :
    |n - (D * D + B * B)| ≤ 43 / 10 * u * (D * D + B * B) ∧
    (|y - n / (B + B)| ≤ u * |n / (B + B)| → |y - (D * D + B * B) / (B + B)| ≤ 11 / 2 * u * |(D * D + B * B) / (B + B)|) := by
  have hD := mul_self_nonneg D
  have hBB := mul_self_nonneg B
  rw [abs_of_nonneg hBB] at h3
  rw [abs_of_nonneg (mul_self_nonneg d)] at h2
  -- d²
  have k1 : |d * d - D * D| ≤ 2 * (u * (D * D)) + u * (u * (D * D)) := by
    have e : d * d - D * D = 2 * (D * (d - D)) + (d - D) * (d - D) := by ring
    have a1 : |D * (d - D)| ≤ u * (D * D) := by
      rw [abs_mul]
      calc |D| * |d - D| ≤ |D| * (u * |D|) := mul_le_mul_of_nonneg_left h1 (abs_nonneg _)
        _ = u * (D * D) := by rw [← abs_mul_abs_self D]; ring
    have a2 : |(d - D) * (d - D)| ≤ u * (u * (D * D)) := by
      rw [abs_mul]
      calc |d - D| * |d - D| ≤ (u * |D|) * (u * |D|) :=
            mul_le_mul h1 h1 (abs_nonneg _) (mul_nonneg hu0 (abs_nonneg _))
        _ = _ := by rw [← abs_mul_abs_self D]; ring
    rw [e]
    have := abs_add_le (2 * (D * (d - D))) ((d - D) * (d - D))
    rw [abs_mul 2, abs_two] at this
    linarith
  obtain ⟨S, hS⟩ : ∃ S, S = D * D + B * B := ⟨_, rfl⟩
  have huD : 0 ≤ u * (D * D) := mul_nonneg hu0 hD
  have huB : 0 ≤ u * (B * B) := mul_nonneg hu0 hBB
  have huuD : u * (u * (D * D)) ≤ 1 / 32 * (u * (D * D)) := mul_le_mul_of_nonneg_right hu huD
  have huuB : u * (u * (B * B)) ≤ 1 / 32 * (u * (B * B)) := mul_le_mul_of_nonneg_right hu huB
  have k2 : d * d ≤ D * D + 33 / 16 * (u * (D * D)) := by
    have := (abs_le.1 k1).2
    linarith
  have k3 : u * (d * d) ≤ u * (D * D) + 33 / 16 * (u * (u * (D * D))) := by
    have := mul_le_mul_of_nonneg_left k2 hu0
    linarith
  have k4 : |p - D * D| ≤ 31 / 10 * (u * (D * D)) + η := by
    have e : p - D * D = (p - d * d) + (d * d - D * D) := by ring
    rw [e]
    have := abs_add_le (p - d * d) (d * d - D * D)
    linarith
  have huS : u * S = u * (D * D) + u * (B * B) := by rw [hS]; ring
  have hS0 : 0 ≤ S := by rw [hS]; linarith
  have k5 : |p + r - S| ≤ 315 / 100 * (u * S) := by
    have e : p + r - S = (p - D * D) + (r - B * B) := by rw [hS]; ring
    rw [e]
    have := abs_add_le (p - D * D) (r - B * B)
    linarith
  have k6 : |p + r| ≤ S + 315 / 100 * (u * S) := by
    have := abs_sub_abs_le_abs_sub (p + r) S
    rw [abs_of_nonneg hS0] at this
    linarith
  have huS0 : 0 ≤ u * S := mul_nonneg hu0 hS0
  have huuS : u * (u * S) ≤ 1 / 32 * (u * S) := mul_le_mul_of_nonneg_right hu huS0
  have k7 : |n - S| ≤ 43 / 10 * (u * S) := by
    have e : n - S = (n - (p + r)) + (p + r - S) := by ring
    rw [e]
    have := abs_add_le (n - (p + r)) (p + r - S)
    have h6 := mul_le_mul_of_nonneg_left k6 hu0
    linarith
  rw [← hS]
  refine ⟨by linarith, fun hy => ?_⟩
  obtain ⟨Y, hY⟩ : ∃ Y, Y = S / (B + B) := ⟨_, rfl⟩
  have k8 : |n / (B + B) - Y| ≤ 43 / 10 * (u * |Y|) := by
    rw [hY, ← sub_div, abs_div, abs_div, abs_of_nonneg hS0]
    have e : 43 / 10 * (u * (S / |B + B|)) = 43 / 10 * (u * S) / |B + B| := by ring
    rw [e]
    exact div_le_div_of_nonneg_right k7 (abs_nonneg _)
  have hY0 : 0 ≤ u * |Y| := mul_nonneg hu0 (abs_nonneg _)
  have huuY : u * (u * |Y|) ≤ 1 / 32 * (u * |Y|) := mul_le_mul_of_nonneg_right hu hY0
  have k9 : |n / (B + B)| ≤ |Y| + 43 / 10 * (u * |Y|) := by
    have := abs_sub_abs_le_abs_sub (n / (B + B)) Y
    linarith
  rw [← hY]
  have e : y - Y = (y - n / (B + B)) + (n / (B + B) - Y) := by ring
  rw [e]
  have := abs_add_le (y - n / (B + B)) (n / (B + B) - Y)
  have h6 := mul_le_mul_of_nonneg_left k9 hu0
  linarith

/-- the product with a number that has an error -/
theorem prod_err {u η S Y y m : ℚ} (hu0 : 0 ≤ u) (hu : u ≤ 1 / 32)
    (hy : |y - Y| ≤ 11 / 2 * u * |Y|) (hm : |m - S * y| ≤ u * |S * y| + η) :
    |m - S * Y| ≤ 67 / 10 * (u * |S * Y|) + η := by
  have k1 : |S * y - S * Y| ≤ 11 / 2 * (u * |S * Y|) := by
    rw [← mul_sub, abs_mul, abs_mul S Y]
    calc |S| * |y - Y| ≤ |S| * (11 / 2 * u * |Y|) := mul_le_mul_of_nonneg_left hy (abs_nonneg _)
      _ = _ := by ring
  obtain ⟨T, hT⟩ : ∃ T, T = |S * Y| := ⟨_, rfl⟩
  rw [← hT] at k1 ⊢
  have hT0 : 0 ≤ T := by rw [hT]; exact abs_nonneg _
  have huT : 0 ≤ u * T := mul_nonneg hu0 hT0
  have huuT : u * (u * T) ≤ 1 / 32 * (u * T) := mul_le_mul_of_nonneg_right hu huT
  have k2 : |S * y| ≤ T + 11 / 2 * (u * T) := by
    have := abs_sub_abs_le_abs_sub (S * y) (S * Y)
    rw [← hT] at this
    linarith
  have k3 := mul_le_mul_of_nonneg_left k2 hu0
  have e : m - S * Y = (m - S * y) + (S * y - S * Y) := by ring
  rw [e]
  have := abs_add_le (m - S * y) (S * y - S * Y)
  linarith

/-- the sum, the quotient and the translation -/
theorem point_err {u η A1 A2 a1 a2 N t w c v D : ℚ} (hu0 : 0 ≤ u) (hu : u ≤ 1 / 32) (hη : 0 ≤ η) (hN : 0 < N)
    (h1 : |a1 - A1| ≤ 67 / 10 * (u * |A1|) + η) (h2 : |a2 - A2| ≤ 67 / 10 * (u * |A2|) + η)
    (ht : |t - (a1 + a2)| ≤ u * |a1 + a2|) (hw : |w - t / N| ≤ u * |t / N| + η)
    (hv : |v - (w + c)| ≤ u * |w + c|) (hD : |A1| + |A2| ≤ N * D) (hH : 3 * (η / N) + 2 * η ≤ 1 / 2 * (u * D)) :
    |v - ((A1 + A2) / N + c)| ≤ u * (10 * D + |(A1 + A2) / N + c|) := by
  have n1 := abs_nonneg A1
  have n2 := abs_nonneg A2
  obtain ⟨T, hT⟩ : ∃ T, T = |A1| + |A2| := ⟨_, rfl⟩
  have hT0 : 0 ≤ T := by rw [hT]; linarith
  have huT : 0 ≤ u * T := mul_nonneg hu0 hT0
  have huuT : u * (u * T) ≤ 1 / 32 * (u * T) := mul_le_mul_of_nonneg_right hu huT
  have huη : u * η ≤ 1 / 32 * η := mul_le_mul_of_nonneg_right hu hη
  have eT : u * T = u * |A1| + u * |A2| := by rw [hT]; ring
  have k1 : |a1 + a2 - (A1 + A2)| ≤ 67 / 10 * (u * T) + 2 * η := by
    have e : a1 + a2 - (A1 + A2) = (a1 - A1) + (a2 - A2) := by ring
    rw [e]
    have := abs_add_le (a1 - A1) (a2 - A2)
    linarith
  have k0 : |A1 + A2| ≤ T := by rw [hT]; exact abs_add_le _ _
  have k2 : |a1 + a2| ≤ T + (67 / 10 * (u * T) + 2 * η) := by
    have := abs_sub_abs_le_abs_sub (a1 + a2) (A1 + A2)
    linarith
  have k3 := mul_le_mul_of_nonneg_left k2 hu0
  have k4 : |t - (A1 + A2)| ≤ 792 / 100 * (u * T) + 21 / 10 * η := by
    have e : t - (A1 + A2) = (t - (a1 + a2)) + (a1 + a2 - (A1 + A2)) := by ring
    rw [e]
    have := abs_add_le (t - (a1 + a2)) (a1 + a2 - (A1 + A2))
    linarith
  obtain ⟨Z, hZ⟩ : ∃ Z, Z = (A1 + A2) / N := ⟨_, rfl⟩
  obtain ⟨ρ, hρ⟩ : ∃ ρ, ρ = η / N := ⟨_, rfl⟩
  have hρ0 : 0 ≤ ρ := by rw [hρ]; exact div_nonneg hη hN.le
  have huρ : u * ρ ≤ 1 / 32 * ρ := mul_le_mul_of_nonneg_right hu hρ0
  have hTD : T / N ≤ D := by rw [div_le_iff₀ hN, mul_comm]; rw [← hT] at hD; exact hD
  have huTD : u * (T / N) ≤ u * D := mul_le_mul_of_nonneg_left hTD hu0
  have k5 : |t / N - Z| ≤ 792 / 100 * (u * D) + 21 / 10 * ρ := by
    rw [hZ, ← sub_div, abs_div, abs_of_pos hN]
    have := div_le_div_of_nonneg_right k4 hN.le
    have e : (792 / 100 * (u * T) + 21 / 10 * η) / N = 792 / 100 * (u * (T / N)) + 21 / 10 * ρ := by rw [hρ]; ring
    rw [e] at this
    linarith
  have hD0 : 0 ≤ D := (div_nonneg hT0 hN.le).trans hTD
  have huD : 0 ≤ u * D := mul_nonneg hu0 hD0
  have huuD : u * (u * D) ≤ 1 / 32 * (u * D) := mul_le_mul_of_nonneg_right hu huD
  have k6 : |Z| ≤ D := by
    rw [hZ, abs_div, abs_of_pos hN]
    exact (div_le_div_of_nonneg_right k0 hN.le).trans hTD
  have k7 : |t / N| ≤ D + (792 / 100 * (u * D) + 21 / 10 * ρ) := by
    have := abs_sub_abs_le_abs_sub (t / N) Z
    linarith
  have k8 := mul_le_mul_of_nonneg_left k7 hu0
  have k9 : |w - Z| ≤ 917 / 100 * (u * D) + 22 / 10 * ρ + η := by
    have e : w - Z = (w - t / N) + (t / N - Z) := by ring
    rw [e]
    have := abs_add_le (w - t / N) (t / N - Z)
    linarith
  rw [← hZ]
  rw [← hρ] at hH
  have k10 : |w + c| ≤ |Z + c| + (917 / 100 * (u * D) + 22 / 10 * ρ + η) := by
    have e : w + c = (Z + c) + (w - Z) := by ring
    rw [e]
    have := abs_add_le (Z + c) (w - Z)
    linarith
  have k11 := mul_le_mul_of_nonneg_left k10 hu0
  have e : v - (Z + c) = (v - (w + c)) + (w - Z) := by ring
  rw [e]
  have := abs_add_le (v - (w + c)) (w - Z)
  linarith

end ArcFlt

namespace ArcFlt

/-- the exact counterpart of an arc -/
def exactArc (a : Arc (Flt f)) : Arc ℚ :=
  ⟨⟨exact a.segment.start, exact a.segment.end⟩, exact a.cellPoint, exact a.startPoint, exact a.endPoint⟩

/-- the weights of the two coordinates -/
theorem weight {Sx Sy dx dy : ℚ} :
    |Sx * (Sx * dx + Sy * dy)| + |Sy * (Sx * dy - Sy * dx)| ≤ (Sx * Sx + Sy * Sy) * (|dx| + |dy|) ∧
    |Sx * (Sx * dy - Sy * dx)| + |Sy * (Sx * dx + Sy * dy)| ≤ (Sx * Sx + Sy * Sy) * (|dx| + |dy|) := by
  obtain ⟨X, hX⟩ : ∃ X, X = |Sx| := ⟨_, rfl⟩
  obtain ⟨Y, hY⟩ : ∃ Y, Y = |Sy| := ⟨_, rfl⟩
  obtain ⟨p, hp⟩ : ∃ p, p = |dx| := ⟨_, rfl⟩
  obtain ⟨q, hq⟩ : ∃ q, q = |dy| := ⟨_, rfl⟩
  have e1 : Sx * Sx = X * X := by rw [hX, abs_mul_abs_self]
  have e2 : Sy * Sy = Y * Y := by rw [hY, abs_mul_abs_self]
  have hp0 : 0 ≤ p := by rw [hp]; exact abs_nonneg _
  have hq0 : 0 ≤ q := by rw [hq]; exact abs_nonneg _
  have hX0 : 0 ≤ X := by rw [hX]; exact abs_nonneg _
  have hY0 : 0 ≤ Y := by rw [hY]; exact abs_nonneg _
  have a1 : |Sx * dx + Sy * dy| ≤ X * p + Y * q := by
    have := abs_add_le (Sx * dx) (Sy * dy)
    rw [abs_mul, abs_mul] at this
    rwa [hX, hY, hp, hq]
  have a2 : |Sx * dy - Sy * dx| ≤ X * q + Y * p := by
    have := abs_sub (Sx * dy) (Sy * dx)
    rw [abs_mul, abs_mul] at this
    rwa [hX, hY, hp, hq]
  rw [e1, e2, ← hp, ← hq, abs_mul, abs_mul, abs_mul, abs_mul, ← hX, ← hY]
  have b1 := mul_le_mul_of_nonneg_left a1 hX0
  have b2 := mul_le_mul_of_nonneg_left a2 hY0
  have b3 := mul_le_mul_of_nonneg_left a2 hX0
  have b4 := mul_le_mul_of_nonneg_left a1 hY0
  have c1 : 0 ≤ q * ((X - Y) * (X - Y)) := mul_nonneg hq0 (mul_self_nonneg _)
  have c2 : 0 ≤ p * ((X - Y) * (X - Y)) := mul_nonneg hp0 (mul_self_nonneg _)
  constructor <;> nlinarith

/-- the equations for the two coordinates -/
theorem solve {Sx Sy N X Y dx dy : ℚ} (h0 : N ≠ 0) (hN : N = Sx * Sx + Sy * Sy) (hx : dx = (Sx * X - Sy * Y) / N)
    (hy : dy = (Sx * Y + Sy * X) / N) : X = Sx * dx + Sy * dy ∧ Y = Sx * dy - Sy * dx := by
  have h1 : dx * N = Sx * X - Sy * Y := by rw [hx]; exact div_mul_cancel₀ _ h0
  have h2 : dy * N = Sx * Y + Sy * X := by rw [hy]; exact div_mul_cancel₀ _ h0
  constructor
  · apply mul_right_cancel₀ h0; linear_combination X * hN - Sx * h1 - Sy * h2
  · apply mul_right_cancel₀ h0; linear_combination Y * hN - Sx * h2 + Sy * h1

/-- the numbers of an arc on the grid -/
structure Nums (a : Arc (Flt f)) (d : Flt f) (s : ℤ) : Prop where
  sx : Is (a.const d).segX (a.segment.end.x.val - a.segment.start.x.val)
  sy : Is (a.const d).segY (a.segment.end.y.val - a.segment.start.y.val)
  sqr : Is (a.const d).sqr (sqDist2 (exact a.segment.end) (exact a.segment.start))
  rotX : Is (a.const d).rotX (along (exact a.segment.start) (exact a.segment.end) (exact a.cellPoint))
  rotY : Is (a.const d).rotY (orient (exact a.segment.start) (exact a.segment.end) (exact a.cellPoint))
  two : Is (Flt.add (a.const d).rotY (a.const d).rotY)
    (orient (exact a.segment.start) (exact a.segment.end) (exact a.cellPoint) +
      orient (exact a.segment.start) (exact a.segment.end) (exact a.cellPoint))
  lo : orient (exact a.segment.start) (exact a.segment.end) (exact a.cellPoint) ≠ 0 →
    pow2 (s + s) ≤ |orient (exact a.segment.start) (exact a.segment.end) (exact a.cellPoint)|
  lo' : 0 < sqDist2 (exact a.segment.end) (exact a.segment.start) →
    pow2 (s + s) ≤ sqDist2 (exact a.segment.end) (exact a.segment.start)
  hi : |a.segment.end.x.val - a.segment.start.x.val| + |a.segment.end.y.val - a.segment.start.y.val| ≤
    pow2 (f.prec - 2 + s)
  startx : a.segment.start.x.isFin = true
  starty : a.segment.start.y.isFin = true

theorem nums {s B : ℤ} (G : GoodGrid f s B) (hB : 1 ≤ B) (a : Arc (Flt f)) (d : Flt f)
    (h1 : OnGrid s B a.segment.start) (h2 : OnGrid s B a.segment.end) (h3 : OnGrid s B a.cellPoint) :
    Nums a d s := by
  obtain ⟨n, -, n1, n2, n3⟩ := const_exact G hB h1 h2 h2
  obtain ⟨m, -, m1, m2, m3⟩ := const_exact G hB h1 h2 h3
  obtain ⟨r, r1, r2, r3⟩ := cross_exact G h1 h2 h3
  obtain ⟨k1, l1, a1, a2, a3, a4⟩ := OnGrid.coords h1
  obtain ⟨k2, l2, b1, b2, b3, b4⟩ := OnGrid.coords h2
  obtain ⟨d1, e1⟩ := grid_diff G b1 a1 b3 a3
  obtain ⟨d2, e2⟩ := grid_diff G b2 a2 b4 a4
  have hx : a.segment.end.x.val - a.segment.start.x.val = ((k2 - k1 : ℤ) : ℚ) * pow2 s := by
    rw [b1.2, a1.2]; push_cast; ring
  have hy : a.segment.end.y.val - a.segment.start.y.val = ((l2 - l1 : ℤ) : ℚ) * pow2 s := by
    rw [b2.2, a2.2]; push_cast; ring
  have hn : (n : ℚ) * pow2 (s + s) = sqDist2 (exact a.segment.end) (exact a.segment.start) := by
    rw [n2]; unfold sqDist2 exact; ring
  have hm : (m : ℚ) * pow2 (s + s) = along (exact a.segment.start) (exact a.segment.end) (exact a.cellPoint) := by
    rw [m2]; rfl
  have big : ∀ z : ℤ, z ≠ 0 → pow2 (s + s) ≤ |(z : ℚ) * pow2 (s + s)| := by
    intro z hz
    rw [abs_mul, abs_of_pos (pow2_pos (s + s))]
    have : (1 : ℚ) ≤ |(z : ℚ)| := by exact_mod_cast Int.one_le_abs hz
    nlinarith [pow2_pos (s + s)]
  have hsm := G.small
  have hps := pow_split f
  have hBB : B ≤ B * B := by nlinarith
  refine ⟨?_, ?_, ?_, ?_, ?_, ?_, ?_, ?_, ?_, a1.1, a2.1⟩
  · rw [hx]; exact d1
  · rw [hy]; exact d2
  · rw [← hn]; exact n1
  · rw [← hm]; exact m1
  · rw [r2]; exact r1
  · have r1' : Is (a.const d).rotY (r * pow2 (s + s)) := r1
    have hr : |r + r| ≤ 2 ^ f.prec := by
      have h : |r + r| ≤ |r| + |r| := abs_add_le r r
      omega
    have := grid_add (GoodGrid.unit2 G) r1' r1' hr
    rw [r2]
    have e : (r : ℚ) * pow2 (s + s) + r * pow2 (s + s) = ((r + r : ℤ) : ℚ) * pow2 (s + s) := by push_cast; ring
    rw [e]
    exact this
  · intro h
    rw [r2] at h ⊢
    exact big r (by rintro rfl; exact h (by simp))
  · intro h
    rw [← hn] at h ⊢
    have := big n (by rintro rfl; simp at h)
    rwa [abs_of_pos h] at this
  · rw [hx, hy, abs_mul, abs_mul, abs_of_pos (pow2_pos s), ← add_mul, pow2_add]
    refine mul_le_mul_of_nonneg_right ?_ (pow2_pos s).le
    have h : |k2 - k1| + |l2 - l1| ≤ 2 * 2 ^ (f.prec - 3) := by linarith
    have e : pow2 ((f.prec : ℤ) - 2) = ((2 * 2 ^ (f.prec - 3) : ℤ) : ℚ) := by
      have := f.hprec
      rw [show (f.prec : ℤ) - 2 = ((f.prec - 3 + 1 : ℕ) : ℤ) by omega, pow2_nat]
      push_cast
      rw [pow_succ]; ring
    rw [e]
    exact_mod_cast h

/-- a rounded product of floats -/
theorem prod_rel {u η x y : ℚ} (hu : u = pow2 (-f.prec)) (hη : η = pow2 (f.emin - 1)) :
    |roundQ f (x * y) - x * y| ≤ u * |x * y| + η := by
  rw [hu, hη]; exact roundQ_rel f _

theorem prec_u (f : Fmt) : pow2 (-f.prec) ≤ 1 / 32 := by
  have : pow2 (-(f.prec : ℤ)) ≤ pow2 (-5) := pow2_le (by have := f.hprec; omega)
  rw [pow2_eq (-5)] at this
  norm_num at this ⊢
  exact this

/-- one point of the arc -/
theorem near_point {s : ℤ} (hs : 2 - (f.prec : ℤ) ≤ 2 * s) (hf : f.emin + 5 * f.prec ≤ 0) (a : Arc (Flt f)) (d x : Flt f)
    (M : Nums a d s) (hb : orient (exact a.segment.start) (exact a.segment.end) (exact a.cellPoint) ≠ 0)
    (hqx : (a.interPoint (a.const d) x (Arc.parabolaY x (a.const d).rotX (a.const d).rotY)).x.isFin = true)
    (hqy : (a.interPoint (a.const d) x (Arc.parabolaY x (a.const d).rotX (a.const d).rotY)).y.isFin = true) :
    ∃ P : V2 ℚ, Equidistant (exact a.segment.start) (exact a.segment.end) (exact a.cellPoint) P ∧
      along (exact a.segment.start) (exact a.segment.end) P = x.val ∧
      |(a.interPoint (a.const d) x (Arc.parabolaY x (a.const d).rotX (a.const d).rotY)).x.val - P.x| ≤
        pow2 (-f.prec) * (10 * (|P.x - a.segment.start.x.val| + |P.y - a.segment.start.y.val|) + |P.x|) ∧
      |(a.interPoint (a.const d) x (Arc.parabolaY x (a.const d).rotX (a.const d).rotY)).y.val - P.y| ≤
        pow2 (-f.prec) * (10 * (|P.x - a.segment.start.x.val| + |P.y - a.segment.start.y.val|) + |P.y|) := by
  have hu := prec_u f
  obtain ⟨u, hue⟩ : ∃ u, u = pow2 (-f.prec) := ⟨_, rfl⟩
  obtain ⟨η, hηe⟩ : ∃ η, η = pow2 (f.emin - 1) := ⟨_, rfl⟩
  have hu0 : 0 ≤ u := by rw [hue]; exact (pow2_pos _).le
  have hη0 : 0 ≤ η := by rw [hηe]; exact (pow2_pos _).le
  rw [← hue] at hu
  obtain ⟨msx, msy, msq, mrx, mry, mtwo, mlo, mlo', mhi, mstx, msty⟩ := M
  have hN := sqDist_pos_of_cell _ _ _ hb
  have mlo := mlo hb
  have mlo' := mlo' hN
  -- the computation
  generalize hc : a.const d = c at *
  have fx : (Flt.add (Flt.div (Flt.sub (Flt.mul c.segX x) (Flt.mul c.segY (parF x c.rotX c.rotY))) c.sqr)
    a.segment.start.x).isFin = true := hqx
  have fy : (Flt.add (Flt.div (Flt.add (Flt.mul c.segX (parF x c.rotX c.rotY)) (Flt.mul c.segY x)) c.sqr)
    a.segment.start.y).isFin = true := hqy
  have gx : (a.interPoint c x (Arc.parabolaY x c.rotX c.rotY)).x =
    Flt.add (Flt.div (Flt.sub (Flt.mul c.segX x) (Flt.mul c.segY (parF x c.rotX c.rotY))) c.sqr)
    a.segment.start.x := rfl
  have gy : (a.interPoint c x (Arc.parabolaY x c.rotX c.rotY)).y =
    Flt.add (Flt.div (Flt.add (Flt.mul c.segX (parF x c.rotX c.rotY)) (Flt.mul c.segY x)) c.sqr)
    a.segment.start.y := rfl
  rw [gx, gy]
  clear hqx hqy gx gy
  obtain ⟨fx1, -, vx⟩ := fin_add fx
  obtain ⟨fx2, wx⟩ := fin_div msq hN.ne' fx1
  obtain ⟨fx3, fx4, tx⟩ := fin_sub fx2
  obtain ⟨-, fX, px1⟩ := fin_mul fx3
  obtain ⟨-, fY, px2⟩ := fin_mul fx4
  obtain ⟨fy1, -, vy⟩ := fin_add fy
  obtain ⟨fy2, wy⟩ := fin_div msq hN.ne' fy1
  obtain ⟨fy3, fy4, ty⟩ := fin_add fy2
  obtain ⟨-, -, py1⟩ := fin_mul fy3
  obtain ⟨-, -, py2⟩ := fin_mul fy4
  have hbb : orient (exact a.segment.start) (exact a.segment.end) (exact a.cellPoint) +
      orient (exact a.segment.start) (exact a.segment.end) (exact a.cellPoint) ≠ 0 := by
    rw [← two_mul]; exact mul_ne_zero two_ne_zero hb
  have fY' : (Flt.div (Flt.add (Flt.mul (Flt.sub x c.rotX) (Flt.sub x c.rotX)) (Flt.mul c.rotY c.rotY))
    (Flt.add c.rotY c.rotY)).isFin = true := fY
  have eY : parF x c.rotX c.rotY = Flt.div (Flt.add (Flt.mul (Flt.sub x c.rotX) (Flt.sub x c.rotX)) (Flt.mul c.rotY c.rotY))
    (Flt.add c.rotY c.rotY) := rfl
  obtain ⟨fn, yv⟩ := fin_div mtwo hbb fY'
  rw [← eY] at yv
  obtain ⟨fp, fr, nv⟩ := fin_add fn
  obtain ⟨fd, -, pv⟩ := fin_mul fp
  obtain ⟨-, -, rv⟩ := fin_mul fr
  obtain ⟨-, -, dv⟩ := fin_sub fd
  -- the errors
  have rd := AffineFlt.round_add_rel (is_repr (is_self fX)) (is_repr (is_neg mrx))
  rw [← sub_eq_add_neg, ← hue] at rd
  rw [mrx.2] at dv
  have rp := prod_rel (x := (Flt.sub x c.rotX).val) (y := (Flt.sub x c.rotX).val) hue hηe
  rw [← pv.2, dv.2] at rp
  obtain ⟨A, hA⟩ : ∃ A, A = along (exact a.segment.start) (exact a.segment.end) (exact a.cellPoint) := ⟨_, rfl⟩
  obtain ⟨Bo, hBo⟩ : ∃ Bo, Bo = orient (exact a.segment.start) (exact a.segment.end) (exact a.cellPoint) := ⟨_, rfl⟩
  obtain ⟨N, hNe⟩ : ∃ N, N = sqDist2 (exact a.segment.end) (exact a.segment.start) := ⟨_, rfl⟩
  obtain ⟨Sx, hSx⟩ : ∃ Sx, Sx = a.segment.end.x.val - a.segment.start.x.val := ⟨_, rfl⟩
  obtain ⟨Sy, hSy⟩ : ∃ Sy, Sy = a.segment.end.y.val - a.segment.start.y.val := ⟨_, rfl⟩
  have hNS : N = Sx * Sx + Sy * Sy := by rw [hNe, hSx, hSy]; unfold sqDist2 exact; ring
  rw [← hA] at dv mrx rd rp
  rw [← hBo] at hb mry mtwo hbb yv mlo
  rw [← hNe] at hN msq wx wy mlo'
  rw [← hSx] at msx mhi
  rw [← hSy] at msy mhi
  have hlow : pow2 (s + s) * pow2 (s + s) ≤ Bo * Bo := by
    rw [← abs_mul_abs_self Bo]
    exact mul_le_mul mlo mlo (pow2_pos _).le (abs_nonneg _)
  have rr : |roundQ f (Bo * Bo) - Bo * Bo| ≤ u * |Bo * Bo| := by
    rw [hue]
    apply roundQ_rel_normal
    rw [abs_of_nonneg (mul_self_nonneg Bo)]
    refine le_trans ?_ hlow
    rw [← pow2_add]
    exact pow2_le (by omega)
  rw [mry.2] at rv
  rw [← rv.2] at rr
  have rn := AffineFlt.round_add_rel (is_repr pv) (is_repr rv)
  rw [← pv.2, ← rv.2, ← hue, ← nv.2] at rn
  have hηB : η ≤ u * (u * (Bo * Bo)) := by
    have h1 : η ≤ pow2 (-f.prec) * (pow2 (-f.prec) * (pow2 (s + s) * pow2 (s + s))) := by
      rw [hηe, ← pow2_add, ← pow2_add, ← pow2_add]
      exact pow2_le (by omega)
    rw [← hue] at h1
    refine h1.trans ?_
    exact mul_le_mul_of_nonneg_left (mul_le_mul_of_nonneg_left hlow hu0) hu0
  rw [← dv.2] at rd rp
  obtain ⟨ne, ye⟩ := par_err (y := (parF x c.rotX c.rotY).val) hu0 hu hη0 hηB rd rp rr rn
  obtain ⟨X, hX⟩ : ∃ X, X = x.val := ⟨_, rfl⟩
  rw [← hX] at ne ye px1 py2
  have hDD := mul_self_nonneg (X - A)
  have hBB := mul_self_nonneg Bo
  obtain ⟨S, hS⟩ : ∃ S, S = (X - A) * (X - A) + Bo * Bo := ⟨_, rfl⟩
  rw [← hS] at ne ye
  have hSB : Bo * Bo ≤ S := by rw [hS]; linarith
  have hS0 : 0 ≤ S := by linarith
  have hn : 1 / 2 * S ≤ (((x.sub c.rotX).mul (x.sub c.rotX)).add (c.rotY.mul c.rotY)).val := by
    have h1 := (abs_le.1 ne).1
    have h2 : u * S ≤ 1 / 32 * S := mul_le_mul_of_nonneg_right hu hS0
    linarith
  have hbpos : 0 < |Bo| := abs_pos.2 hb
  have e2b : |Bo + Bo| = 2 * |Bo| := by rw [← two_mul, abs_mul, abs_two]
  have quot : ∀ z : ℚ, 1 / 2 * S ≤ z → 1 / 4 * |Bo| ≤ |z / (Bo + Bo)| := by
    intro z hz
    rw [abs_div, e2b, le_div_iff₀ (by linarith)]
    have h1 : |Bo| * |Bo| = Bo * Bo := abs_mul_abs_self Bo
    have h2 := le_abs_self z
    nlinarith
  have ry : |roundQ f ((((x.sub c.rotX).mul (x.sub c.rotX)).add (c.rotY.mul c.rotY)).val / (Bo + Bo)) -
      (((x.sub c.rotX).mul (x.sub c.rotX)).add (c.rotY.mul c.rotY)).val / (Bo + Bo)| ≤
      u * |(((x.sub c.rotX).mul (x.sub c.rotX)).add (c.rotY.mul c.rotY)).val / (Bo + Bo)| := by
    rw [hue]
    apply roundQ_rel_normal
    refine le_trans ?_ (quot _ hn)
    have h1 : pow2 (f.emin + f.prec - 1) ≤ pow2 (-2) * pow2 (s + s) := by
      rw [← pow2_add]; exact pow2_le (by omega)
    have h2 : pow2 (-2) = 1 / 4 := by rw [pow2_eq]; norm_num
    rw [h2] at h1
    linarith
  rw [← yv.2] at ry
  have ye := ye ry
  obtain ⟨Y, hY⟩ : ∃ Y, Y = S / (Bo + Bo) := ⟨_, rfl⟩
  rw [← hY] at ye
  have hYlow : 1 / 4 * |Bo| ≤ |Y| := by rw [hY]; exact quot S (by linarith)
  -- the exact point
  obtain ⟨dx, hdx⟩ : ∃ dx, dx = (Sx * X - Sy * Y) / N := ⟨_, rfl⟩
  obtain ⟨dy, hdy⟩ : ∃ dy, dy = (Sx * Y + Sy * X) / N := ⟨_, rfl⟩
  obtain ⟨hXd, hYd⟩ := solve hN.ne' hNS hdx hdy
  have al : ∀ P : V2 ℚ, P.x = dx + a.segment.start.x.val → P.y = dy + a.segment.start.y.val →
      along (exact a.segment.start) (exact a.segment.end) P = X ∧
      orient (exact a.segment.start) (exact a.segment.end) P = Y := by
    intro P h1 h2
    unfold along orient exact
    simp only [h1, h2]
    rw [← hSx, ← hSy, hXd, hYd]
    constructor <;> ring
  obtain ⟨w1, w2⟩ := weight (Sx := Sx) (Sy := Sy) (dx := dx) (dy := dy)
  rw [← hXd, ← hYd, ← hNS] at w1 w2
  -- the smallest numbers
  have hD : |Y| ≤ (|Sx| + |Sy|) * (|dx| + |dy|) := by
    have h1 : |Y| ≤ |Sx| * |dy| + |Sy| * |dx| := by
      rw [hYd, ← abs_mul, ← abs_mul]; exact abs_sub _ _
    have h2 := mul_nonneg (abs_nonneg Sx) (abs_nonneg dx)
    have h3 := mul_nonneg (abs_nonneg Sy) (abs_nonneg dy)
    linarith
  obtain ⟨D, hDe⟩ : ∃ D, D = |dx| + |dy| := ⟨_, rfl⟩
  have hD0 : 0 ≤ D := by rw [hDe]; positivity
  rw [← hDe] at hD w1 w2
  have hDlow : pow2 (s - f.prec) ≤ D := by
    have h1 : pow2 (-2) * pow2 (s + s) ≤ pow2 (f.prec - 2 + s) * D := by
      have h2 : pow2 (-2) = 1 / 4 := by rw [pow2_eq]; norm_num
      have h3 := mul_le_mul_of_nonneg_right mhi hD0
      rw [h2]
      linarith
    have h4 : pow2 (-2) * pow2 (s + s) = pow2 (f.prec - 2 + s) * pow2 (s - f.prec) := by
      rw [← pow2_add, ← pow2_add]; congr 1; ring
    rw [h4] at h1
    exact le_of_mul_le_mul_left h1 (pow2_pos _)
  have hH : 3 * (η / N) + 2 * η ≤ 1 / 2 * (u * D) := by
    have h1 : u * pow2 (s - f.prec) ≤ u * D := mul_le_mul_of_nonneg_left hDlow hu0
    have h2 : η / N ≤ pow2 (f.emin - 1 - (s + s)) := by
      rw [div_le_iff₀ hN, hηe]
      have h3 : pow2 (f.emin - 1) = pow2 (f.emin - 1 - (s + s)) * pow2 (s + s) := by
        rw [← pow2_add]; congr 1; ring
      rw [h3]
      exact mul_le_mul_of_nonneg_left mlo' (pow2_pos _).le
    have h4 : pow2 (f.emin - 1 - (s + s)) ≤ pow2 (-4) * (pow2 (-f.prec) * pow2 (s - f.prec)) := by
      rw [← pow2_add, ← pow2_add]; exact pow2_le (by omega)
    have h5 : η ≤ pow2 (-4) * (pow2 (-f.prec) * pow2 (s - f.prec)) := by
      rw [hηe, ← pow2_add, ← pow2_add]; exact pow2_le (by have := f.hprec; omega)
    have h6 : pow2 (-4) = 1 / 16 := by rw [pow2_eq]; norm_num
    rw [h6, ← hue] at h4 h5
    linarith
  -- the coordinates
  have rx1 := prod_rel (x := Sx) (y := X) hue hηe
  have rx2 := prod_rel (x := Sy) (y := (parF x c.rotX c.rotY).val) hue hηe
  have ry1 := prod_rel (x := Sx) (y := (parF x c.rotX c.rotY).val) hue hηe
  have ry2 := prod_rel (x := Sy) (y := X) hue hηe
  rw [msx.2] at px1 py1
  rw [msy.2] at px2 py2
  rw [← px1.2] at rx1
  rw [← px2.2] at rx2
  rw [← py1.2] at ry1
  rw [← py2.2] at ry2
  have sx2 := prod_err hu0 hu ye rx2
  have sy1 := prod_err hu0 hu ye ry1
  have weak : ∀ {m E : ℚ}, |m - E| ≤ u * |E| + η → |m - E| ≤ 67 / 10 * (u * |E|) + η := by
    intro m E h
    have := mul_nonneg hu0 (abs_nonneg E)
    linarith
  have tx1 := AffineFlt.round_add_rel (is_repr px1) (is_repr (is_neg px2))
  rw [← px1.2, ← px2.2, ← sub_eq_add_neg, ← tx.2, ← hue] at tx1
  have ty1 := AffineFlt.round_add_rel (is_repr py1) (is_repr py2)
  rw [← py1.2, ← py2.2, ← ty.2, ← hue] at ty1
  have wx1 := roundQ_rel f (((c.segX.mul x).sub (c.segY.mul (parF x c.rotX c.rotY))).val / N)
  rw [← wx.2, ← hue, ← hηe] at wx1
  have wy1 := roundQ_rel f (((c.segX.mul (parF x c.rotX c.rotY)).add (c.segY.mul x)).val / N)
  rw [← wy.2, ← hue, ← hηe] at wy1
  have vx1 := AffineFlt.round_add_rel (is_repr wx) (is_repr (is_self mstx))
  rw [← wx.2, ← vx.2, ← hue] at vx1
  have vy1 := AffineFlt.round_add_rel (is_repr wy) (is_repr (is_self msty))
  rw [← wy.2, ← vy.2, ← hue] at vy1
  have fx := point_err (A1 := Sx * X) (A2 := -(Sy * Y)) (a2 := -(c.segY.mul (parF x c.rotX c.rotY)).val) (D := D) hu0 hu hη0 hN
    (weak rx1) (by rw [abs_neg, neg_sub_neg, abs_sub_comm]; exact sx2) (by rw [← sub_eq_add_neg]; exact tx1) wx1 vx1
    (by rw [abs_neg]; exact w1) hH
  have fy := point_err (A1 := Sx * Y) (A2 := Sy * X) (D := D) hu0 hu hη0 hN sy1 (weak ry2) ty1 wy1 vy1 w2 hH
  rw [← sub_eq_add_neg, ← hdx] at fx
  rw [← hdy] at fy
  obtain ⟨p1, p2⟩ := al ⟨dx + a.segment.start.x.val, dy + a.segment.start.y.val⟩ rfl rfl
  refine ⟨⟨dx + a.segment.start.x.val, dy + a.segment.start.y.val⟩, ?_, ?_, ?_, ?_⟩
  · have key := equidistant_coords (exactArc a) ⟨dx + a.segment.start.x.val, dy + a.segment.start.y.val⟩
      (hN.trans_eq hNe) (by rw [hBo] at hb; exact hb)
    refine key.2 ?_
    show orient (exact a.segment.start) (exact a.segment.end) _ = Arc.parabolaY
      (along (exact a.segment.start) (exact a.segment.end) _) (along (exact a.segment.start) (exact a.segment.end) (exact a.cellPoint)) (orient (exact a.segment.start) (exact a.segment.end) (exact a.cellPoint))
    rw [p1, p2, parabolaY_eq, ← hA, ← hBo, hY, hS]
  · rw [p1]; exact hX
  · simp only [add_sub_cancel_right]
    rw [← hDe, ← hue]; exact fx
  · simp only [add_sub_cancel_right]
    rw [← hDe, ← hue]; exact fy

end ArcFlt

open ArcFlt

/-- C88: on a grid: every point of the result of `discretize_2d` between the ends, if its coordinates are finite, is
close to a point that has exactly the same distance to the line through the segment as to the cell point. -/
theorem C88_points_near_the_parabola_2d {s B : ℤ} (G : GoodGrid f s B) (hB : 1 ≤ B) (hf : f.emin + 5 * f.prec ≤ 0)
    (a : Arc (Flt f)) (d : Flt f) (fuel : Nat) (out : List (V2 (Flt f)))
    (h1 : OnGrid s B a.segment.start) (h2 : OnGrid s B a.segment.end) (h3 : OnGrid s B a.cellPoint)
    (hcell : orient (exact a.segment.start) (exact a.segment.end) (exact a.cellPoint) ≠ 0)
    (h : a.discretize2d fuel d = some out) :
    ∀ q ∈ out.tail.dropLast, q.x.isFin = true → q.y.isFin = true →
      ∃ P : V2 ℚ, Equidistant (exact a.segment.start) (exact a.segment.end) (exact a.cellPoint) P ∧
        |(exact q).x - P.x| ≤ 2 ^ (-f.prec : ℤ) *
          (10 * (|P.x - (exact a.segment.start).x| + |P.y - (exact a.segment.start).y|) + |P.x|) ∧
        |(exact q).y - P.y| ≤ 2 ^ (-f.prec : ℤ) *
          (10 * (|P.x - (exact a.segment.start).x| + |P.y - (exact a.segment.start).y|) + |P.y|) := by
  obtain ⟨xs, rfl⟩ := discretize2d_shape fuel a d out h
  intro q hq qx qy
  rw [List.tail_cons, List.dropLast_concat] at hq
  obtain ⟨x, -, rfl⟩ := List.mem_map.1 hq
  obtain ⟨P, p1, -, p2, p3⟩ := near_point G.coarse hf a d x (nums G hB a d h1 h2 h3) hcell qx qy
  rw [pow2_eq] at p2 p3
  exact ⟨P, p1, p2, p3⟩

/-- C88: the same for the first two coordinates of the points of `discretize_3d`. -/
theorem C88_points_near_the_parabola_3d {s B : ℤ} (G : GoodGrid f s B) (hB : 1 ≤ B) (hf : f.emin + 5 * f.prec ≤ 0)
    (a : Arc (Flt f)) (d : Flt f) (fuel : Nat) (out : List (V3 (Flt f)))
    (h1 : OnGrid s B a.segment.start) (h2 : OnGrid s B a.segment.end) (h3 : OnGrid s B a.cellPoint)
    (hcell : orient (exact a.segment.start) (exact a.segment.end) (exact a.cellPoint) ≠ 0)
    (h : a.discretize3d fuel d = some out) :
    ∀ q ∈ out.tail.dropLast, q.x.isFin = true → q.y.isFin = true →
      ∃ P : V2 ℚ, Equidistant (exact a.segment.start) (exact a.segment.end) (exact a.cellPoint) P ∧
        |(exact3 q).x - P.x| ≤ 2 ^ (-f.prec : ℤ) *
          (10 * (|P.x - (exact a.segment.start).x| + |P.y - (exact a.segment.start).y|) + |P.x|) ∧
        |(exact3 q).y - P.y| ≤ 2 ^ (-f.prec : ℤ) *
          (10 * (|P.x - (exact a.segment.start).x| + |P.y - (exact a.segment.start).y|) + |P.y|) := by
  obtain ⟨xs, rfl⟩ := discretize3d_shape fuel a d out h
  intro q hq qx qy
  rw [List.tail_cons, List.dropLast_concat] at hq
  obtain ⟨x, -, rfl⟩ := List.mem_map.1 hq
  obtain ⟨P, p1, -, p2, p3⟩ := near_point G.coarse hf a d x (nums G hB a d h1 h2 h3) hcell qx qy
  rw [pow2_eq] at p2 p3
  exact ⟨P, p1, p2, p3⟩

/-- an arc over a slanted segment -/
def slanted : Arc F32 := ⟨⟨ipt b32 0 0, ipt b32 3 1⟩, ipt b32 1 7, ipt b32 (-20) 4, ipt b32 30 9⟩


/-- the hypotheses are met: the arc is on the grid, and the function returns a list with finite points between the ends -/
theorem slanted_ok : GoodGrid b32 0 511 ∧ b32.emin + 5 * b32.prec ≤ 0 ∧ OnGrid 0 511 slanted.segment.start ∧
    OnGrid 0 511 slanted.segment.end ∧ OnGrid 0 511 slanted.cellPoint ∧
    orient (exact slanted.segment.start) (exact slanted.segment.end) (exact slanted.cellPoint) ≠ 0 := by
  obtain ⟨a1, a2⟩ := onGrid_ipt goodGrid32 (k := 0) (l := 0) (by norm_num) (by norm_num)
  obtain ⟨b1, b2⟩ := onGrid_ipt goodGrid32 (k := 3) (l := 1) (by norm_num) (by norm_num)
  obtain ⟨c1, c2⟩ := onGrid_ipt goodGrid32 (k := 1) (l := 7) (by norm_num) (by norm_num)
  refine ⟨goodGrid32, by decide, a1, b1, c1, ?_⟩
  show orient (exact (ipt b32 0 0)) (exact (ipt b32 3 1)) (exact (ipt b32 1 7)) ≠ 0
  rw [a2, b2, c2]
  norm_num [orient]

theorem slanted_returns : let _ : Libm b32 := ⟨fun _ _ => .nan⟩
    ((slanted.discretize2d 100 (q32 4 0)).map (fun l => (l.length, l.all (fun q => q.x.isFin && q.y.isFin)))) =
      some (5, true) := by
  decide +kernel

end Verif.Props
