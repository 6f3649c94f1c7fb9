import Verif.Proofs.FloatIntersect
import Verif.Props.FloatAffine
import Verif.Model.LineString2
/-!
# A ray and an edge on a good grid: every decision is exact and the parameter has a small error
-/
namespace Verif.Proofs.FloatRay
open Verif Verif.Model Verif.Spec Fl Flt Scalar Verif.Proofs.FloatHull Verif.Proofs.FloatIntersect
variable {f : Fmt} [Libm f]
set_option linter.unusedSectionVars false
set_option linter.unusedVariables false

/-- the exact run, in grid units: `k` the origin, `m` the direction, `a` the start of the edge, `w` its vector -/
theorem ray_exact (s : ℤ) (k1 k2 m1 m2 a1 a2 b1 b2 : ℤ) (hD : 0 < m1 * m1 + m2 * m2) :
    rayEdgeIntersection (Vq s k1 k2) (Vq s m1 m2) (Vq s a1 a2) (Vq s b1 b2) =
      (let N : ℤ := (a1 - k1) * (b2 - a2) - (a2 - k2) * (b1 - a1)
       let M : ℤ := (a1 - k1) * m2 - (a2 - k2) * m1
       let d : ℤ := m1 * (b2 - a2) - m2 * (b1 - a1)
       let D : ℤ := m1 * m1 + m2 * m2
       let n : ℤ := (a1 - k1) * m1 + (a2 - k2) * m2
       let c : ℤ := (b1 - a1) * m1 + (b2 - a2) * m2
       if d = 0 then
         if M = 0 then some (min ((n : ℚ) / D) ((n : ℚ) / D + (c : ℚ) / D)) else none
       else if 0 ≤ (N : ℚ) / d ∧ 0 ≤ (M : ℚ) / d ∧ (M : ℚ) / d ≤ 1 then some ((N : ℚ) / d) else none) := by
  have hu := (pow2_pos s).ne'
  obtain ⟨u, hud⟩ : ∃ u, u = pow2 s := ⟨_, rfl⟩
  rw [← hud] at hu
  have huu : u * u ≠ 0 := mul_ne_zero hu hu
  unfold rayEdgeIntersection Vq
  simp only [exact_simp, ← hud]
  have eN : ((a1 : ℚ) * u - k1 * u) * (b2 * u - a2 * u) - (a2 * u - k2 * u) * (b1 * u - a1 * u) =
      (((a1 - k1) * (b2 - a2) - (a2 - k2) * (b1 - a1) : ℤ) : ℚ) * (u * u) := by push_cast; ring
  have eM : ((a1 : ℚ) * u - k1 * u) * (m2 * u) - (a2 * u - k2 * u) * (m1 * u) =
      (((a1 - k1) * m2 - (a2 - k2) * m1 : ℤ) : ℚ) * (u * u) := by push_cast; ring
  have ed : (m1 : ℚ) * u * (b2 * u - a2 * u) - m2 * u * (b1 * u - a1 * u) =
      ((m1 * (b2 - a2) - m2 * (b1 - a1) : ℤ) : ℚ) * (u * u) := by push_cast; ring
  have eD : (m1 : ℚ) * u * (m1 * u) + m2 * u * (m2 * u) = ((m1 * m1 + m2 * m2 : ℤ) : ℚ) * (u * u) := by push_cast; ring
  have en : ((a1 : ℚ) * u - k1 * u) * (m1 * u) + (a2 * u - k2 * u) * (m2 * u) =
      (((a1 - k1) * m1 + (a2 - k2) * m2 : ℤ) : ℚ) * (u * u) := by push_cast; ring
  have ec : ((b1 : ℚ) * u - a1 * u) * (m1 * u) + (b2 * u - a2 * u) * (m2 * u) =
      (((b1 - a1) * m1 + (b2 - a2) * m2 : ℤ) : ℚ) * (u * u) := by push_cast; ring
  rw [eN, eM, ed, eD, en, ec]
  simp only [mul_div_mul_right _ _ huu, mul_eq_zero, huu, or_false, Int.cast_eq_zero]

/-- a computed parameter of a hit against the exact one -/
def TClose (B k1 k2 m1 m2 : ℤ) : Option (Flt f) → Option ℚ → Prop
  | none, none => True
  | some t, some T => ∃ β, Is t β ∧ (0 < β ↔ 0 < T) ∧
      |(m1 : ℚ) * (β - T)| ≤ 13 / 2 * B * pow2 (-f.prec) ∧ |(m2 : ℚ) * (β - T)| ≤ 13 / 2 * B * pow2 (-f.prec) ∧
      |(k1 : ℚ) + m1 * T| ≤ B ∧ |(k2 : ℚ) + m2 * T| ≤ B
  | _, _ => False

/-- the error of one rounded parameter, scaled by a component of the direction -/
theorem param_err {s B : ℤ} (G : GoodGrid f s B) (hB : 1 ≤ B) {T : ℚ} {m : ℤ} (hm : |m| ≤ B)
    (hmT : |(m : ℚ) * T| ≤ 2 * B) : |(m : ℚ) * (roundQ f T - T)| ≤ 21 / 10 * B * pow2 (-f.prec) := by
  obtain ⟨g1, g2, g3, g4, g5⟩ := grid_facts G hB
  have hε := pow2_pos (-(f.prec : ℤ))
  obtain ⟨ε, hεd⟩ : ∃ ε, ε = pow2 (-(f.prec : ℤ)) := ⟨_, rfl⟩
  obtain ⟨η, hηd⟩ : ∃ η, η = pow2 (f.emin - 1) := ⟨_, rfl⟩
  have hη : 0 < η := hηd ▸ pow2_pos _
  have hBq : (1 : ℚ) ≤ B := by exact_mod_cast hB
  have hmq : |(m : ℚ)| ≤ B := by exact_mod_cast hm
  have e1 := roundQ_rel f T
  rw [← hεd, ← hηd] at e1
  rw [← hεd] at hε g4 ⊢
  rw [← hηd] at g4
  have h1 : |(m : ℚ)| * |roundQ f T - T| ≤ |(m : ℚ)| * (ε * |T| + η) := mul_le_mul_of_nonneg_left e1 (abs_nonneg _)
  have h2 : |(m : ℚ)| * (ε * |T|) ≤ ε * (2 * B) := by
    rw [show |(m : ℚ)| * (ε * |T|) = ε * (|(m : ℚ)| * |T|) by ring, ← abs_mul]
    exact mul_le_mul_of_nonneg_left hmT hε.le
  have h3 : |(m : ℚ)| * η ≤ B * (ε / 64) := mul_le_mul hmq g4 hη.le (by linarith)
  rw [abs_mul]
  have h4 : 0 < (B : ℚ) * ε := mul_pos (by linarith) hε
  linarith

theorem round_pos_iff {n d : ℤ} (h : 0 ≤ roundQ f ((-n : ℤ) / (d : ℚ)) ↔ 0 ≤ ((-n : ℤ) : ℚ) / d) :
    0 < roundQ f ((n : ℚ) / d) ↔ 0 < (n : ℚ) / d := by
  have e : ((-n : ℤ) : ℚ) / d = -((n : ℚ) / d) := by push_cast; ring
  rw [e, roundQ_neg] at h
  constructor
  · intro h1
    by_contra h2
    have := h.2 (by linarith)
    linarith
  · intro h1
    by_contra h2
    have := h.1 (by linarith)
    linarith

/-- `Is` for a negated number, to read the sign of a quotient -/
theorem ratio_pos {x y : Flt f} {n d : ℤ} {U : ℚ} (hU : U ≠ 0) (hx : Is x (n * U)) (hy : Is y (d * U)) (hd : d ≠ 0)
    (bn : |n| < 2 ^ (f.prec - 3)) (bd : |d| < 2 ^ (f.prec - 3)) :
    0 < roundQ f ((n : ℚ) / d) ↔ 0 < (n : ℚ) / d := by
  have hx' : Is (Scalar.neg x) (((-n : ℤ) : ℚ) * U) := by
    have := is_neg hx
    rwa [show -((n : ℚ) * U) = ((-n : ℤ) : ℚ) * U by push_cast; ring] at this
  obtain ⟨-, h, -, -⟩ := ratio hU hx' hy hd (by rwa [abs_neg]) bd
  exact round_pos_iff h

/-- Cramer's rule -/
theorem cramer {k1 k2 m1 m2 a1 a2 w1 w2 : ℚ} (hd : m1 * w2 - m2 * w1 ≠ 0) :
    k1 + m1 * (((a1 - k1) * w2 - (a2 - k2) * w1) / (m1 * w2 - m2 * w1)) =
      a1 + w1 * (((a1 - k1) * m2 - (a2 - k2) * m1) / (m1 * w2 - m2 * w1)) ∧
    k2 + m2 * (((a1 - k1) * w2 - (a2 - k2) * w1) / (m1 * w2 - m2 * w1)) =
      a2 + w2 * (((a1 - k1) * m2 - (a2 - k2) * m1) / (m1 * w2 - m2 * w1)) := by
  generalize e : m1 * w2 - m2 * w1 = d at hd ⊢
  constructor <;> · field_simp; rw [← e]; ring

theorem cross_point {k m a b B : ℤ} {T u : ℚ} (e : (k : ℚ) + m * T = a + ((b - a : ℤ) : ℚ) * u) (ha : |a| ≤ B) (hb : |b| ≤ B)
    (h0 : 0 ≤ u) (h1 : u ≤ 1) (hk : |k| ≤ B) : |(k : ℚ) + m * T| ≤ B ∧ |(m : ℚ) * T| ≤ 2 * B := by
  have h := conv_le (k := a) (m := b - a) (B := B) ha (by rwa [show a + (b - a) = b by ring]) h0 h1
  rw [← e] at h
  refine ⟨h, ?_⟩
  have hkq : |(k : ℚ)| ≤ B := by exact_mod_cast hk
  rw [abs_le] at *
  constructor <;> linarith

/-- the second parameter of an edge on the line of the ray, `t0 + s·r/r·r`: error -/
theorem second_param {s B : ℤ} (G : GoodGrid f s B) (hB : 1 ≤ B) {T S : ℚ} (rT : Repr f (roundQ f T))
    (rS : Repr f (roundQ f S)) {m a b : ℤ} (hm : |m| ≤ B) (ha : (m : ℚ) * T = a) (hb : (m : ℚ) * S = b)
    (ha' : |a| ≤ 2 * B) (hb' : |b| ≤ 2 * B) (hab : |a + b| ≤ 2 * B) :
    |(m : ℚ) * (roundQ f (roundQ f T + roundQ f S) - (T + S))| ≤ 13 / 2 * B * pow2 (-f.prec) := by
  have q1 := param_err G hB (T := T) hm (by rw [ha]; exact_mod_cast ha')
  have q2 := param_err G hB (T := S) hm (by rw [hb]; exact_mod_cast hb')
  obtain ⟨g1, g2, g3, g4, g5⟩ := grid_facts G hB
  have hr := Props.AffineFlt.round_add_rel (f := f) rT rS
  have hε := pow2_pos (-(f.prec : ℤ))
  generalize pow2 (-(f.prec : ℤ)) = ε at *
  generalize roundQ f (roundQ f T + roundQ f S) = z at *
  generalize roundQ f T = x at *
  generalize roundQ f S = y at *
  have hBq : (1 : ℚ) ≤ B := by exact_mod_cast hB
  have habq : |(m : ℚ) * (T + S)| ≤ 2 * B := by rw [mul_add, ha, hb]; exact_mod_cast hab
  have hW : 0 < (B : ℚ) * ε := mul_pos (by linarith) hε
  have h1 : |(m : ℚ) * (x + y)| ≤ 2 * B + 42 / 10 * (B * ε) := by
    have e : (m : ℚ) * (x + y) = m * (x - T) + m * (y - S) + m * (T + S) := by ring
    rw [e]
    have := abs_add_le ((m : ℚ) * (x - T) + m * (y - S)) (m * (T + S))
    have := abs_add_le ((m : ℚ) * (x - T)) (m * (y - S))
    linarith
  have h2 : |(m : ℚ) * (z - (x + y))| ≤ ε * (2 * B + 42 / 10 * (B * ε)) := by
    rw [abs_mul]
    calc |(m : ℚ)| * |z - (x + y)| ≤ |(m : ℚ)| * (ε * |x + y|) := mul_le_mul_of_nonneg_left hr (abs_nonneg _)
      _ = ε * |(m : ℚ) * (x + y)| := by rw [abs_mul]; ring
      _ ≤ _ := mul_le_mul_of_nonneg_left h1 hε.le
  have h3 : ε * (B * ε) ≤ 1 / 64 * (B * ε) := mul_le_mul_of_nonneg_right g5 hW.le
  have e : (m : ℚ) * (z - (T + S)) = m * (z - (x + y)) + (m * (x - T) + m * (y - S)) := by ring
  rw [e]
  have := abs_add_le ((m : ℚ) * (z - (x + y))) (m * (x - T) + m * (y - S))
  have := abs_add_le ((m : ℚ) * (x - T)) (m * (y - S))
  linarith

/-- the second parameter has the right sign -/
theorem second_sign {s B : ℤ} (G : GoodGrid f s B) (hB : 1 ≤ B) {n c D : ℤ} (hD : 0 < D)
    (bn : |n| < 2 ^ (f.prec - 3)) (bc : |c| < 2 ^ (f.prec - 3)) (bD : |D| < 2 ^ (f.prec - 3))
    (rT : Repr f (roundQ f ((n : ℚ) / D))) (rS : Repr f (roundQ f ((c : ℚ) / D))) :
    0 < roundQ f (roundQ f ((n : ℚ) / D) + roundQ f ((c : ℚ) / D)) ↔ 0 < (n : ℚ) / D + (c : ℚ) / D := by
  have hDq : (0 : ℚ) < D := by exact_mod_cast hD
  have hadd : (n : ℚ) / D + (c : ℚ) / D = ((n + c : ℤ) : ℚ) / D := by push_cast; ring
  rcases eq_or_ne (n + c) 0 with h0 | h0
  · have hc : (c : ℚ) / D = -((n : ℚ) / D) := by
      rw [show c = -n by omega]; push_cast; ring
    rw [hc, roundQ_neg, add_neg_cancel, add_neg_cancel, roundQ_zero]
  · obtain ⟨g1, g2, g3, g4, g5⟩ := grid_facts G hB
    have hr := Props.AffineFlt.round_add_rel (f := f) rT rS
    have e1 := roundQ_rel f ((n : ℚ) / D)
    have e2 := roundQ_rel f ((c : ℚ) / D)
    have hε := pow2_pos (-(f.prec : ℤ))
    have hP := pow_split f
    have hPq : (2 : ℚ) ^ f.prec = 8 * 2 ^ (f.prec - 3) := by exact_mod_cast hP
    have bn' : |(n : ℚ)| < 2 ^ (f.prec - 3) := by exact_mod_cast bn
    have bc' : |(c : ℚ)| < 2 ^ (f.prec - 3) := by exact_mod_cast bc
    have bD' : (D : ℚ) < 2 ^ (f.prec - 3) := by have := (abs_lt.1 bD).2; exact_mod_cast this
    have hη := pow2_pos (f.emin - 1)
    generalize pow2 (f.emin - 1) = η at *
    generalize pow2 (-(f.prec : ℤ)) = ε at *
    generalize (2 : ℚ) ^ f.prec = P at *
    generalize (2 : ℚ) ^ (f.prec - 3) = Q at *
    have hεQ : ε * Q = 1 / 8 := by rw [hPq] at g2; linarith
    rw [abs_div, abs_of_pos hDq] at e1 e2
    -- everything times `D`
    have m1 := mul_le_mul_of_nonneg_right e1 hDq.le
    have m2 := mul_le_mul_of_nonneg_right e2 hDq.le
    rw [add_mul, mul_assoc, div_mul_cancel₀ _ hDq.ne'] at m1 m2
    have k1 : ε * |(n : ℚ)| ≤ 1 / 8 := by rw [← hεQ]; exact mul_le_mul_of_nonneg_left bn'.le hε.le
    have k2 : ε * |(c : ℚ)| ≤ 1 / 8 := by rw [← hεQ]; exact mul_le_mul_of_nonneg_left bc'.le hε.le
    have k3 : η * D ≤ 1 / 64 := by
      calc η * D ≤ (ε / 64) * Q := mul_le_mul g4 bD'.le hDq.le (by linarith)
        _ ≤ 1 / 64 := by linarith
    have k4 : (1 : ℚ) ≤ |((n + c : ℤ) : ℚ)| := by exact_mod_cast Int.one_le_abs h0
    rw [hadd]
    generalize hz : roundQ f (roundQ f ((n : ℚ) / D) + roundQ f ((c : ℚ) / D)) = z at *
    generalize hx : roundQ f ((n : ℚ) / D) = x at *
    generalize hy : roundQ f ((c : ℚ) / D) = y at *
    have hdist : |(x + y) * D - ((n + c : ℤ) : ℚ)| < 1 / 2 := by
      have e : (x + y) * D - ((n + c : ℤ) : ℚ) = (x - n / D) * D + (y - c / D) * D := by
        push_cast; field_simp; ring
      rw [e]
      refine lt_of_le_of_lt (abs_add_le _ _) ?_
      rw [abs_mul, abs_mul, abs_of_pos hDq]
      linarith
    have hzs : 0 < z ↔ 0 < x + y := by
      have hε1 : ε * |x + y| ≤ 1 / 64 * |x + y| := mul_le_mul_of_nonneg_right g5 (abs_nonneg _)
      rcases lt_trichotomy (x + y) 0 with h | h | h
      · rw [abs_of_neg h] at hr hε1
        rw [abs_le] at hr
        constructor <;> intro <;> linarith
      · rw [h] at hr
        simp only [abs_zero, mul_zero, sub_zero, abs_nonpos_iff] at hr
        rw [h, hr]
      · rw [abs_of_pos h] at hr hε1
        rw [abs_le] at hr
        constructor <;> intro <;> linarith
    rw [hzs]
    rw [abs_lt] at hdist
    rcases lt_or_gt_of_ne (show ((n + c : ℤ) : ℚ) ≠ 0 by exact_mod_cast h0) with h | h
    · rw [abs_of_neg h] at k4
      constructor
      · intro h1
        have := mul_pos h1 hDq
        linarith
      · intro h1
        have := div_neg_of_neg_of_pos h hDq
        linarith
    · rw [abs_of_pos h] at k4
      constructor
      · intro _; exact div_pos h hDq
      · intro _
        by_contra h2
        have := mul_nonpos_of_nonpos_of_nonneg (not_lt.1 h2) hDq.le
        linarith

theorem min_err {m x y X Y c : ℚ} (h1 : |m * (x - X)| ≤ c) (h2 : |m * (y - Y)| ≤ c) :
    |m * (min x y - min X Y)| ≤ c := by
  rw [abs_mul] at *
  have := abs_min_sub_min_le_max x y X Y
  calc |m| * |min x y - min X Y| ≤ |m| * max |x - X| |y - Y| := mul_le_mul_of_nonneg_left this (abs_nonneg _)
    _ ≤ c := by
      rcases max_choice |x - X| |y - Y| with h | h <;> rw [h] <;> assumption

theorem min_box {k m X Y B : ℚ} (h1 : |k + m * X| ≤ B) (h2 : |k + m * Y| ≤ B) : |k + m * min X Y| ≤ B := by
  rcases min_choice X Y with h | h <;> rw [h] <;> assumption

/-- one edge -/
theorem ray_close {s B : ℤ} (G : GoodGrid f s B) (hB : 1 ≤ B) {o r a b : V2 (Flt f)}
    {k1 k2 m1 m2 a1 a2 b1 b2 : ℤ} (ho : IsV s o k1 k2) (hr : IsV s r m1 m2) (ha : IsV s a a1 a2) (hb : IsV s b b1 b2)
    (bk1 : |k1| ≤ B) (bk2 : |k2| ≤ B) (bm1 : |m1| ≤ B) (bm2 : |m2| ≤ B) (ba1 : |a1| ≤ B) (ba2 : |a2| ≤ B)
    (bb1 : |b1| ≤ B) (bb2 : |b2| ≤ B) (hD : 0 < m1 * m1 + m2 * m2) :
    TClose B k1 k2 m1 m2 (rayEdgeIntersection o r a b)
      (rayEdgeIntersection (Vq s k1 k2) (Vq s m1 m2) (Vq s a1 a2) (Vq s b1 b2)) := by
  rw [ray_exact s k1 k2 m1 m2 a1 a2 b1 b2 hD]
  have dm1 : |m1| ≤ 2 * B := by linarith
  have dm2 : |m2| ≤ 2 * B := by linarith
  obtain ⟨x1, w1⟩ := grid_diff G hb.1 ha.1 bb1 ba1
  obtain ⟨x2, w2⟩ := grid_diff G hb.2 ha.2 bb2 ba2
  have hw : IsV s (b.sub a) (b1 - a1) (b2 - a2) := ⟨x1, x2⟩
  obtain ⟨y1, q1⟩ := grid_diff G ha.1 ho.1 ba1 bk1
  obtain ⟨y2, q2⟩ := grid_diff G ha.2 ho.2 ba2 bk2
  have hq : IsV s (a.sub o) (a1 - k1) (a2 - k2) := ⟨y1, y2⟩
  have hU : pow2 (s + s) ≠ 0 := (pow2_pos _).ne'
  obtain ⟨d1, d2⟩ := perp_exact G hB hr hw dm1 dm2 w1 w2
  obtain ⟨M1, M2⟩ := perp_exact G hB hq hr q1 q2 dm1 dm2
  obtain ⟨N1, N2⟩ := perp_exact G hB hq hw q1 q2 w1 w2
  unfold rayEdgeIntersection
  simp only [ulps_zero G d1 d2, ulps_zero G M1 M2]
  by_cases hd : m1 * (b2 - a2) - m2 * (b1 - a1) = 0
  · rw [if_pos hd, decide_eq_true hd, if_pos rfl]
    by_cases hM : (a1 - k1) * m2 - (a2 - k2) * m1 = 0
    swap
    · rw [if_neg hM, decide_eq_false hM, if_neg (by simp)]; trivial
    rw [if_pos hM, decide_eq_true hM, if_pos rfl]
    obtain ⟨e1, e2⟩ := dot_exact G hB hr hr dm1 dm2 dm1 dm2
    obtain ⟨n1, n2⟩ := dot_exact G hB hq hr q1 q2 dm1 dm2
    obtain ⟨c1, c2⟩ := dot_exact G hB hw hr w1 w2 dm1 dm2
    obtain ⟨t1, -, -, t4⟩ := ratio hU n1 e1 hD.ne' n2 e2
    obtain ⟨s1, -, -, s4⟩ := ratio hU c1 e1 hD.ne' c2 e2
    have tp := ratio_pos hU n1 e1 hD.ne' n2 e2
    have hDq : ((m1 * m1 + m2 * m2 : ℤ) : ℚ) ≠ 0 := by exact_mod_cast hD.ne'
    have g1 : (m1 : ℚ) * ((((a1 - k1) * m1 + (a2 - k2) * m2 : ℤ) : ℚ) / ((m1 * m1 + m2 * m2 : ℤ) : ℚ)) = ((a1 - k1 : ℤ) : ℚ) := by
      rw [mul_div_assoc', div_eq_iff hDq]
      exact_mod_cast (by linear_combination -m2 * hM : m1 * ((a1 - k1) * m1 + (a2 - k2) * m2) = (a1 - k1) * (m1 * m1 + m2 * m2))
    have g2 : (m2 : ℚ) * ((((a1 - k1) * m1 + (a2 - k2) * m2 : ℤ) : ℚ) / ((m1 * m1 + m2 * m2 : ℤ) : ℚ)) = ((a2 - k2 : ℤ) : ℚ) := by
      rw [mul_div_assoc', div_eq_iff hDq]
      exact_mod_cast (by linear_combination m1 * hM : m2 * ((a1 - k1) * m1 + (a2 - k2) * m2) = (a2 - k2) * (m1 * m1 + m2 * m2))
    have g3 : (m1 : ℚ) * ((((b1 - a1) * m1 + (b2 - a2) * m2 : ℤ) : ℚ) / ((m1 * m1 + m2 * m2 : ℤ) : ℚ)) = ((b1 - a1 : ℤ) : ℚ) := by
      rw [mul_div_assoc', div_eq_iff hDq]
      exact_mod_cast (by linear_combination m2 * hd : m1 * ((b1 - a1) * m1 + (b2 - a2) * m2) = (b1 - a1) * (m1 * m1 + m2 * m2))
    have g4 : (m2 : ℚ) * ((((b1 - a1) * m1 + (b2 - a2) * m2 : ℤ) : ℚ) / ((m1 * m1 + m2 * m2 : ℤ) : ℚ)) = ((b2 - a2 : ℤ) : ℚ) := by
      rw [mul_div_assoc', div_eq_iff hDq]
      exact_mod_cast (by linear_combination -m1 * hd : m2 * ((b1 - a1) * m1 + (b2 - a2) * m2) = (b2 - a2) * (m1 * m1 + m2 * m2))
    have sg := second_sign G hB hD n2 c2 e2 (is_repr t1) (is_repr s1)
    have fin : ∀ {n : ℤ} {x : ℚ}, |x| ≤ |(n : ℚ)| → |n| < 2 ^ (f.prec - 3) → |roundQ f x| ≤ ((2 ^ (f.prec - 3) : ℤ) : ℚ) := by
      intro n x h h'
      have hPp : (0 : ℤ) < 2 ^ (f.prec - 3) := by positivity
      apply abs_roundQ_le (repr_int f _ (by rw [pow_split, abs_of_pos hPp]; omega))
      exact h.trans (by exact_mod_cast h'.le)
    have fT := fin t4 n2
    have fS := fin s4 c2
    generalize (((a1 - k1) * m1 + (a2 - k2) * m2 : ℤ) : ℚ) / ((m1 * m1 + m2 * m2 : ℤ) : ℚ) = T at *
    generalize (((b1 - a1) * m1 + (b2 - a2) * m2 : ℤ) : ℚ) / ((m1 * m1 + m2 * m2 : ℤ) : ℚ) = S at *
    have hsum : |roundQ f (roundQ f T + roundQ f S)| < pow2 f.emax := by
      have hPp : (0 : ℤ) < 2 ^ (f.prec - 3) := by positivity
      have rr : Repr f ((2 * 2 ^ (f.prec - 3) : ℤ) : ℚ) :=
        repr_int f _ (by rw [pow_split, abs_of_pos (by omega)]; omega)
      have h1 : |roundQ f (roundQ f T + roundQ f S)| ≤ ((2 * 2 ^ (f.prec - 3) : ℤ) : ℚ) := by
        apply abs_roundQ_le rr
        refine (abs_add_le _ _).trans ?_
        push_cast at fT fS ⊢
        linarith
      exact lt_of_le_of_lt (h1.trans (le_abs_self _)) rr.1
    have hst := is_add t1 s1 hsum
    have hmin := is_fmin t1 hst
    obtain ⟨z1, z2⟩ : |(b1 - a1 : ℤ) + (a1 - k1)| ≤ 2 * B ∧ |(b2 - a2 : ℤ) + (a2 - k2)| ≤ 2 * B := by
      constructor
      · rw [abs_le] at *; constructor <;> omega
      · rw [abs_le] at *; constructor <;> omega
    have bq : ∀ {k a m : ℤ} {T : ℚ}, (m : ℚ) * T = ((a - k : ℤ) : ℚ) → |a| ≤ B → |(k : ℚ) + m * T| ≤ B := by
      intro k a m T h h'
      rw [h, show (k : ℚ) + ((a - k : ℤ) : ℚ) = (a : ℚ) by push_cast; ring]
      exact_mod_cast h'
    have hBε : 0 < (B : ℚ) * pow2 (-(f.prec : ℤ)) :=
      mul_pos (by have : (1 : ℚ) ≤ B := by exact_mod_cast hB
                  linarith) (pow2_pos _)
    have pe1 := param_err G hB (T := T) bm1 (by rw [g1]; exact_mod_cast q1)
    have pe2 := param_err G hB (T := T) bm2 (by rw [g2]; exact_mod_cast q2)
    refine ⟨_, hmin, ?_, min_err (by linarith) ?_, min_err (by linarith) ?_, min_box (bq g1 ba1) (bq (a := b1) ?_ bb1),
      min_box (bq g2 ba2) (bq (a := b2) ?_ bb2)⟩
    · rw [lt_min_iff, lt_min_iff, tp, sg]
    · exact second_param G hB (is_repr t1) (is_repr s1) bm1 g1 g3 q1 w1 (by rw [add_comm]; exact z1)
    · exact second_param G hB (is_repr t1) (is_repr s1) bm2 g2 g4 q2 w2 (by rw [add_comm]; exact z2)
    · rw [mul_add, g1, g3]; push_cast; ring
    · rw [mul_add, g2, g4]; push_cast; ring
  · rw [if_neg hd, decide_eq_false hd, if_neg (by simp)]
    obtain ⟨t1, t2, -, -⟩ := ratio hU N1 d1 hd N2 d2
    obtain ⟨u1, u2, u3, -⟩ := ratio hU M1 d1 hd M2 d2
    have tp := ratio_pos hU N1 d1 hd N2 d2
    have hdq : (m1 : ℚ) * ((b2 - a2 : ℤ) : ℚ) - m2 * ((b1 - a1 : ℤ) : ℚ) ≠ 0 := by exact_mod_cast hd
    obtain ⟨cx, cy⟩ := cramer (k1 := k1) (k2 := k2) (a1 := a1) (a2 := a2) hdq
    have eT : (((a1 : ℚ) - k1) * ((b2 - a2 : ℤ) : ℚ) - (a2 - k2) * ((b1 - a1 : ℤ) : ℚ)) / (m1 * ((b2 - a2 : ℤ) : ℚ) - m2 * ((b1 - a1 : ℤ) : ℚ)) =
        (((a1 - k1) * (b2 - a2) - (a2 - k2) * (b1 - a1) : ℤ) : ℚ) / ((m1 * (b2 - a2) - m2 * (b1 - a1) : ℤ) : ℚ) := by push_cast; rfl
    have eu : (((a1 : ℚ) - k1) * m2 - (a2 - k2) * m1) / (m1 * ((b2 - a2 : ℤ) : ℚ) - m2 * ((b1 - a1 : ℤ) : ℚ)) =
        (((a1 - k1) * m2 - (a2 - k2) * m1 : ℤ) : ℚ) / ((m1 * (b2 - a2) - m2 * (b1 - a1) : ℤ) : ℚ) := by push_cast; rfl
    rw [eT, eu] at cx cy
    clear eT eu
    have hge : Scalar.ge (((a.sub o).perpDot (b.sub a)) /. (r.perpDot (b.sub a))) Scalar.zero = decide (0 ≤ (((a1 - k1) * (b2 - a2) - (a2 - k2) * (b1 - a1) : ℤ) : ℚ) / ((m1 * (b2 - a2) - m2 * (b1 - a1) : ℤ) : ℚ)) := by
      have : Scalar.ge (((a.sub o).perpDot (b.sub a)) /. (r.perpDot (b.sub a))) Scalar.zero = _ := is_le is_zeroQ t1
      rw [this]
      exact decide_eq_decide.2 t2
    have hin : Scalar.inRange Scalar.zero Scalar.one (((a.sub o).perpDot r) /. (r.perpDot (b.sub a))) = decide (0 ≤ (((a1 - k1) * m2 - (a2 - k2) * m1 : ℤ) : ℚ) / ((m1 * (b2 - a2) - m2 * (b1 - a1) : ℤ) : ℚ) ∧ (((a1 - k1) * m2 - (a2 - k2) * m1 : ℤ) : ℚ) / ((m1 * (b2 - a2) - m2 * (b1 - a1) : ℤ) : ℚ) ≤ 1) := by
      unfold Scalar.inRange
      rw [show Scalar.le Scalar.zero (((a.sub o).perpDot r) /. (r.perpDot (b.sub a))) = _ from is_le is_zeroQ u1,
        show Scalar.le (((a.sub o).perpDot r) /. (r.perpDot (b.sub a))) Scalar.one = _ from is_le u1 is_one,
        decide_eq_decide.2 u2, decide_eq_decide.2 u3, Bool.decide_and]
    rw [hge, hin, ← Bool.decide_and]
    clear hge hin
    generalize (((a1 - k1) * (b2 - a2) - (a2 - k2) * (b1 - a1) : ℤ) : ℚ) / ((m1 * (b2 - a2) - m2 * (b1 - a1) : ℤ) : ℚ) = T at *
    generalize (((a1 - k1) * m2 - (a2 - k2) * m1 : ℤ) : ℚ) / ((m1 * (b2 - a2) - m2 * (b1 - a1) : ℤ) : ℚ) = u at *
    by_cases hc : 0 ≤ T ∧ 0 ≤ u ∧ u ≤ 1
    swap
    · rw [if_neg hc, decide_eq_false hc, if_neg (by simp)]; trivial
    rw [if_pos hc, decide_eq_true hc, if_pos rfl]
    obtain ⟨v1, v2⟩ := cross_point cx ba1 bb1 hc.2.1 hc.2.2 bk1
    obtain ⟨v3, v4⟩ := cross_point cy ba2 bb2 hc.2.1 hc.2.2 bk2
    have hBε : 0 < (B : ℚ) * pow2 (-(f.prec : ℤ)) :=
      mul_pos (by have : (1 : ℚ) ≤ B := by exact_mod_cast hB
                  linarith) (pow2_pos _)
    have pe1 := param_err G hB (T := T) bm1 v2
    have pe2 := param_err G hB (T := T) bm2 v4
    exact ⟨_, t1, tp, by linarith, by linarith, v1, v3⟩

end Verif.Proofs.FloatRay
