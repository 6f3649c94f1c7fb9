import Verif.Proofs.Float
import Verif.Proofs.HullTransfer
import Verif.Proofs.HullModel
import Verif.Spec.Float
import Verif.Spec.Geom
/-!
# The tests of the hull algorithms are exact on a good grid
-/
namespace Verif.Proofs.FloatHull
open Verif Verif.Model Verif.Spec Fl Flt Scalar Verif.Proofs.Transfer
variable {f : Fmt} [Libm f]
set_option linter.unusedSectionVars false

theorem GoodGrid.unit {s B : ℤ} (G : GoodGrid f s B) : UnitOk f s := by
  have := G.coarse; have := G.fits; have := f.hemin; have := f.hemax; have := f.hprec
  constructor <;> omega

theorem GoodGrid.unit2 {s B : ℤ} (G : GoodGrid f s B) : UnitOk f (s + s) := by
  have := G.coarse; have := G.fits; have := f.hemin; have := f.hemax; have := f.hprec
  constructor <;> omega

/-- the coordinates of a point on the grid -/
theorem OnGrid.coords {s B : ℤ} {p : V2 (Flt f)} (h : OnGrid s B p) :
    ∃ k l : ℤ, Is p.x (k * pow2 s) ∧ Is p.y (l * pow2 s) ∧ |k| ≤ B ∧ |l| ≤ B := by
  obtain ⟨h1, h2, k, l, h3, h4, h5, h6⟩ := h
  exact ⟨k, l, ⟨h1, by rw [h3, pow2_eq]⟩, ⟨h2, by rw [h4, pow2_eq]⟩, h5, h6⟩

theorem pow_split (f : Fmt) : (2 : ℤ) ^ f.prec = 8 * 2 ^ (f.prec - 3) := by
  rw [show (8 : ℤ) = 2 ^ 3 by norm_num, ← pow_add]; congr 1; have := f.hprec; omega

/-- differences of coordinates -/
theorem grid_diff {s B : ℤ} (G : GoodGrid f s B) {a b : Flt f} {k l : ℤ} (ha : Is a (k * pow2 s))
    (hb : Is b (l * pow2 s)) (hk : |k| ≤ B) (hl : |l| ≤ B) :
    Is (Scalar.sub a b) ((k - l : ℤ) * pow2 s) ∧ |k - l| ≤ 2 * B := by
  have h2 : |k - l| ≤ 2 * B := by rw [abs_le] at *; constructor <;> linarith
  refine ⟨grid_sub (GoodGrid.unit G) ha hb ?_, h2⟩
  have hB : 0 ≤ B := (abs_nonneg k).trans hk
  have := G.small
  rw [pow_split]
  nlinarith

theorem abs_mul_le {a b C D : ℤ} (ha : |a| ≤ C) (hb : |b| ≤ D) : |a * b| ≤ C * D := by
  rw [abs_mul]
  exact mul_le_mul ha hb (abs_nonneg b) ((abs_nonneg a).trans ha)

/-- the cross product is exact -/
theorem cross_exact {s B : ℤ} (G : GoodGrid f s B) {a b c : V2 (Flt f)} (ha : OnGrid s B a) (hb : OnGrid s B b)
    (hc : OnGrid s B c) : ∃ N : ℤ, Is (cross2d a b c) (N * pow2 (s + s)) ∧
      orient (exact a) (exact b) (exact c) = N * pow2 (s + s) ∧ |N| < 2 ^ (f.prec - 3) := by
  obtain ⟨k1, l1, a1, a2, a3, a4⟩ := OnGrid.coords ha
  obtain ⟨k2, l2, b1, b2, b3, b4⟩ := OnGrid.coords hb
  obtain ⟨k3, l3, c1, c2, c3, c4⟩ := OnGrid.coords hc
  have hB : 0 ≤ B := (abs_nonneg k1).trans a3
  have hsm := G.small
  have hP : (0 : ℤ) < 2 ^ (f.prec - 3) := by positivity
  obtain ⟨d1, e1⟩ := grid_diff G b1 a1 b3 a3
  obtain ⟨d2, e2⟩ := grid_diff G b2 a2 b4 a4
  obtain ⟨d3, e3⟩ := grid_diff G c1 a1 c3 a3
  obtain ⟨d4, e4⟩ := grid_diff G c2 a2 c4 a4
  have m1 := abs_mul_le e1 e4
  have m2 := abs_mul_le e2 e3
  have p1 := grid_mul (GoodGrid.unit2 G) d1 d4 (by rw [pow_split]; nlinarith)
  have p2 := grid_mul (GoodGrid.unit2 G) d2 d3 (by rw [pow_split]; nlinarith)
  have hN : |(k2 - k1) * (l3 - l1) - (l2 - l1) * (k3 - k1)| < 2 ^ (f.prec - 3) := by
    rw [abs_le] at m1 m2
    rw [abs_lt]
    constructor <;> nlinarith
  have r := grid_sub (GoodGrid.unit2 G) p1 p2 (by rw [pow_split]; nlinarith)
  refine ⟨_, r, ?_, hN⟩
  simp only [orient, exact, a1.2, a2.2, b1.2, b2.2, c1.2, c2.2]
  rw [pow2_add]; push_cast; ring

/-- squared distances are exact -/
theorem dist_exact {s B : ℤ} (G : GoodGrid f s B) {a b : V2 (Flt f)} (ha : OnGrid s B a) (hb : OnGrid s B b) :
    ∃ N : ℤ, Is (a.distSq b) (N * pow2 (s + s)) ∧ sqDist2 (exact a) (exact b) = N * pow2 (s + s) ∧
      |N| < 2 ^ (f.prec - 3) := by
  obtain ⟨k1, l1, a1, a2, a3, a4⟩ := OnGrid.coords ha
  obtain ⟨k2, l2, b1, b2, b3, b4⟩ := OnGrid.coords hb
  have hB : 0 ≤ B := (abs_nonneg k1).trans a3
  have hsm := G.small
  have hP : (0 : ℤ) < 2 ^ (f.prec - 3) := by positivity
  obtain ⟨d1, e1⟩ := grid_diff G a1 b1 a3 b3
  obtain ⟨d2, e2⟩ := grid_diff G a2 b2 a4 b4
  have m1 := abs_mul_le e1 e1
  have m2 := abs_mul_le e2 e2
  have p1 := grid_mul (GoodGrid.unit2 G) d1 d1 (by rw [pow_split]; nlinarith)
  have p2 := grid_mul (GoodGrid.unit2 G) d2 d2 (by rw [pow_split]; nlinarith)
  have hN : |(k1 - k2) * (k1 - k2) + (l1 - l2) * (l1 - l2)| < 2 ^ (f.prec - 3) := by
    rw [abs_le] at m1 m2
    rw [abs_lt]
    constructor <;> nlinarith
  have r := grid_add (GoodGrid.unit2 G) p1 p2 (by rw [pow_split]; nlinarith)
  refine ⟨_, r, ?_, hN⟩
  simp only [sqDist2, exact, a1.2, a2.2, b1.2, b2.2]
  rw [pow2_add]; push_cast; ring

theorem is_zeroQ : Is (Scalar.zero : Flt f) 0 := is_zero false

theorem is_zero_grid (e : ℤ) : Is (Scalar.zero : Flt f) ((0 : ℤ) * pow2 e) := by
  rw [Int.cast_zero, zero_mul]; exact is_zeroQ

section
variable {K : Type} [Scalar K] [Field K] [LinearOrder K] [ExactScalar K]

/-- the exact point in an exact field -/
def exactK (K : Type) [Field K] (p : V2 (Flt f)) : V2 K := ⟨(p.x.val : K), (p.y.val : K)⟩

theorem orient_cast (a b c : V2 (Flt f)) :
    orient (exactK K a) (exactK K b) (exactK K c) = ((orient (exact a) (exact b) (exact c) : ℚ) : K) := by
  simp only [orient, exactK, exact]; push_cast; ring

theorem sqDist_cast (a b : V2 (Flt f)) :
    sqDist2 (exactK K a) (exactK K b) = ((sqDist2 (exact a) (exact b) : ℚ) : K) := by
  simp only [sqDist2, exactK, exact]; push_cast; ring

theorem cross_ulps {s B : ℤ} (G : GoodGrid f s B) {a b c : V2 (Flt f)} (ha : OnGrid s B a) (hb : OnGrid s B b)
    (hc : OnGrid s B c) :
    Scalar.ulpsEq (cross2d a b c) Scalar.zero = decide (orient (exact a) (exact b) (exact c) = 0) := by
  obtain ⟨N, h1, h2, h3⟩ := cross_exact G ha hb hc
  have := grid_ulps (GoodGrid.unit2 G) (by have := G.coarse; omega) h1 (is_zero_grid (s + s)) h3
    (by simp)
  rw [show Scalar.ulpsEq (cross2d a b c) Scalar.zero = Flt.ulpsEq (cross2d a b c) Scalar.zero from rfl, this, h2]
  rw [decide_eq_decide]
  have := pow2_ne (s + s)
  simp [this]

theorem cross_pos {s B : ℤ} (G : GoodGrid f s B) {a b c : V2 (Flt f)} (ha : OnGrid s B a) (hb : OnGrid s B b)
    (hc : OnGrid s B c) :
    (cross2d a b c >. Scalar.zero) = decide (0 < orient (exact a) (exact b) (exact c)) := by
  obtain ⟨N, h1, h2, h3⟩ := cross_exact G ha hb hc
  rw [h2]; exact is_lt is_zeroQ h1

theorem cross_neg {s B : ℤ} (G : GoodGrid f s B) {a b c : V2 (Flt f)} (ha : OnGrid s B a) (hb : OnGrid s B b)
    (hc : OnGrid s B c) :
    (Scalar.zero >. cross2d a b c) = decide (orient (exact a) (exact b) (exact c) < 0) := by
  obtain ⟨N, h1, h2, h3⟩ := cross_exact G ha hb hc
  rw [h2]; exact is_lt h1 is_zeroQ

theorem cross_nonneg {s B : ℤ} (G : GoodGrid f s B) {a b c : V2 (Flt f)} (ha : OnGrid s B a) (hb : OnGrid s B b)
    (hc : OnGrid s B c) :
    (cross2d a b c >=. Scalar.zero) = decide (0 ≤ orient (exact a) (exact b) (exact c)) := by
  obtain ⟨N, h1, h2, h3⟩ := cross_exact G ha hb hc
  rw [h2]; exact is_le is_zeroQ h1

theorem cross_zero {s B : ℤ} (G : GoodGrid f s B) {a b c : V2 (Flt f)} (ha : OnGrid s B a) (hb : OnGrid s B b)
    (hc : OnGrid s B c) :
    (cross2d a b c ==. Scalar.zero) = decide (orient (exact a) (exact b) (exact c) = 0) := by
  obtain ⟨N, h1, h2, h3⟩ := cross_exact G ha hb hc
  rw [h2]; exact is_beq h1 is_zeroQ

theorem agree {s B : ℤ} (G : GoodGrid f s B) : Agree (OnGrid (f := f) s B) (exactK K) where
  orient a b c ha hb hc := by
    unfold pointOrientation
    simp only [cross_ulps G ha hb hc, cross_pos G ha hb hc, cross_zero G ha hb hc]
    have hx : cross2d (exactK K a) (exactK K b) (exactK K c) =
        ((orient (exact a) (exact b) (exact c) : ℚ) : K) := by rw [Hull.cross2d_eq, orient_cast]
    simp only [hx, exact_simp, Rat.cast_eq_zero, Rat.cast_pos]
  left a b c ha hb hc := by
    unfold isPointLeft
    rw [cross_pos G ha hb hc, Hull.cross2d_eq, orient_cast]
    simp only [exact_simp, Rat.cast_pos]
  leftC a b c ha hb hc := by
    unfold isPointLeftAllowCollinear
    simp only
    rw [cross_nonneg G ha hb hc, cross_ulps G ha hb hc, Hull.cross2d_eq, orient_cast]
    simp only [exact_simp, Rat.cast_nonneg, Rat.cast_eq_zero]
  pop a b c ha hb hc := by
    rw [cross_neg G ha hb hc, cross_ulps G ha hb hc, Hull.cross2d_eq, orient_cast]
    simp only [exact_simp, Rat.cast_lt_zero, Rat.cast_eq_zero]
  far a b c ha hb hc := by
    obtain ⟨N, h1, h2, h3⟩ := dist_exact G ha hc
    obtain ⟨M, g1, g2, g3⟩ := dist_exact G ha hb
    have e : ∀ p q : V2 (Flt f), (exactK K p).distSq (exactK K q) = ((sqDist2 (exact p) (exact q) : ℚ) : K) := by
      intro p q; rw [← sqDist_cast]; simp only [exact_simp, sqDist2]; ring
    rw [e, e]
    have r : (a.distSq c >. a.distSq b) = decide (sqDist2 (exact a) (exact b) < sqDist2 (exact a) (exact c)) := by
      rw [h2, g2]; exact is_lt g1 h1
    rw [r]
    simp only [exact_simp, Rat.cast_lt]
  pcx a b ha hb := by
    obtain ⟨k1, l1, a1, a2, a3, a4⟩ := OnGrid.coords ha
    obtain ⟨k2, l2, b1, b2, b3, b4⟩ := OnGrid.coords hb
    have h1 : Scalar.le a.x b.x = decide (a.x.val ≤ b.x.val) := is_le (is_self a1.1) (is_self b1.1)
    have h2 : Scalar.ge a.x b.x = decide (b.x.val ≤ a.x.val) := is_le (is_self b1.1) (is_self a1.1)
    unfold Scalar.pcmp
    rw [h1, h2]
    simp only [exactK, exact_simp, Rat.cast_le]
  lty a b ha hb := by
    obtain ⟨k1, l1, a1, a2, a3, a4⟩ := OnGrid.coords ha
    obtain ⟨k2, l2, b1, b2, b3, b4⟩ := OnGrid.coords hb
    have h1 : Scalar.lt a.y b.y = decide (a.y.val < b.y.val) := is_lt (is_self a2.1) (is_self b2.1)
    rw [h1]
    simp only [exactK, exact_simp, Rat.cast_lt]
  beq a b ha hb := by
    obtain ⟨k1, l1, a1, a2, a3, a4⟩ := OnGrid.coords ha
    obtain ⟨k2, l2, b1, b2, b3, b4⟩ := OnGrid.coords hb
    have h1 : Scalar.beq a.x b.x = decide (a.x.val = b.x.val) := is_beq (is_self a1.1) (is_self b1.1)
    have h2 : Scalar.beq a.y b.y = decide (a.y.val = b.y.val) := is_beq (is_self a2.1) (is_self b2.1)
    unfold V2.beq
    rw [h1, h2]
    simp only [exactK, exact_simp, Rat.cast_inj]

end

theorem exactK_rat : exactK (f := f) ℚ = exact := by
  funext p; simp [exactK, exact]

theorem exactK_real : exactK (f := f) ℝ = exactR := by
  funext p; simp [exactK, exactR]

theorem agreeQ {s B : ℤ} (G : GoodGrid f s B) : Agree (OnGrid (f := f) s B) exact :=
  exactK_rat (f := f) ▸ agree G

end Verif.Proofs.FloatHull
