import Verif.Proofs.FloatRound
import Verif.Proofs.FloatHull
import Verif.Proofs.Intersect
/-!
# Intersection of segments with end points on a good grid: every decision is exact
-/
namespace Verif.Proofs.FloatIntersect
open Verif Verif.Model Verif.Spec Fl Flt Scalar Verif.Proofs.FloatHull
variable {f : Fmt} [Libm f]
set_option linter.unusedSectionVars false
set_option linter.unusedVariables false

/-- rounding does not leave an interval with representable ends -/
theorem abs_roundQ_le {q r : ℚ} (hr : Repr f r) (h : |q| ≤ r) : |roundQ f q| ≤ r := by
  rw [abs_le] at h ⊢
  have h1 := roundQ_mono f h.1
  have h2 := roundQ_mono f h.2
  rw [roundQ_neg, hr.fix] at h1
  rw [hr.fix] at h2
  exact ⟨h1, h2⟩

theorem is_fmax {a b : Flt f} {x y : ℚ} (ha : Is a x) (hb : Is b y) : Is (Scalar.fmax a b) (max x y) := by
  have ha0 : a ≠ nan := by rintro rfl; simp [Is, isFin] at ha
  have hb0 : b ≠ nan := by rintro rfl; simp [Is, isFin] at hb
  show Is (Flt.fmax a b) _
  unfold Flt.fmax
  rw [if_neg ha0, if_neg hb0, is_lt ha hb]
  by_cases h : x < y
  · rw [decide_eq_true h, if_pos rfl, max_eq_right h.le]; exact hb
  · rw [decide_eq_false h, if_neg (by simp), max_eq_left (not_lt.1 h)]; exact ha

theorem is_fmin {a b : Flt f} {x y : ℚ} (ha : Is a x) (hb : Is b y) : Is (Scalar.fmin a b) (min x y) := by
  have ha0 : a ≠ nan := by rintro rfl; simp [Is, isFin] at ha
  have hb0 : b ≠ nan := by rintro rfl; simp [Is, isFin] at hb
  show Is (Flt.fmin a b) _
  unfold Flt.fmin
  rw [if_neg ha0, if_neg hb0, is_lt hb ha]
  by_cases h : y < x
  · rw [decide_eq_true h, if_pos rfl, min_eq_right h.le]; exact hb
  · rw [decide_eq_false h, if_neg (by simp), min_eq_left (not_lt.1 h)]; exact ha

theorem is_one : Is (Scalar.one : Flt f) 1 := by
  have h := repr_int f 1 (by simpa using one_le_pow₀ (by norm_num))
  exact is_ofQ_repr false (by simpa using h)

/-- the quotient of two exact numbers: finite, and on the right side of 0 and 1 -/
theorem ratio {x y : Flt f} {n d : ℤ} {U : ℚ} (hU : U ≠ 0) (hx : Is x (n * U)) (hy : Is y (d * U)) (hd : d ≠ 0)
    (bn : |n| < 2 ^ (f.prec - 3)) (bd : |d| < 2 ^ (f.prec - 3)) :
    Is (Scalar.div x y) (roundQ f ((n : ℚ) / d)) ∧ (0 ≤ roundQ f ((n : ℚ) / d) ↔ 0 ≤ (n : ℚ) / d) ∧
      (roundQ f ((n : ℚ) / d) ≤ 1 ↔ (n : ℚ) / d ≤ 1) ∧ |(n : ℚ) / d| ≤ |(n : ℚ)| := by
  have hp := f.hprec
  have hdq : (d : ℚ) ≠ 0 := by exact_mod_cast hd
  have e : (n : ℚ) * U / (d * U) = n / d := by field_simp
  have hd1 : (1 : ℚ) ≤ |(d : ℚ)| := by exact_mod_cast Int.one_le_abs hd
  have habs : |(n : ℚ) / d| ≤ |(n : ℚ)| := by
    rw [abs_div]; exact div_le_self (abs_nonneg _) hd1
  have hP : (2 : ℤ) ^ f.prec = 8 * 2 ^ (f.prec - 3) := pow_split f
  have hPp : (0 : ℤ) < 2 ^ (f.prec - 3) := by positivity
  have hfin : |roundQ f ((n : ℚ) / d)| < pow2 f.emax := by
    have h1 : |roundQ f ((n : ℚ) / d)| ≤ ((|n| : ℤ) : ℚ) :=
      abs_roundQ_le (repr_int f |n| (by rw [abs_abs]; linarith)) (by push_cast; exact habs)
    refine lt_of_le_of_lt h1 ?_
    have h2 : ((|n| : ℤ) : ℚ) ≤ pow2 f.prec := by
      rw [pow2_nat]; exact_mod_cast (by linarith : |n| ≤ 2 ^ f.prec)
    exact lt_of_le_of_lt h2 (pow2_lt (by have := f.hemax; omega))
  have hdiv := is_div hx hy (mul_ne_zero hdq hU) (by rwa [e])
  rw [e] at hdiv
  -- the smallest distance from 0 and 1
  obtain ⟨w, hw⟩ : ∃ w, w = pow2 (3 - f.prec) := ⟨_, rfl⟩
  have hwp : 0 < w := hw ▸ pow2_pos _
  have hwd : w ≤ 1 / |(d : ℚ)| := by
    rw [le_div_iff₀ (by linarith)]
    have h1 : w * 2 ^ (f.prec - 3) = 1 := by
      rw [hw, ← pow2_nat, ← pow2_add, show (3 - (f.prec : ℤ)) + ((f.prec - 3 : ℕ) : ℤ) = 0 by omega, pow2_zero]
    have h2 : |(d : ℚ)| ≤ 2 ^ (f.prec - 3) := by exact_mod_cast bd.le
    calc w * |(d : ℚ)| ≤ w * 2 ^ (f.prec - 3) := mul_le_mul_of_nonneg_left h2 hwp.le
      _ = 1 := h1
  have uok : UnitOk f (3 - f.prec) := ⟨by have := f.hemin; omega, by have := f.hemax; omega⟩
  have r1 : Repr f w := by
    have := repr_grid (f := f) (e := 3 - f.prec) (n := 1) uok (by simpa using one_le_pow₀ (by norm_num))
    rw [hw]; simpa using this
  have r2 : Repr f (1 + w) := by
    have := repr_grid (f := f) (e := 3 - f.prec) (n := 2 ^ (f.prec - 3) + 1) uok (by
      rw [abs_of_pos (by positivity), hP]; omega)
    have h1 : (2 : ℚ) ^ (f.prec - 3) * w = 1 := by
      rw [hw, ← pow2_nat, ← pow2_add, show ((f.prec - 3 : ℕ) : ℤ) + (3 - (f.prec : ℤ)) = 0 by omega, pow2_zero]
    rw [← hw] at this
    push_cast at this
    rwa [add_mul, h1, one_mul] at this
  -- integer gaps
  have gap : ∀ m : ℤ, m ≠ 0 → w ≤ |(m : ℚ) / d| := by
    intro m hm
    have : (1 : ℚ) ≤ |(m : ℚ)| := by exact_mod_cast Int.one_le_abs hm
    rw [abs_div]
    exact hwd.trans (div_le_div_of_nonneg_right this (abs_nonneg _))
  refine ⟨hdiv, ⟨fun h => ?_, fun h => roundQ_nonneg f h⟩, ⟨fun h => ?_, fun h => ?_⟩, habs⟩
  · by_contra hc
    have hc := not_le.1 hc
    have hn : n ≠ 0 := by rintro rfl; simp at hc
    have h1 := gap n hn
    rw [abs_of_neg hc] at h1
    have := roundQ_mono f (show (n : ℚ) / d ≤ -w by linarith)
    rw [roundQ_neg, r1.fix] at this
    linarith
  · by_contra hc
    have hc := not_le.1 hc
    have e1 : (n : ℚ) / d - 1 = ((n - d : ℤ) : ℚ) / d := by push_cast; field_simp
    have hn : n - d ≠ 0 := by
      intro h0; rw [h0] at e1; simp at e1; linarith
    have h1 := gap (n - d) hn
    rw [← e1, abs_of_pos (by linarith)] at h1
    have := roundQ_mono f (show 1 + w ≤ (n : ℚ) / d by linarith)
    rw [r2.fix] at this
    linarith
  · have := roundQ_mono f h
    have h1 := (repr_int f 1 (by simpa using one_le_pow₀ (by norm_num))).fix
    push_cast at h1
    rwa [h1] at this

/-- the error bound: `32 B` units of `2^(s - prec)` -/
def delta (f : Fmt) (s B : ℤ) : ℚ := 32 * B * (pow2 (-f.prec) * pow2 s)

/-- a float near a rational -/
def Near (δ : ℚ) (x : Flt f) (q : ℚ) : Prop := x.isFin = true ∧ |x.val - q| ≤ δ

/-- a good grid with a bound of at least 1: what the error analysis needs -/
theorem grid_facts {s B : ℤ} (G : GoodGrid f s B) (hB : 1 ≤ B) :
    (64 : ℚ) * B * B < 2 ^ f.prec ∧ pow2 (-f.prec) * 2 ^ f.prec = 1 ∧
      pow2 (f.emin - 1) ≤ pow2 (-f.prec) * pow2 s / 64 ∧ pow2 (f.emin - 1) ≤ pow2 (-f.prec) / 64 ∧
      pow2 (-f.prec) ≤ 1 / 64 := by
  have hp := f.hprec
  have h1 : (64 : ℤ) * B * B < 2 ^ f.prec := by have := G.small; rw [pow_split]; nlinarith
  have h1' : (64 : ℚ) * B * B < 2 ^ f.prec := by exact_mod_cast h1
  have h2 : pow2 (-f.prec) * 2 ^ f.prec = 1 := by rw [← pow2_nat, ← pow2_add]; simp [pow2_zero]
  have hm := f.hemin
  have hc := G.coarse
  have h64 : (7 : ℤ) ≤ f.prec := by
    by_contra hcon
    have h6 : f.prec ≤ 6 := by omega
    have : (2 : ℤ) ^ f.prec ≤ 2 ^ 6 := pow_le_pow_right₀ (by norm_num) h6
    nlinarith
  have e64 : ∀ e : ℤ, pow2 e / 64 = pow2 (e - 6) := by
    intro e; rw [show e - 6 = e + -6 by ring, pow2_add, pow2_eq (-6)]; norm_num; ring
  refine ⟨h1', h2, ?_, ?_, ?_⟩
  · rw [← pow2_add, e64]; exact pow2_le (by omega)
  · rw [e64]; exact pow2_le (by omega)
  · have := e64 0
    rw [pow2_zero] at this
    rw [this]; exact pow2_le (by omega)

/-- rounding a number below `M` units -/
theorem round_err_le {s : ℤ} {q : ℚ} {M : ℚ} (hq : |q| ≤ M * pow2 s)
    (hη : pow2 (f.emin - 1) ≤ pow2 (-f.prec) * pow2 s / 64) :
    |roundQ f q - q| ≤ (M + 1 / 64) * (pow2 (-f.prec) * pow2 s) := by
  have h := roundQ_rel f q
  have := mul_le_mul_of_nonneg_left hq (pow2_pos (-f.prec)).le
  linarith

/-- one coordinate of `p + r * t` -/
theorem axpy_far {s B : ℤ} (G : GoodGrid f s B) (hB : 1 ≤ B) {p r t : Flt f} {k m : ℤ} {β τ c : ℚ}
    (hp : Is p (k * pow2 s)) (hr : Is r (m * pow2 s)) (ht : Is t β)
    (hmt : |(m : ℚ) * τ| ≤ 2 * B) (hb : |(k : ℚ) + m * τ| ≤ B) (hc : |(m : ℚ) * (β - τ)| ≤ c * B * pow2 (-f.prec))
    (hc14 : c ≤ 16) :
    ∃ x, Is (Scalar.add p (Scalar.mul r t)) x ∧ x = roundQ f (k * pow2 s + roundQ f (m * pow2 s * β)) ∧
      |x - ((k : ℚ) + m * τ) * pow2 s| ≤ (c + 10) * B * (pow2 (-f.prec) * pow2 s) := by
  obtain ⟨g1, g2, g3, g4, g5⟩ := grid_facts G hB
  obtain ⟨ε, hε⟩ : ∃ ε, ε = pow2 (-f.prec) := ⟨_, rfl⟩
  obtain ⟨u, hu⟩ : ∃ u, u = pow2 s := ⟨_, rfl⟩
  rw [← hε] at hc g2 g3 g4 g5
  have hεp : 0 < ε := hε ▸ pow2_pos _
  have hup : 0 < u := hu ▸ pow2_pos _
  have hBq : (1 : ℚ) ≤ B := by exact_mod_cast hB
  -- `W = B ε u`
  obtain ⟨W, hW⟩ : ∃ W, W = B * ε * u := ⟨_, rfl⟩
  have hWp : 0 < W := hW ▸ mul_pos (mul_pos (by linarith) hεp) hup
  have hWu : 64 * W < u := by
    have h1 : 64 * B * ε < 1 := by
      have : 64 * B * ε ≤ 64 * B * B * ε := by
        have := mul_le_mul_of_nonneg_left hBq (show 0 ≤ 64 * B * ε by positivity)
        linarith
      have h2 : 64 * B * B * ε < 2 ^ f.prec * ε := mul_lt_mul_of_pos_right g1 hεp
      linarith
    have := mul_lt_mul_of_pos_right h1 hup
    rw [hW]; linarith
  have hεW : ε * u ≤ W := by
    have := mul_le_mul_of_nonneg_right hBq (mul_pos hεp hup).le
    rw [hW]; linarith
  have hcW : c * W ≤ 16 * W := mul_le_mul_of_nonneg_right hc14 hWp.le
  have huB : u ≤ B * u := by
    have := mul_le_mul_of_nonneg_right hBq hup.le; linarith
  -- the product
  obtain ⟨P, hP⟩ : ∃ P, P = (m : ℚ) * u * β := ⟨_, rfl⟩
  have hPerr : |P - m * τ * u| ≤ c * W := by
    have : P - m * τ * u = m * (β - τ) * u := by rw [hP]; ring
    rw [this, abs_mul, abs_of_pos hup]
    have := mul_le_mul_of_nonneg_right hc hup.le
    rw [hW]; linarith
  have hPabs : |P| ≤ (3 * B) * u := by
    have h1 : |P| ≤ |P - m * τ * u| + |m * τ * u| := by
      have := abs_add_le (P - m * τ * u) (m * τ * u); simpa using this
    have h2 : |(m : ℚ) * τ * u| ≤ 2 * B * u := by
      rw [abs_mul, abs_of_pos hup]; exact mul_le_mul_of_nonneg_right hmt hup.le
    linarith
  have rB : Repr f ((3 * B : ℤ) * u) := by
    rw [hu]
    apply repr_grid (GoodGrid.unit G)
    rw [abs_of_nonneg (by omega), pow_split]
    have := G.small
    have : B ≤ B * B := le_mul_of_one_le_left (by omega) hB
    omega
  have fin : ∀ q : ℚ, |q| ≤ 3 * B * u → |roundQ f q| < pow2 f.emax := by
    intro q hq
    have h1 := abs_roundQ_le rB (by push_cast; exact hq)
    exact lt_of_le_of_lt (h1.trans (le_abs_self _)) rB.1
  have hmul := is_mul hr ht (by rw [← hu, ← hP]; exact fin P hPabs)
  rw [← hu, ← hP] at hmul
  have hR1 := round_err_le (f := f) (s := s) (q := P) (M := 3 * B) (by rw [← hu]; exact hPabs) (by rw [← hε]; exact g3)
  rw [← hε, ← hu] at hR1
  have hR1 : |roundQ f P - P| ≤ 3.5 * W := by
    refine hR1.trans ?_
    have : (3 * (B : ℚ) + 1 / 64) * (ε * u) = 3 * W + 1 / 64 * (ε * u) := by rw [hW]; ring
    rw [this]; linarith
  obtain ⟨Q, hQ⟩ : ∃ Q, Q = roundQ f P := ⟨_, rfl⟩
  rw [← hQ] at hmul hR1
  -- the sum
  obtain ⟨X, hX⟩ : ∃ X, X = ((k : ℚ) + m * τ) * u := ⟨_, rfl⟩
  have hXabs : |X| ≤ B * u := by
    rw [hX, abs_mul, abs_of_pos hup]; exact mul_le_mul_of_nonneg_right hb hup.le
  obtain ⟨S, hS⟩ : ∃ S, S = (k : ℚ) * u + Q := ⟨_, rfl⟩
  have hS1 : |S - X| ≤ c * W + 3.5 * W := by
    have : S - X = (P - m * τ * u) + (Q - P) := by rw [hS, hX]; ring
    rw [this]
    exact (abs_add_le _ _).trans (add_le_add hPerr hR1)
  have hSabs : |S| ≤ 2 * B * u := by
    have h1 : |S| ≤ |S - X| + |X| := by
      have := abs_add_le (S - X) X; simpa using this
    linarith
  have hadd := is_add hp hmul (by rw [← hu, ← hS]; exact fin _ (hSabs.trans (by linarith)))
  have hR2 := round_err_le (f := f) (s := s) (q := S) (M := 2 * B) (by rw [← hu]; exact hSabs)
    (by rw [← hε]; exact g3)
  rw [← hu, ← hS] at hadd
  rw [← hε, ← hu] at hR2
  have hR2 : |roundQ f S - S| ≤ 2.5 * W := by
    refine hR2.trans ?_
    have : (2 * (B : ℚ) + 1 / 64) * (ε * u) = 2 * W + 1 / 64 * (ε * u) := by rw [hW]; ring
    rw [this]; linarith
  refine ⟨_, hadd, by rw [hS, hQ, hP, hu], ?_⟩
  rw [← hε, ← hu, ← hX]
  have e1 : roundQ f S - X = (roundQ f S - S) + (S - X) := by ring
  have e2 : (c + 10) * B * (ε * u) = c * W + 10 * W := by rw [hW]; ring
  rw [e1, e2]
  refine (abs_add_le _ _).trans ?_
  linarith

/-- one coordinate of `p + r * t` with `t` between -1 and 1 -/
theorem axpy {s B : ℤ} (G : GoodGrid f s B) (hB : 1 ≤ B) {p r t : Flt f} {k m : ℤ} {β τ c : ℚ}
    (hp : Is p (k * pow2 s)) (hr : Is r (m * pow2 s)) (ht : Is t β) (hm : |m| ≤ 2 * B)
    (hτ : |τ| ≤ 1) (hb : |(k : ℚ) + m * τ| ≤ B) (hc : |(m : ℚ) * (β - τ)| ≤ c * B * pow2 (-f.prec))
    (hc14 : c ≤ 16) :
    ∃ x, Is (Scalar.add p (Scalar.mul r t)) x ∧ x = roundQ f (k * pow2 s + roundQ f (m * pow2 s * β)) ∧
      |x - ((k : ℚ) + m * τ) * pow2 s| ≤ (c + 10) * B * (pow2 (-f.prec) * pow2 s) := by
  refine axpy_far G hB hp hr ht ?_ hb hc hc14
  have hmq : |(m : ℚ)| ≤ 2 * B := by exact_mod_cast hm
  rw [abs_mul]
  calc |(m : ℚ)| * |τ| ≤ |(m : ℚ)| * 1 := mul_le_mul_of_nonneg_left hτ (abs_nonneg _)
    _ ≤ 2 * B := by linarith

/-! ### Collinear segments -/

/-- the part of `intersection_point` for parallel segments, after sorting the ends -/
def parTail {α : Type} [Scalar α] (p r q s : V2 α) : Option (Intersection α) :=
  let qMinusP := q.sub p
  let qMinusPCrossR := qMinusP.perpDot r
  if Scalar.ulpsEq qMinusPCrossR zero then
    let rDotR := r.dot r
    let t0 := qMinusP.dot r /. rDotR
    let t1 := t0 +. (s.dot r /. rDotR)
    let overlapStart := p.add (r.smul (Scalar.fmax t0 zero))
    let overlapEnd := p.add (r.smul (Scalar.fmin t1 one))
    if overlapStart.beq overlapEnd then some (.point overlapStart)
    else some (.overlap ⟨overlapStart, overlapEnd⟩)
  else none

/-- a float point near a rational point -/
def CloseV (δ : ℚ) (p : V2 (Flt f)) (q : V2 ℚ) : Prop := Near δ p.x q.x ∧ Near δ p.y q.y

/-- a float result near an exact result of the same kind -/
def CloseI (δ : ℚ) : Option (Intersection (Flt f)) → Option (Intersection ℚ) → Prop
  | none, none => True
  | some (.point p), some (.point q) => CloseV δ p q
  | some (.overlap l), some (.overlap m) => CloseV δ l.start m.start ∧ CloseV δ l.end m.end
  | _, _ => False

/-- the same with a further relation between the points `single` of the two results -/
def CloseR (δ : ℚ) (R : V2 (Flt f) → V2 ℚ → Prop) : Option (Intersection (Flt f)) → Option (Intersection ℚ) → Prop
  | none, none => True
  | some (.point p), some (.point q) => CloseV δ p q ∧ R p q
  | some (.overlap l), some (.overlap m) => CloseV δ l.start m.start ∧ CloseV δ l.end m.end ∧ R l.start m.start
  | _, _ => False

theorem CloseR.close {δ : ℚ} {R : V2 (Flt f) → V2 ℚ → Prop} {i : Option (Intersection (Flt f))} {j : Option (Intersection ℚ)}
    (h : CloseR δ R i j) : CloseI δ i j := by
  match i, j, h with
  | none, none, _ => trivial
  | some (.point p), some (.point q), h => exact h.1
  | some (.overlap l), some (.overlap m), h => exact ⟨h.1, h.2.1⟩

theorem CloseR.mono {δ : ℚ} {R S : V2 (Flt f) → V2 ℚ → Prop} {i : Option (Intersection (Flt f))} {j : Option (Intersection ℚ)}
    (h : CloseR δ R i j) (hRS : ∀ p q, R p q → S p q) : CloseR δ S i j := by
  match i, j, h with
  | none, none, _ => trivial
  | some (.point p), some (.point q), h => exact ⟨h.1, hRS _ _ h.2⟩
  | some (.overlap l), some (.overlap m), h => exact ⟨h.1, h.2.1, hRS _ _ h.2.2⟩

/-- a float vector that is an integer vector times the unit -/
def IsV (s : ℤ) (p : V2 (Flt f)) (k l : ℤ) : Prop := Is p.x (k * pow2 s) ∧ Is p.y (l * pow2 s)

/-- lexicographically positive -/
def LexI (x y : ℤ) : Prop := 0 < x ∨ x = 0 ∧ 0 < y

theorem perp_exact {s B : ℤ} (G : GoodGrid f s B) (hB : 1 ≤ B) {v w : V2 (Flt f)} {a b c d : ℤ} (hv : IsV s v a b)
    (hw : IsV s w c d) (ha : |a| ≤ 2 * B) (hb : |b| ≤ 2 * B) (hc : |c| ≤ 2 * B) (hd : |d| ≤ 2 * B) :
    Is (v.perpDot w) ((a * d - b * c : ℤ) * pow2 (s + s)) ∧ |a * d - b * c| < 2 ^ (f.prec - 3) := by
  have hsm := G.small
  have m1 := abs_mul_le ha hd
  have m2 := abs_mul_le hb hc
  have hBB : 0 ≤ B * B := mul_self_nonneg B
  have e : 2 * B * (2 * B) = 4 * (B * B) := by ring
  rw [e] at m1 m2
  have p1 := grid_mul (GoodGrid.unit2 G) hv.1 hw.2 (by rw [pow_split]; omega)
  have p2 := grid_mul (GoodGrid.unit2 G) hv.2 hw.1 (by rw [pow_split]; omega)
  have hN : |a * d - b * c| < 2 ^ (f.prec - 3) := by
    rw [abs_le] at m1 m2
    rw [abs_lt]
    constructor <;> omega
  exact ⟨grid_sub (GoodGrid.unit2 G) p1 p2 (by rw [pow_split]; omega), hN⟩

theorem dot_exact {s B : ℤ} (G : GoodGrid f s B) (hB : 1 ≤ B) {v w : V2 (Flt f)} {a b c d : ℤ} (hv : IsV s v a b)
    (hw : IsV s w c d) (ha : |a| ≤ 2 * B) (hb : |b| ≤ 2 * B) (hc : |c| ≤ 2 * B) (hd : |d| ≤ 2 * B) :
    Is (v.dot w) ((a * c + b * d : ℤ) * pow2 (s + s)) ∧ |a * c + b * d| < 2 ^ (f.prec - 3) := by
  have hsm := G.small
  have m1 := abs_mul_le ha hc
  have m2 := abs_mul_le hb hd
  have hBB : 0 ≤ B * B := mul_self_nonneg B
  have e : 2 * B * (2 * B) = 4 * (B * B) := by ring
  rw [e] at m1 m2
  have p1 := grid_mul (GoodGrid.unit2 G) hv.1 hw.1 (by rw [pow_split]; omega)
  have p2 := grid_mul (GoodGrid.unit2 G) hv.2 hw.2 (by rw [pow_split]; omega)
  have hN : |a * c + b * d| < 2 ^ (f.prec - 3) := by
    rw [abs_le] at m1 m2
    rw [abs_lt]
    constructor <;> omega
  exact ⟨grid_add (GoodGrid.unit2 G) p1 p2 (by rw [pow_split]; omega), hN⟩

theorem ulps_zero {s B : ℤ} (G : GoodGrid f s B) {x : Flt f} {n : ℤ} (h : Is x (n * pow2 (s + s)))
    (hn : |n| < 2 ^ (f.prec - 3)) : Scalar.ulpsEq x Scalar.zero = decide (n = 0) :=
  grid_ulps (GoodGrid.unit2 G) (by have := G.coarse; omega) h (is_zero_grid (s + s)) hn (by simp)

/-- a convex combination stays in the box -/
theorem conv_le {k m B : ℤ} {τ : ℚ} (h1 : |k| ≤ B) (h2 : |k + m| ≤ B) (h0 : 0 ≤ τ) (h3 : τ ≤ 1) :
    |(k : ℚ) + m * τ| ≤ B := by
  have h1 : |(k : ℚ)| ≤ B := by exact_mod_cast h1
  have h2 : |(k : ℚ) + m| ≤ B := by exact_mod_cast h2
  have : (k : ℚ) + m * τ = (1 - τ) * k + τ * (k + m) := by ring
  rw [this]
  refine (abs_add_le _ _).trans ?_
  rw [abs_mul, abs_mul, abs_of_nonneg (show 0 ≤ 1 - τ by linarith), abs_of_nonneg h0]
  have a1 := mul_le_mul_of_nonneg_left h1 (show 0 ≤ 1 - τ by linarith)
  have a2 := mul_le_mul_of_nonneg_left h2 h0
  linarith

/-- the parameter of a point between the ends is computed with a small relative error -/
theorem unit_err {s B : ℤ} (G : GoodGrid f s B) (hB : 1 ≤ B) {T : ℚ} (h0 : 0 ≤ T) (h1 : T ≤ 1) {m : ℤ} (hm : |m| ≤ 2 * B) :
    |(m : ℚ) * (roundQ f T - T)| ≤ 3 * B * pow2 (-f.prec) := by
  obtain ⟨g1, g2, g3, g4, g5⟩ := grid_facts G hB
  have hε := pow2_pos (-(f.prec : ℤ))
  have hBq : (1 : ℚ) ≤ B := by exact_mod_cast hB
  have hmq : |(m : ℚ)| ≤ 2 * B := by exact_mod_cast hm
  have h := roundQ_rel f T
  rw [abs_of_nonneg h0] at h
  have h2 : pow2 (-(f.prec : ℤ)) * T ≤ pow2 (-(f.prec : ℤ)) := mul_le_of_le_one_right hε.le h1
  rw [abs_mul]
  have h3 : |roundQ f T - T| ≤ 65 / 64 * pow2 (-(f.prec : ℤ)) := by linarith
  calc |(m : ℚ)| * |roundQ f T - T| ≤ (2 * B) * (65 / 64 * pow2 (-(f.prec : ℤ))) :=
        mul_le_mul hmq h3 (abs_nonneg _) (by linarith)
    _ ≤ 3 * B * pow2 (-(f.prec : ℤ)) := by
        have := mul_pos (show (0 : ℚ) < B by linarith) hε
        linarith

theorem min_lip (x y : ℚ) : |min x 1 - min y 1| ≤ |x - y| := by
  rcases le_total x 1 with hx | hx <;> rcases le_total y 1 with hy | hy
  · rw [min_eq_left hx, min_eq_left hy]
  · rw [min_eq_left hx, min_eq_right hy, abs_of_nonpos (by linarith), abs_of_nonpos (by linarith)]; linarith
  · rw [min_eq_right hx, min_eq_left hy, abs_of_nonneg (by linarith), abs_of_nonneg (by linarith)]; linarith
  · rw [min_eq_right hx, min_eq_right hy]; simp

/-- the error of the second parameter -/
theorem second_err {s B : ℤ} (G : GoodGrid f s B) (hB : 1 ≤ B) {T S : ℚ} {m a b : ℤ} (ha : (m : ℚ) * T = a)
    (hb : (m : ℚ) * S = b) (hm : |m| ≤ 2 * B) (ha' : |a| ≤ 2 * B) (hb' : |b| ≤ 2 * B) :
    |(m : ℚ) * (min (roundQ f (roundQ f T + roundQ f S)) 1 - min (T + S) 1)| ≤ 9 * B * pow2 (-f.prec) := by
  obtain ⟨g1, g2, g3, g4, g5⟩ := grid_facts G hB
  have hε := pow2_pos (-(f.prec : ℤ))
  obtain ⟨ε, hεd⟩ : ∃ ε, ε = pow2 (-(f.prec : ℤ)) := ⟨_, rfl⟩
  obtain ⟨η, hηd⟩ : ∃ η, η = pow2 (f.emin - 1) := ⟨_, rfl⟩
  have hη : 0 < η := hηd ▸ pow2_pos _
  have hBq : (1 : ℚ) ≤ B := by exact_mod_cast hB
  have hmq : |(m : ℚ)| ≤ 2 * B := by exact_mod_cast hm
  have haq : |(a : ℚ)| ≤ 2 * B := by exact_mod_cast ha'
  have hbq : |(b : ℚ)| ≤ 2 * B := by exact_mod_cast hb'
  have e1 := roundQ_rel f T
  have e2 := roundQ_rel f S
  have e3 := roundQ_rel f (roundQ f T + roundQ f S)
  rw [← hεd, ← hηd] at e1 e2 e3
  rw [← hεd] at g4 g5 hε ⊢
  rw [← hηd] at g4
  obtain ⟨x, hx⟩ : ∃ x, x = roundQ f T := ⟨_, rfl⟩
  obtain ⟨y, hy⟩ : ∃ y, y = roundQ f S := ⟨_, rfl⟩
  obtain ⟨z, hz⟩ : ∃ z, z = roundQ f (roundQ f T + roundQ f S) := ⟨_, rfl⟩
  rw [← hz]
  rw [← hz] at e3
  rw [← hx] at e1 e3
  rw [← hy] at e2 e3
  -- everything times `|m|`
  obtain ⟨M, hM⟩ : ∃ M, M = |(m : ℚ)| := ⟨_, rfl⟩
  have hM0 : 0 ≤ M := hM ▸ abs_nonneg _
  rw [← hM] at hmq
  have ma : M * |T| ≤ 2 * B := by rw [hM, ← abs_mul, ha]; exact haq
  have mb : M * |S| ≤ 2 * B := by rw [hM, ← abs_mul, hb]; exact hbq
  have f1 : M * |x - T| ≤ ε * (2 * B) + 2 * B * η := by
    have h1 := mul_le_mul_of_nonneg_left e1 hM0
    have h2 := mul_le_mul_of_nonneg_left ma hε.le
    have h3 := mul_le_mul_of_nonneg_right hmq hη.le
    linarith
  have f2 : M * |y - S| ≤ ε * (2 * B) + 2 * B * η := by
    have h1 := mul_le_mul_of_nonneg_left e2 hM0
    have h2 := mul_le_mul_of_nonneg_left mb hε.le
    have h3 := mul_le_mul_of_nonneg_right hmq hη.le
    linarith
  obtain ⟨b2, hb2⟩ : ∃ b2, b2 = 2 * (B : ℚ) := ⟨_, rfl⟩
  rw [← hb2] at f1 f2 ma mb hmq
  have hb2p : 0 < b2 := by rw [hb2]; linarith
  -- `2 B η ≤ 2 B ε / 64`
  have hη' : b2 * η ≤ ε * b2 / 64 := by
    have := mul_le_mul_of_nonneg_left g4 hb2p.le; linarith
  have hεε : ε * (ε * b2) ≤ ε * b2 / 64 := by
    have := mul_le_mul_of_nonneg_right g5 (mul_pos hε hb2p).le; linarith
  have f0 : M * |x + y| ≤ 2 * b2 + 2 * (ε * b2 + b2 * η) := by
    have h1 : |x + y| ≤ |x - T| + |y - S| + (|T| + |S|) := by
      have e : x + y = (x - T) + (y - S) + (T + S) := by ring
      rw [e]
      refine (abs_add_le _ _).trans (add_le_add (abs_add_le _ _) (abs_add_le _ _))
    have := mul_le_mul_of_nonneg_left h1 hM0
    linarith
  have f3 : M * |z - (x + y)| ≤ ε * (2 * b2 + 2 * (ε * b2 + b2 * η)) + b2 * η := by
    have h1 := mul_le_mul_of_nonneg_left e3 hM0
    have h2 := mul_le_mul_of_nonneg_left f0 hε.le
    have h3 := mul_le_mul_of_nonneg_right hmq hη.le
    linarith
  have f4 : M * |z - (T + S)| ≤ 9 * B * ε := by
    have h1 : |z - (T + S)| ≤ |z - (x + y)| + (|x - T| + |y - S|) := by
      have e : z - (T + S) = (z - (x + y)) + ((x - T) + (y - S)) := by ring
      rw [e]
      exact (abs_add_le _ _).trans (add_le_add le_rfl (abs_add_le _ _))
    have h2 := mul_le_mul_of_nonneg_left h1 hM0
    have h3 : ε * (b2 * η) ≤ ε * b2 / 64 := by
      have := mul_le_mul_of_nonneg_right g5 (mul_pos hb2p hη).le
      have := mul_pos hb2p hη
      linarith
    have h4 : 9 * (B : ℚ) * ε = 4.5 * (ε * b2) := by rw [hb2]; ring
    have := mul_pos hε hb2p
    rw [h4]
    linarith
  rw [abs_mul, ← hM]
  exact (mul_le_mul_of_nonneg_left (min_lip _ _) hM0).trans f4

theorem near_of {s B : ℤ} {x : Flt f} {v X c : ℚ} (h : Is x v) (hB : 1 ≤ B) (hc : c ≤ 32)
    (he : |v - X| ≤ c * B * (pow2 (-f.prec) * pow2 s)) : Near (delta f s B) x X := by
  refine ⟨h.1, ?_⟩
  rw [h.2]
  refine he.trans ?_
  unfold delta
  have hBq : (1 : ℚ) ≤ B := by exact_mod_cast hB
  have := mul_pos (pow2_pos (-(f.prec : ℤ))) (pow2_pos s)
  have h2 : c * (B * (pow2 (-(f.prec : ℤ)) * pow2 s)) ≤ 32 * (B * (pow2 (-(f.prec : ℤ)) * pow2 s)) :=
    mul_le_mul_of_nonneg_right hc (by positivity)
  linarith

/-- two floats near different multiples of the unit are different -/
theorem beq_ne {s B : ℤ} (G : GoodGrid f s B) (hB : 1 ≤ B) {v w : ℚ} {m n : ℤ}
    (h1 : |v - m * pow2 s| ≤ 26 * B * (pow2 (-f.prec) * pow2 s))
    (h2 : |w - n * pow2 s| ≤ 26 * B * (pow2 (-f.prec) * pow2 s)) (hmn : m ≠ n) : v ≠ w := by
  obtain ⟨g1, g2, g3, g4, g5⟩ := grid_facts G hB
  intro e
  have hBq : (1 : ℚ) ≤ B := by exact_mod_cast hB
  have hu := pow2_pos s
  have hε := pow2_pos (-(f.prec : ℤ))
  have hd : (1 : ℚ) ≤ |(m : ℚ) - n| := by
    have : (1 : ℤ) ≤ |m - n| := Int.one_le_abs (by omega)
    exact_mod_cast this
  have h3 : |((m : ℚ) - n) * pow2 s| ≤ 52 * B * (pow2 (-f.prec) * pow2 s) := by
    have e' : ((m : ℚ) - n) * pow2 s = (w - n * pow2 s) - (v - m * pow2 s) := by rw [e]; ring
    rw [e']
    refine (abs_sub _ _).trans ?_
    linarith
  rw [abs_mul, abs_of_pos hu] at h3
  have h4 : 64 * B * pow2 (-(f.prec : ℤ)) < 1 := by
    have a1 : 64 * B * pow2 (-(f.prec : ℤ)) ≤ 64 * B * B * pow2 (-(f.prec : ℤ)) := by
      have := mul_le_mul_of_nonneg_left hBq (show 0 ≤ 64 * B * pow2 (-(f.prec : ℤ)) by positivity)
      linarith
    have a2 : 64 * B * B * pow2 (-(f.prec : ℤ)) < 2 ^ f.prec * pow2 (-(f.prec : ℤ)) := mul_lt_mul_of_pos_right g1 hε
    linarith
  have h5 := mul_le_mul_of_nonneg_right hd hu.le
  have h6 := mul_lt_mul_of_pos_right h4 hu
  have h7 : 0 < B * (pow2 (-(f.prec : ℤ)) * pow2 s) := mul_pos (by linarith) (mul_pos hε hu)
  linarith

/-- an integer vector times the unit -/
def Vq (s : ℤ) (k l : ℤ) : V2 ℚ := ⟨k * pow2 s, l * pow2 s⟩

/-- `p` was computed for `q`: if `q` is the point of the grid `(k, l)` then `p` is that point exactly, and
otherwise `q` is not very near it -/
def Sharp (s B k l : ℤ) (p : V2 (Flt f)) (q : V2 ℚ) : Prop :=
  (q = Vq s k l → IsV s p k l) ∧
    (q ≠ Vq s k l → pow2 s ≤ 8 * (B * B) * |q.x - k * pow2 s| ∨ pow2 s ≤ 8 * (B * B) * |q.y - l * pow2 s|)

/-- points between two points of the grid with a rational parameter are sharp at both ends -/
theorem sharp_ends {s B : ℤ} (G : GoodGrid f s B) (hB : 1 ≤ B) {o p r : V2 (Flt f)} {t : Flt f} {p1 p2 r1 r2 n d : ℤ}
    (hp : IsV s p p1 p2) (hr : IsV s r r1 r2) (bp1 : |p1| ≤ B) (bp2 : |p2| ≤ B) (br1 : |p1 + r1| ≤ B) (br2 : |p2 + r2| ≤ B)
    (hr0 : ¬ (r1 = 0 ∧ r2 = 0)) (hd : d ≠ 0) (hdB : |d| ≤ 8 * (B * B)) {τ : ℚ} (hτ : τ = (n : ℚ) / d) (ht : Is t (roundQ f τ))
    (h0 : 0 ≤ τ) (h1 : τ ≤ 1) (ho : o = p.add (r.smul t)) {q : V2 ℚ} (hq : q = ⟨((p1 : ℚ) + r1 * τ) * pow2 s, ((p2 : ℚ) + r2 * τ) * pow2 s⟩) :
    Sharp s B p1 p2 o q ∧ Sharp s B (p1 + r1) (p2 + r2) o q := by
  have hu := pow2_pos s
  have dr1 : |r1| ≤ 2 * B := by rw [abs_le] at *; constructor <;> omega
  have dr2 : |r2| ≤ 2 * B := by rw [abs_le] at *; constructor <;> omega
  have hrep : ∀ k : ℤ, |k| ≤ 2 * B → roundQ f ((k : ℚ) * pow2 s) = k * pow2 s := by
    intro k hk
    refine (repr_grid (GoodGrid.unit G) ?_).fix
    have := G.small
    have : B ≤ B * B := le_mul_of_one_le_left (by omega) hB
    rw [pow_split]; omega
  obtain ⟨x, ix, vx, -⟩ := axpy G hB hp.1 hr.1 ht dr1 (abs_le.2 ⟨by linarith, h1⟩)
    (conv_le bp1 br1 h0 h1) (unit_err G hB h0 h1 dr1) (by norm_num)
  obtain ⟨y, iy, vy, -⟩ := axpy G hB hp.2 hr.2 ht dr2 (abs_le.2 ⟨by linarith, h1⟩)
    (conv_le bp2 br2 h0 h1) (unit_err G hB h0 h1 dr2) (by norm_num)
  have iox : Is o.x x := by rw [ho]; exact ix
  have ioy : Is o.y y := by rw [ho]; exact iy
  have hdq : (0 : ℚ) < |(d : ℚ)| := by rw [abs_pos]; exact_mod_cast hd
  have hdBq : |(d : ℚ)| ≤ 8 * (B * B) := by exact_mod_cast hdB
  have hr' : (1 : ℚ) ≤ |(r1 : ℚ)| ∨ (1 : ℚ) ≤ |(r2 : ℚ)| := by
    by_cases h : r1 = 0
    · right; exact_mod_cast Int.one_le_abs (fun h2 => hr0 ⟨h, h2⟩)
    · left; exact_mod_cast Int.one_le_abs h
  -- a parameter that is not zero is not very near zero
  have gap : ∀ {σ : ℚ} {m : ℤ}, σ = (m : ℚ) / d → σ ≠ 0 → ∀ {k : ℤ}, (1 : ℚ) ≤ |(k : ℚ)| → ∀ {z : ℚ}, |z| = |(k : ℚ) * σ * pow2 s| →
      pow2 s ≤ 8 * (B * B) * |z| := by
    intro σ m hσ hσ0 k hk z hz
    have hm : (1 : ℚ) ≤ |(m : ℚ)| := by
      have : m ≠ 0 := by rintro rfl; apply hσ0; rw [hσ]; simp
      exact_mod_cast Int.one_le_abs this
    have e1 : 1 ≤ 8 * (B * B : ℚ) * |σ| := by
      rw [hσ, abs_div]
      have : |(m : ℚ)| / |(d : ℚ)| * |(d : ℚ)| = |(m : ℚ)| := div_mul_cancel₀ _ hdq.ne'
      have h3 := mul_le_mul_of_nonneg_right hdBq (show 0 ≤ |(m : ℚ)| / |(d : ℚ)| by positivity)
      linarith
    have e2 : 1 ≤ 8 * (B * B : ℚ) * (|(k : ℚ)| * |σ|) := by
      have h3 : |σ| ≤ |(k : ℚ)| * |σ| := le_mul_of_one_le_left (abs_nonneg _) hk
      have h4 : (0 : ℚ) ≤ 8 * (B * B : ℚ) := by positivity
      exact e1.trans (mul_le_mul_of_nonneg_left h3 h4)
    rw [hz, abs_mul, abs_mul, abs_of_pos hu]
    have := mul_le_mul_of_nonneg_right e2 hu.le
    linarith
  have cancel : ∀ (k : ℤ), (1 : ℚ) ≤ |(k : ℚ)| → (k : ℚ) ≠ 0 := by
    intro k hk h; rw [h] at hk; norm_num at hk
  refine ⟨⟨fun h => ?_, fun h => ?_⟩, fun h => ?_, fun h => ?_⟩
  · have h1' : r1 * τ * pow2 s = 0 ∧ r2 * τ * pow2 s = 0 := by
      rw [hq] at h; simp only [Vq, V2.mk.injEq] at h
      exact ⟨by linarith [h.1], by linarith [h.2]⟩
    have hτ0 : τ = 0 := by
      rcases hr' with h | h
      · rcases mul_eq_zero.1 h1'.1 with e | e
        · exact (mul_eq_zero.1 e).resolve_left (cancel _ h)
        · exact absurd e hu.ne'
      · rcases mul_eq_zero.1 h1'.2 with e | e
        · exact (mul_eq_zero.1 e).resolve_left (cancel _ h)
        · exact absurd e hu.ne'
    rw [hτ0, roundQ_zero, mul_zero, roundQ_zero, add_zero] at vx vy
    rw [hrep p1 (by omega)] at vx
    rw [hrep p2 (by omega)] at vy
    exact ⟨vx ▸ iox, vy ▸ ioy⟩
  · have hτ0 : τ ≠ 0 := by
      rintro rfl; apply h; rw [hq]; simp [Vq]
    rcases hr' with h | h
    · left; exact gap hτ hτ0 h (by rw [hq]; congr 1; ring)
    · right; exact gap hτ hτ0 h (by rw [hq]; congr 1; ring)
  · have h1' : r1 * (1 - τ) * pow2 s = 0 ∧ r2 * (1 - τ) * pow2 s = 0 := by
      rw [hq] at h; simp only [Vq, V2.mk.injEq] at h; push_cast at h
      exact ⟨by linarith [h.1], by linarith [h.2]⟩
    have hτ0 : 1 - τ = 0 := by
      rcases hr' with h | h
      · rcases mul_eq_zero.1 h1'.1 with e | e
        · exact (mul_eq_zero.1 e).resolve_left (cancel _ h)
        · exact absurd e hu.ne'
      · rcases mul_eq_zero.1 h1'.2 with e | e
        · exact (mul_eq_zero.1 e).resolve_left (cancel _ h)
        · exact absurd e hu.ne'
    have hτ1 : τ = 1 := by linarith
    have hone : roundQ f 1 = 1 := by
      have h1 := (repr_int f 1 (by simpa using one_le_pow₀ (by norm_num))).fix
      push_cast at h1
      exact h1
    rw [hτ1, hone, mul_one] at vx vy
    rw [hrep r1 dr1, ← add_mul, ← Int.cast_add, hrep _ (by omega)] at vx
    rw [hrep r2 dr2, ← add_mul, ← Int.cast_add, hrep _ (by omega)] at vy
    exact ⟨vx ▸ iox, vy ▸ ioy⟩
  · have hτ0 : 1 - τ ≠ 0 := by
      intro h2
      have : τ = 1 := by linarith
      apply h; rw [hq, this]; simp [Vq]
    have hσ : 1 - τ = ((d - n : ℤ) : ℚ) / d := by
      have : (d : ℚ) ≠ 0 := by exact_mod_cast hd
      rw [hτ]; push_cast; field_simp
    rcases hr' with h | h
    · left; exact gap hσ hτ0 h (by rw [hq]; rw [← abs_neg]; congr 1; push_cast; ring)
    · right; exact gap hσ hτ0 h (by rw [hq]; rw [← abs_neg]; congr 1; push_cast; ring)

/-- the exact run for collinear segments -/
theorem tail_exact (s : ℤ) (p1 p2 r1 r2 q1 q2 w1 w2 : ℤ) (hD : 0 < r1 * r1 + r2 * r2) :
    parTail (Vq s p1 p2) (Vq s r1 r2) (Vq s q1 q2) (Vq s w1 w2) =
      if (q1 - p1) * r2 - (q2 - p2) * r1 = 0 then
        let T : ℚ := (((q1 - p1) * r1 + (q2 - p2) * r2 : ℤ) : ℚ) / ((r1 * r1 + r2 * r2 : ℤ) : ℚ)
        let S : ℚ := ((w1 * r1 + w2 * r2 : ℤ) : ℚ) / ((r1 * r1 + r2 * r2 : ℤ) : ℚ)
        if ((p1 : ℚ) + r1 * max T 0) * pow2 s = ((p1 : ℚ) + r1 * min (T + S) 1) * pow2 s ∧
            ((p2 : ℚ) + r2 * max T 0) * pow2 s = ((p2 : ℚ) + r2 * min (T + S) 1) * pow2 s then
          some (.point ⟨((p1 : ℚ) + r1 * max T 0) * pow2 s, ((p2 : ℚ) + r2 * max T 0) * pow2 s⟩)
        else some (.overlap ⟨⟨((p1 : ℚ) + r1 * max T 0) * pow2 s, ((p2 : ℚ) + r2 * max T 0) * pow2 s⟩,
          ⟨((p1 : ℚ) + r1 * min (T + S) 1) * pow2 s, ((p2 : ℚ) + r2 * min (T + S) 1) * pow2 s⟩⟩)
      else none := by
  have hu := pow2_pos s
  obtain ⟨u, hud⟩ : ∃ u, u = pow2 s := ⟨_, rfl⟩
  have hDq : (0 : ℚ) < r1 * r1 + r2 * r2 := by exact_mod_cast hD
  unfold parTail Vq
  rw [← hud] at hu ⊢
  by_cases hc : (q1 - p1) * r2 - (q2 - p2) * r1 = 0
  · have hcq : ((q1 : ℚ) - p1) * r2 - (q2 - p2) * r1 = 0 := by exact_mod_cast hc
    rw [if_pos hc, if_pos (by simp only [exact_simp]; linear_combination u * u * hcq)]
    have e1 : ∀ n : ℚ, n * (u * u) / ((r1 * u) * (r1 * u) + (r2 * u) * (r2 * u)) = n / (r1 * r1 + r2 * r2) := by
      intro n
      rw [show (r1 * u) * (r1 * u) + (r2 * u) * (r2 * u) = ((r1 : ℚ) * r1 + r2 * r2) * (u * u) by ring]
      exact mul_div_mul_right _ _ (by positivity)
    simp only [exact_simp]
    rw [show ((q1 : ℚ) * u - p1 * u) * (r1 * u) + (q2 * u - p2 * u) * (r2 * u) =
      ((q1 - p1) * r1 + (q2 - p2) * r2) * (u * u) by ring,
      show (w1 : ℚ) * u * (r1 * u) + w2 * u * (r2 * u) = (w1 * r1 + w2 * r2) * (u * u) by ring, e1, e1]
    push_cast
    generalize ((q1 - p1 : ℚ) * r1 + (q2 - p2) * r2) / (r1 * r1 + r2 * r2) = T
    generalize ((w1 : ℚ) * r1 + w2 * r2) / (r1 * r1 + r2 * r2) = S
    have e2 : ∀ a b t : ℚ, a * u + b * u * t = (a + b * t) * u := by intros; ring
    simp only [e2]
  · rw [if_neg hc, if_neg]
    simp only [exact_simp]
    intro h
    apply hc
    have : (((q1 : ℚ) - p1) * r2 - (q2 - p2) * r1) * (u * u) = 0 := by linear_combination h
    rcases mul_eq_zero.1 this with h | h
    · exact_mod_cast h
    · exact absurd h (by positivity)

theorem roundQ_max (q : ℚ) : max (roundQ f q) 0 = roundQ f (max q 0) := by
  rcases le_total q 0 with h | h
  · have := roundQ_mono f h
    rw [roundQ_zero] at this
    rw [max_eq_right h, max_eq_right this, roundQ_zero]
  · rw [max_eq_left h, max_eq_left (roundQ_nonneg f h)]

theorem roundQ_one : roundQ f 1 = 1 := by
  have h1 := (repr_int f 1 (by simpa using one_le_pow₀ (by norm_num))).fix
  push_cast at h1
  exact h1

/-- collinear segments: the floating point run ends in the same branch, near the exact points -/
theorem tail_close {s B : ℤ} (G : GoodGrid f s B) (hB : 1 ≤ B) {p r q w : V2 (Flt f)}
    {p1 p2 r1 r2 q1 q2 w1 w2 : ℤ} (hp : IsV s p p1 p2) (hr : IsV s r r1 r2) (hq : IsV s q q1 q2)
    (hw : IsV s w w1 w2) (bp1 : |p1| ≤ B) (bp2 : |p2| ≤ B) (br1 : |p1 + r1| ≤ B) (br2 : |p2 + r2| ≤ B)
    (bq1 : |q1| ≤ B) (bq2 : |q2| ≤ B) (bw1 : |q1 + w1| ≤ B) (bw2 : |q2 + w2| ≤ B)
    (lr : LexI r1 r2) (lw : LexI w1 w2) (hpar : r1 * w2 - r2 * w1 = 0)
    (hov : (q1 - p1) * r2 - (q2 - p2) * r1 = 0 →
      (q1 - p1) * r1 + (q2 - p2) * r2 ≤ r1 * r1 + r2 * r2 ∧
        0 ≤ (q1 - p1) * r1 + (q2 - p2) * r2 + (w1 * r1 + w2 * r2)) :
    CloseR (delta f s B) (fun o e => Sharp s B p1 p2 o e ∧ Sharp s B (p1 + r1) (p2 + r2) o e) (parTail p r q w) (parTail (Vq s p1 p2) (Vq s r1 r2) (Vq s q1 q2) (Vq s w1 w2)) := by
  have hD : 0 < r1 * r1 + r2 * r2 := by
    rcases lr with h | ⟨h0, h⟩
    · nlinarith
    · nlinarith
  rw [tail_exact s p1 p2 r1 r2 q1 q2 w1 w2 hD]
  have dr1 : |r1| ≤ 2 * B := by rw [abs_le] at *; constructor <;> omega
  have dr2 : |r2| ≤ 2 * B := by rw [abs_le] at *; constructor <;> omega
  have dw1 : |w1| ≤ 2 * B := by rw [abs_le] at *; constructor <;> omega
  have dw2 : |w2| ≤ 2 * B := by rw [abs_le] at *; constructor <;> omega
  obtain ⟨x1, d1⟩ := grid_diff G hq.1 hp.1 bq1 bp1
  obtain ⟨x2, d2⟩ := grid_diff G hq.2 hp.2 bq2 bp2
  have hqp : IsV s (q.sub p) (q1 - p1) (q2 - p2) := ⟨x1, x2⟩
  obtain ⟨c1, c2⟩ := perp_exact G hB hqp hr d1 d2 dr1 dr2
  have hul := ulps_zero G c1 c2
  unfold parTail
  simp only [hul]
  by_cases hc : (q1 - p1) * r2 - (q2 - p2) * r1 = 0
  swap
  · rw [if_neg hc, decide_eq_false hc, if_neg (by simp)]; trivial
  rw [if_pos hc, decide_eq_true hc, if_pos rfl]
  obtain ⟨o1, o2⟩ := hov hc
  obtain ⟨e1, e2⟩ := dot_exact G hB hr hr dr1 dr2 dr1 dr2
  obtain ⟨n1, n2⟩ := dot_exact G hB hqp hr d1 d2 dr1 dr2
  obtain ⟨m1, m2⟩ := dot_exact G hB hw hr dw1 dw2 dr1 dr2
  have hU : pow2 (s + s) ≠ 0 := (pow2_pos _).ne'
  obtain ⟨t1, -, -, t4⟩ := ratio hU n1 e1 hD.ne' n2 e2
  obtain ⟨s1, -, -, s4⟩ := ratio hU m1 e1 hD.ne' m2 e2
  -- the exact parameters
  have hDq : (0 : ℚ) < ((r1 * r1 + r2 * r2 : ℤ) : ℚ) := by exact_mod_cast hD
  obtain ⟨T, S, hT, hS, hS0, a1, a2, b1, b2⟩ := Proofs.Intersect.collinear_coords (K := ℚ) ⟨p1, p2⟩ ⟨r1, r2⟩ ⟨q1, q2⟩ ⟨w1, w2⟩
    (by rcases lr with h | ⟨h0, h⟩
        · left; simpa using h
        · right; simpa using ⟨h0, h⟩)
    (by rcases lw with h | ⟨h0, h⟩
        · left; simpa using h
        · right; simpa using ⟨h0, h⟩)
    (by simp only; exact_mod_cast hpar) (by simp only; exact_mod_cast hc)
  simp only at hT hS a1 a2 b1 b2
  have hT' : (((q1 - p1) * r1 + (q2 - p2) * r2 : ℤ) : ℚ) / ((r1 * r1 + r2 * r2 : ℤ) : ℚ) = T := by
    rw [hT]; push_cast; rfl
  have hS' : ((w1 * r1 + w2 * r2 : ℤ) : ℚ) / ((r1 * r1 + r2 * r2 : ℤ) : ℚ) = S := by
    rw [hS]; push_cast; rfl
  have hT1 : T ≤ 1 := by rw [← hT', div_le_one hDq]; exact_mod_cast o1
  have hTS : 0 ≤ T + S := by rw [← hT', ← hS', ← add_div]; exact div_nonneg (by exact_mod_cast o2) hDq.le
  have hTn : max T 0 = ((max ((q1 - p1) * r1 + (q2 - p2) * r2) 0 : ℤ) : ℚ) / ((r1 * r1 + r2 * r2 : ℤ) : ℚ) := by
    rw [← hT', Int.cast_max]
    rcases le_total ((q1 - p1) * r1 + (q2 - p2) * r2) 0 with h | h
    · rw [max_eq_right (div_nonpos_of_nonpos_of_nonneg (by exact_mod_cast h) hDq.le), max_eq_right (by exact_mod_cast h)]
      simp
    · rw [max_eq_left (div_nonneg (by exact_mod_cast h) hDq.le), max_eq_left (by exact_mod_cast h)]
  have hDB : |r1 * r1 + r2 * r2| ≤ 8 * (B * B) := by
    have z1 := abs_mul_le dr1 dr1
    have z2 := abs_mul_le dr2 dr2
    have e : 2 * B * (2 * B) = 4 * (B * B) := by ring
    rw [e] at z1 z2
    rw [abs_le] at *; constructor <;> omega
  rw [hT'] at t1 t4 ⊢
  rw [hS'] at s1 s4 ⊢
  clear hT hS hT' hS'
  -- the float parameters
  have fin : ∀ {n : ℤ} {x : ℚ}, |x| ≤ |(n : ℚ)| → |n| < 2 ^ (f.prec - 3) → |roundQ f x| ≤ ((2 ^ (f.prec - 3) : ℤ) : ℚ) := by
    intro n x h h'
    have hPp : (0 : ℤ) < 2 ^ (f.prec - 3) := by positivity
    apply abs_roundQ_le (repr_int f _ (by rw [pow_split, abs_of_pos hPp]; omega))
    exact h.trans (by exact_mod_cast h'.le)
  have fT := fin t4 n2
  have fS := fin s4 m2
  have hsum : |roundQ f (roundQ f T + roundQ f S)| < pow2 f.emax := by
    have hPp : (0 : ℤ) < 2 ^ (f.prec - 3) := by positivity
    have rr : Repr f ((2 * 2 ^ (f.prec - 3) : ℤ) : ℚ) :=
      repr_int f _ (by rw [pow_split, abs_of_pos (by omega)]; omega)
    have h1 : |roundQ f (roundQ f T + roundQ f S)| ≤ ((2 * 2 ^ (f.prec - 3) : ℤ) : ℚ) := by
      apply abs_roundQ_le rr
      refine (abs_add_le _ _).trans ?_
      push_cast at fT fS ⊢
      linarith
    exact lt_of_le_of_lt (h1.trans (le_abs_self _)) rr.1
  have hst := is_add t1 s1 hsum
  have m0 := is_fmax t1 (is_zeroQ (f := f))
  have m1' := is_fmin hst (is_one (f := f))
  rw [roundQ_max] at m0
  -- the exact parameters are between 0 and 1
  have τ0a : 0 ≤ max T 0 := le_max_right _ _
  have τ0b : max T 0 ≤ 1 := max_le hT1 zero_le_one
  have τ1a : 0 ≤ min (T + S) 1 := le_min hTS zero_le_one
  have τ1b : min (T + S) 1 ≤ 1 := min_le_right _ _
  obtain ⟨x0, ix0, vx0, ex0⟩ := axpy G hB hp.1 hr.1 m0 dr1 (abs_le.2 ⟨by linarith, τ0b⟩)
    (conv_le bp1 br1 τ0a τ0b) (unit_err G hB τ0a τ0b dr1) (by norm_num)
  obtain ⟨y0, iy0, vy0, ey0⟩ := axpy G hB hp.2 hr.2 m0 dr2 (abs_le.2 ⟨by linarith, τ0b⟩)
    (conv_le bp2 br2 τ0a τ0b) (unit_err G hB τ0a τ0b dr2) (by norm_num)
  have g1 : (r1 : ℚ) * T = ((q1 - p1 : ℤ) : ℚ) := by push_cast; linarith
  have g2 : (r2 : ℚ) * T = ((q2 - p2 : ℤ) : ℚ) := by push_cast; linarith
  have g3 : (r1 : ℚ) * S = (w1 : ℚ) := by linarith
  have g4 : (r2 : ℚ) * S = (w2 : ℚ) := by linarith
  obtain ⟨x1, ix1, vx1, ex1⟩ := axpy G hB hp.1 hr.1 m1' dr1 (abs_le.2 ⟨by linarith, τ1b⟩)
    (conv_le bp1 br1 τ1a τ1b) (second_err G hB g1 g3 dr1 d1 dw1) (by norm_num)
  obtain ⟨y1, iy1, vy1, ey1⟩ := axpy G hB hp.2 hr.2 m1' dr2 (abs_le.2 ⟨by linarith, τ1b⟩)
    (conv_le bp2 br2 τ1a τ1b) (second_err G hB g2 g4 dr2 d2 dw2) (by norm_num)
  obtain ⟨os, hos⟩ : ∃ os, os = p.add (r.smul (Scalar.fmax ((q.sub p).dot r /. r.dot r) Scalar.zero)) := ⟨_, rfl⟩
  obtain ⟨oe, hoe⟩ : ∃ oe, oe = p.add (r.smul (Scalar.fmin (((q.sub p).dot r /. r.dot r) +. (w.dot r /. r.dot r)) Scalar.one)) := ⟨_, rfl⟩
  have iox : Is os.x x0 := by rw [hos]; exact ix0
  have ioy : Is os.y y0 := by rw [hos]; exact iy0
  have iex : Is oe.x x1 := by rw [hoe]; exact ix1
  have iey : Is oe.y y1 := by rw [hoe]; exact iy1
  have nox := near_of iox hB (by norm_num) ex0
  have noy := near_of ioy hB (by norm_num) ey0
  have nex := near_of iex hB (by norm_num) ex1
  have ney := near_of iey hB (by norm_num) ey1
  have hsh := sharp_ends G hB hp hr bp1 bp2 br1 br2 (by
      rintro ⟨h1, h2⟩; unfold LexI at lr; omega) hD.ne' hDB hTn m0 τ0a τ0b hos rfl
  rw [← hos, ← hoe]
  have hbeq : os.beq oe = decide (x0 = x1 ∧ y0 = y1) := by
    show (Scalar.beq os.x oe.x && Scalar.beq os.y oe.y) = _
    rw [show Scalar.beq os.x oe.x = decide (x0 = x1) from is_beq iox iex,
      show Scalar.beq os.y oe.y = decide (y0 = y1) from is_beq ioy iey]
    simp
  have hu := pow2_pos s
  -- do the two ends coincide?
  have key : (x0 = x1 ∧ y0 = y1) ↔ (((p1 : ℚ) + r1 * max T 0) * pow2 s = ((p1 : ℚ) + r1 * min (T + S) 1) * pow2 s ∧
            ((p2 : ℚ) + r2 * max T 0) * pow2 s = ((p2 : ℚ) + r2 * min (T + S) 1) * pow2 s) := by
    constructor
    · rintro ⟨h1, h2⟩
      -- the exact ends are points of the grid
      have gA : ∀ (k m a : ℤ), (m : ℚ) * T = ((a : ℤ) : ℚ) → ∃ z : ℤ, (k : ℚ) + m * max T 0 = z := by
        intro k m a h
        rcases le_total T 0 with h0 | h0
        · exact ⟨k, by rw [max_eq_right h0]; simp⟩
        · exact ⟨k + a, by rw [max_eq_left h0, h]; push_cast; ring⟩
      have gE : ∀ (k m a b : ℤ), (m : ℚ) * T = ((a : ℤ) : ℚ) → (m : ℚ) * S = (b : ℚ) →
          ∃ z : ℤ, (k : ℚ) + m * min (T + S) 1 = z := by
        intro k m a b h h'
        rcases le_total (T + S) 1 with h0 | h0
        · exact ⟨k + (a + b), by rw [min_eq_left h0, mul_add, h, h']; push_cast; ring⟩
        · exact ⟨k + m, by rw [min_eq_right h0]; push_cast; ring⟩
      have step : ∀ {X Y : ℚ} {v w : ℚ}, (∃ z : ℤ, X = z) → (∃ z : ℤ, Y = z) →
          |v - X * pow2 s| ≤ (3 + 10) * B * (pow2 (-f.prec) * pow2 s) →
          |w - Y * pow2 s| ≤ (9 + 10) * B * (pow2 (-f.prec) * pow2 s) → v = w → X * pow2 s = Y * pow2 s := by
        rintro X Y v w ⟨zx, rfl⟩ ⟨zy, rfl⟩ hv hw e
        by_contra hne
        have hz : zx ≠ zy := by rintro rfl; exact hne rfl
        have hBq : (1 : ℚ) ≤ B := by exact_mod_cast hB
        have hpos : 0 < (B : ℚ) * (pow2 (-(f.prec : ℤ)) * pow2 s) :=
          mul_pos (by linarith) (mul_pos (pow2_pos _) hu)
        exact beq_ne G hB (m := zx) (n := zy) (v := v) (w := w)
          (by linarith) (by linarith) hz e
      exact ⟨step (gA _ _ _ g1) (gE _ _ _ _ g1 g3) ex0 ex1 h1, step (gA _ _ _ g2) (gE _ _ _ _ g2 g4) ey0 ey1 h2⟩
    · rintro ⟨h1, h2⟩
      have h1 := mul_right_cancel₀ hu.ne' h1
      have h2 := mul_right_cancel₀ hu.ne' h2
      have hτ : max T 0 = min (T + S) 1 := by
        rcases lr with h | ⟨h0, h⟩
        · have : (r1 : ℚ) ≠ 0 := by exact_mod_cast h.ne'
          exact mul_left_cancel₀ this (by linarith)
        · have : (r2 : ℚ) ≠ 0 := by exact_mod_cast h.ne'
          exact mul_left_cancel₀ this (by linarith)
      have hcase : T = 1 ∨ T + S = 0 := by
        rcases le_total T 0 with a | a <;> rcases le_total (T + S) 1 with b | b
        · rw [max_eq_right a, min_eq_left b] at hτ; right; linarith
        · rw [max_eq_right a, min_eq_right b] at hτ; linarith
        · rw [max_eq_left a, min_eq_left b] at hτ; linarith
        · rw [max_eq_left a, min_eq_right b] at hτ; left; linarith
      have hβ : roundQ f (max T 0) = min (roundQ f (roundQ f T + roundQ f S)) 1 := by
        rcases hcase with h | h
        · rw [h, max_eq_left zero_le_one, roundQ_one]
          have h3 := roundQ_nonneg f hS0.le
          have h4 := roundQ_mono f (show (1 : ℚ) ≤ 1 + roundQ f S by linarith)
          rw [roundQ_one] at h4
          rw [min_eq_right h4]
        · have h3 : T = -S := by linarith
          rw [h3, roundQ_neg, max_eq_right (by linarith), roundQ_zero, neg_add_cancel, roundQ_zero,
            min_eq_left zero_le_one]
      rw [hβ] at vx0 vy0
      exact ⟨by rw [vx0, vx1], by rw [vy0, vy1]⟩
  rw [hbeq]
  by_cases hk : (((p1 : ℚ) + r1 * max T 0) * pow2 s = ((p1 : ℚ) + r1 * min (T + S) 1) * pow2 s ∧
            ((p2 : ℚ) + r2 * max T 0) * pow2 s = ((p2 : ℚ) + r2 * min (T + S) 1) * pow2 s)
  · rw [if_pos hk, decide_eq_true (key.2 hk), if_pos rfl]
    exact ⟨⟨nox, noy⟩, hsh⟩
  · rw [if_neg hk, decide_eq_false (fun h => hk (key.1 h)), if_neg (by simp)]
    exact ⟨⟨nox, noy⟩, ⟨nex, ney⟩, hsh⟩

/-! ### The whole function -/

/-- `intersection_point` for two segments that are not points, in three steps -/
theorem nd_eq {α : Type} [Scalar α] {a b c d : V2 α} (hab : a.ulpsEq b = false) (hcd : c.ulpsEq d = false) :
    (Line2.mk a b).intersectionPoint ⟨c, d⟩ =
      if Scalar.fmax a.x b.x <. Scalar.fmin c.x d.x || Scalar.fmin a.x b.x >. Scalar.fmax c.x d.x
        || Scalar.fmax a.y b.y <. Scalar.fmin c.y d.y || Scalar.fmin a.y b.y >. Scalar.fmax c.y d.y then none
      else if Scalar.ulpsEq ((b.sub a).perpDot (d.sub c)) Scalar.zero then
        parTail (if precedes a b then b else a) (if precedes a b then (b.sub a).neg else b.sub a)
          (if precedes c d then d else c) (if precedes c d then (d.sub c).neg else d.sub c)
      else if Scalar.inRange Scalar.zero Scalar.one ((c.sub a).perpDot (d.sub c) /. (b.sub a).perpDot (d.sub c)) &&
          Scalar.inRange Scalar.zero Scalar.one ((c.sub a).perpDot (b.sub a) /. (b.sub a).perpDot (d.sub c)) then
        some (.point (a.add ((b.sub a).smul ((c.sub a).perpDot (d.sub c) /. (b.sub a).perpDot (d.sub c)))))
      else none := by
  unfold Line2.intersectionPoint
  simp only [hab, hcd]
  rw [if_neg (by simp), if_neg (by simp)]
  by_cases h1 : precedes a b = true <;> by_cases h2 : precedes c d = true <;> simp only [h1, h2] <;> rfl

/-- sorting the ends: the same integer vectors for floats and rationals -/
theorem sort_ends {s B : ℤ} (G : GoodGrid f s B) (hB : 1 ≤ B) {a b : V2 (Flt f)} {a1 a2 b1 b2 : ℤ}
    (ha : IsV s a a1 a2) (hb : IsV s b b1 b2) (ba1 : |a1| ≤ B) (ba2 : |a2| ≤ B) (bb1 : |b1| ≤ B) (bb2 : |b2| ≤ B)
    (hne : ¬ (a1 = b1 ∧ a2 = b2)) :
    ∃ p1 p2 r1 r2 : ℤ, IsV s (if precedes a b then b else a) p1 p2 ∧
      IsV s (if precedes a b then (b.sub a).neg else b.sub a) r1 r2 ∧
      (if precedes (Vq s a1 a2) (Vq s b1 b2) then Vq s b1 b2 else Vq s a1 a2) = Vq s p1 p2 ∧
      (if precedes (Vq s a1 a2) (Vq s b1 b2) then ((Vq s b1 b2).sub (Vq s a1 a2)).neg
        else (Vq s b1 b2).sub (Vq s a1 a2)) = Vq s r1 r2 ∧
      |p1| ≤ B ∧ |p2| ≤ B ∧ |p1 + r1| ≤ B ∧ |p2 + r2| ≤ B ∧ LexI r1 r2 ∧
      min a1 b1 = p1 ∧ max a1 b1 = p1 + r1 ∧ (r1 = 0 → min a2 b2 = p2 ∧ max a2 b2 = p2 + r2) ∧
      ((p1 = a1 ∧ p2 = a2 ∧ r1 = b1 - a1 ∧ r2 = b2 - a2) ∨
        (p1 = b1 ∧ p2 = b2 ∧ r1 = -(b1 - a1) ∧ r2 = -(b2 - a2))) := by
  have hu := pow2_pos s
  obtain ⟨x1, d1⟩ := grid_diff G hb.1 ha.1 bb1 ba1
  obtain ⟨x2, d2⟩ := grid_diff G hb.2 ha.2 bb2 ba2
  have hba : IsV s (b.sub a) (b1 - a1) (b2 - a2) := ⟨x1, x2⟩
  have hnba : IsV s (b.sub a).neg (-(b1 - a1)) (-(b2 - a2)) := by
    constructor
    · have := is_neg x1
      rw [show -(((b1 - a1 : ℤ) : ℚ) * pow2 s) = ((-(b1 - a1) : ℤ) : ℚ) * pow2 s by push_cast; ring] at this
      exact this
    · have := is_neg x2
      rw [show -(((b2 - a2 : ℤ) : ℚ) * pow2 s) = ((-(b2 - a2) : ℤ) : ℚ) * pow2 s by push_cast; ring] at this
      exact this
  have cmp : ∀ k l : ℤ, ((k : ℚ) * pow2 s < l * pow2 s) ↔ k < l := fun k l => by
    rw [mul_lt_mul_iff_left₀ hu]; exact Int.cast_lt
  have ceq : ∀ k l : ℤ, ((k : ℚ) * pow2 s = l * pow2 s) ↔ k = l := fun k l => by
    rw [mul_left_inj' hu.ne']; exact Int.cast_inj
  have hPp : (0 : ℤ) < 2 ^ (f.prec - 3) := by positivity
  have hBP : B < 2 ^ (f.prec - 3) := by have := G.small; nlinarith
  have ul : Scalar.ulpsEq a.x b.x = decide (a1 = b1) :=
    grid_ulps (GoodGrid.unit G) (by have := G.coarse; have := f.hprec; omega) ha.1 hb.1 (by omega) (by omega)
  have pf : precedes a b = decide (b1 < a1 ∨ (b2 < a2 ∧ a1 = b1)) := by
    have l1 : Scalar.gt a.x b.x = decide (b1 < a1) := by
      show Flt.lt b.x a.x = _
      rw [is_lt hb.1 ha.1]; exact decide_eq_decide.2 (cmp _ _)
    have l2 : Scalar.gt a.y b.y = decide (b2 < a2) := by
      show Flt.lt b.y a.y = _
      rw [is_lt hb.2 ha.2]; exact decide_eq_decide.2 (cmp _ _)
    unfold precedes
    rw [l1, l2, ul]
    by_cases h : b1 < a1 <;> simp [h]
  have pq : precedes (Vq s a1 a2) (Vq s b1 b2) = decide (b1 < a1 ∨ (b2 < a2 ∧ a1 = b1)) := by
    have := Proofs.Intersect.precedes_iff (Vq s a1 a2) (Vq s b1 b2)
    simp only [Vq, cmp, ceq] at this
    rw [Bool.eq_iff_iff]
    simp only [Vq, decide_eq_true_eq]
    exact this
  have subq : (Vq s b1 b2).sub (Vq s a1 a2) = Vq s (b1 - a1) (b2 - a2) := by
    simp only [Vq, exact_simp]
    push_cast
    rw [sub_mul, sub_mul]
  have negq : (Vq s (b1 - a1) (b2 - a2)).neg = Vq s (-(b1 - a1)) (-(b2 - a2)) := by
    simp only [Vq, exact_simp]
    push_cast
    rw [neg_mul, neg_mul]
  rw [pf, pq, subq, negq]
  by_cases h : b1 < a1 ∨ (b2 < a2 ∧ a1 = b1)
  · rw [decide_eq_true h]
    refine ⟨b1, b2, -(b1 - a1), -(b2 - a2), by simpa using hb, by simpa using hnba, by simp, by simp, bb1, bb2,
      ?_, ?_, ?_, ?_, ?_, ?_, Or.inr ⟨rfl, rfl, rfl, rfl⟩⟩
    · rw [show b1 + -(b1 - a1) = a1 by ring]; exact ba1
    · rw [show b2 + -(b2 - a2) = a2 by ring]; exact ba2
    · unfold LexI; omega
    · omega
    · omega
    · intro h0; omega
  · rw [decide_eq_false h]
    refine ⟨a1, a2, b1 - a1, b2 - a2, by simpa using ha, by simpa using hba, by simp, by simp, ba1, ba2,
      ?_, ?_, ?_, ?_, ?_, ?_, Or.inl ⟨rfl, rfl, rfl, rfl⟩⟩
    · rw [show a1 + (b1 - a1) = b1 by ring]; exact bb1
    · rw [show a2 + (b2 - a2) = b2 by ring]; exact bb2
    · unfold LexI; omega
    · omega
    · omega
    · intro h0; omega

/-- on a good grid the computed intersection is of the right kind and near the exact one; it is exact at the
ends of the first segment -/
theorem sharp_main {s B : ℤ} (G : GoodGrid f s B) (hB : 1 ≤ B) {a b c d : V2 (Flt f)} {a1 a2 b1 b2 c1 c2 d1 d2 : ℤ}
    (ha : IsV s a a1 a2) (hb : IsV s b b1 b2) (hc : IsV s c c1 c2) (hd : IsV s d d1 d2)
    (ba1 : |a1| ≤ B) (ba2 : |a2| ≤ B) (bb1 : |b1| ≤ B) (bb2 : |b2| ≤ B)
    (bc1 : |c1| ≤ B) (bc2 : |c2| ≤ B) (bd1 : |d1| ≤ B) (bd2 : |d2| ≤ B)
    (hab : ¬ (a1 = b1 ∧ a2 = b2)) (hcd : ¬ (c1 = d1 ∧ c2 = d2)) :
    CloseR (delta f s B) (fun o e => Sharp s B a1 a2 o e ∧ Sharp s B b1 b2 o e) ((Line2.mk a b).intersectionPoint ⟨c, d⟩)
      ((Line2.mk (Vq s a1 a2) (Vq s b1 b2)).intersectionPoint ⟨Vq s c1 c2, Vq s d1 d2⟩) := by
  have hu := pow2_pos s
  have hPp : (0 : ℤ) < 2 ^ (f.prec - 3) := by positivity
  have hBP : B < 2 ^ (f.prec - 3) := by have := G.small; nlinarith
  have cmp : ∀ k l : ℤ, ((k : ℚ) * pow2 s < l * pow2 s) ↔ k < l := fun k l => by
    rw [mul_lt_mul_iff_left₀ hu]; exact Int.cast_lt
  have ceq : ∀ k l : ℤ, ((k : ℚ) * pow2 s = l * pow2 s) ↔ k = l := fun k l => by
    rw [mul_left_inj' hu.ne']; exact Int.cast_inj
  have hmin : ∀ k l : ℤ, min ((k : ℚ) * pow2 s) (l * pow2 s) = ((min k l : ℤ) : ℚ) * pow2 s := by
    intro k l
    rw [Int.cast_min, min_mul_of_nonneg _ _ hu.le]
  have hmax : ∀ k l : ℤ, max ((k : ℚ) * pow2 s) (l * pow2 s) = ((max k l : ℤ) : ℚ) * pow2 s := by
    intro k l
    rw [Int.cast_max, max_mul_of_nonneg _ _ hu.le]
  -- the points are different
  have ulf : ∀ {p q : V2 (Flt f)} {p1 p2 q1 q2 : ℤ}, IsV s p p1 p2 → IsV s q q1 q2 → |p1| ≤ B → |p2| ≤ B → |q1| ≤ B →
      |q2| ≤ B → ¬ (p1 = q1 ∧ p2 = q2) → p.ulpsEq q = false := by
    intro p q p1 p2 q1 q2 hp hq e1 e2 e3 e4 hne
    have u1 : Scalar.ulpsEq p.x q.x = decide (p1 = q1) :=
      grid_ulps (GoodGrid.unit G) (by have := G.coarse; have := f.hprec; omega) hp.1 hq.1 (by omega) (by omega)
    have u2 : Scalar.ulpsEq p.y q.y = decide (p2 = q2) :=
      grid_ulps (GoodGrid.unit G) (by have := G.coarse; have := f.hprec; omega) hp.2 hq.2 (by omega) (by omega)
    show (Scalar.ulpsEq p.x q.x && Scalar.ulpsEq p.y q.y) = false
    rw [u1, u2]
    simpa using hne
  have ulq : ∀ {p1 p2 q1 q2 : ℤ}, ¬ (p1 = q1 ∧ p2 = q2) → (Vq s p1 p2).ulpsEq (Vq s q1 q2) = false := by
    intro p1 p2 q1 q2 hne
    rw [Bool.eq_false_iff]
    intro h
    rw [Proofs.Intersect.v2_ulps] at h
    simp only [Vq, V2.mk.injEq, ceq] at h
    exact hne h
  rw [nd_eq (ulf ha hb ba1 ba2 bb1 bb2 hab) (ulf hc hd bc1 bc2 bd1 bd2 hcd), nd_eq (ulq hab) (ulq hcd)]
  -- the boxes
  have bf : (Scalar.fmax a.x b.x <. Scalar.fmin c.x d.x || Scalar.fmin a.x b.x >. Scalar.fmax c.x d.x
        || Scalar.fmax a.y b.y <. Scalar.fmin c.y d.y || Scalar.fmin a.y b.y >. Scalar.fmax c.y d.y) =
      (decide (max a1 b1 < min c1 d1) || decide (max c1 d1 < min a1 b1) || decide (max a2 b2 < min c2 d2) ||
        decide (max c2 d2 < min a2 b2)) := by
    have i1 := is_fmax ha.1 hb.1
    have i2 := is_fmin ha.1 hb.1
    have i3 := is_fmax ha.2 hb.2
    have i4 := is_fmin ha.2 hb.2
    have j1 := is_fmax hc.1 hd.1
    have j2 := is_fmin hc.1 hd.1
    have j3 := is_fmax hc.2 hd.2
    have j4 := is_fmin hc.2 hd.2
    rw [hmax] at i1 i3 j1 j3
    rw [hmin] at i2 i4 j2 j4
    have l1 : (Scalar.fmax a.x b.x <. Scalar.fmin c.x d.x) = decide (max a1 b1 < min c1 d1) := by
      rw [show (Scalar.fmax a.x b.x <. Scalar.fmin c.x d.x) = Flt.lt _ _ from rfl, is_lt i1 j2]
      exact decide_eq_decide.2 (cmp _ _)
    have l2 : (Scalar.fmin a.x b.x >. Scalar.fmax c.x d.x) = decide (max c1 d1 < min a1 b1) := by
      rw [show (Scalar.fmin a.x b.x >. Scalar.fmax c.x d.x) = Flt.lt _ _ from rfl, is_lt j1 i2]
      exact decide_eq_decide.2 (cmp _ _)
    have l3 : (Scalar.fmax a.y b.y <. Scalar.fmin c.y d.y) = decide (max a2 b2 < min c2 d2) := by
      rw [show (Scalar.fmax a.y b.y <. Scalar.fmin c.y d.y) = Flt.lt _ _ from rfl, is_lt i3 j4]
      exact decide_eq_decide.2 (cmp _ _)
    have l4 : (Scalar.fmin a.y b.y >. Scalar.fmax c.y d.y) = decide (max c2 d2 < min a2 b2) := by
      rw [show (Scalar.fmin a.y b.y >. Scalar.fmax c.y d.y) = Flt.lt _ _ from rfl, is_lt j3 i4]
      exact decide_eq_decide.2 (cmp _ _)
    rw [l1, l2, l3, l4]
  have bq : (Scalar.fmax (Vq s a1 a2).x (Vq s b1 b2).x <. Scalar.fmin (Vq s c1 c2).x (Vq s d1 d2).x ||
        Scalar.fmin (Vq s a1 a2).x (Vq s b1 b2).x >. Scalar.fmax (Vq s c1 c2).x (Vq s d1 d2).x
        || Scalar.fmax (Vq s a1 a2).y (Vq s b1 b2).y <. Scalar.fmin (Vq s c1 c2).y (Vq s d1 d2).y ||
        Scalar.fmin (Vq s a1 a2).y (Vq s b1 b2).y >. Scalar.fmax (Vq s c1 c2).y (Vq s d1 d2).y) =
      (decide (max a1 b1 < min c1 d1) || decide (max c1 d1 < min a1 b1) || decide (max a2 b2 < min c2 d2) ||
        decide (max c2 d2 < min a2 b2)) := by
    rw [Bool.eq_iff_iff]
    simp only [Vq, exact_simp, hmin, hmax, cmp, Bool.or_eq_true, decide_eq_true_eq]
  rw [bf, bq]
  by_cases hbox : (decide (max a1 b1 < min c1 d1) || decide (max c1 d1 < min a1 b1) || decide (max a2 b2 < min c2 d2) ||
        decide (max c2 d2 < min a2 b2)) = true
  · rw [if_pos hbox, if_pos hbox]; trivial
  rw [if_neg hbox, if_neg hbox]
  simp only [Bool.or_eq_true, decide_eq_true_eq, not_or, not_lt] at hbox
  obtain ⟨⟨⟨x1, x2⟩, x3⟩, x4⟩ := hbox
  -- differences
  obtain ⟨y1, e1⟩ := grid_diff G hb.1 ha.1 bb1 ba1
  obtain ⟨y2, e2⟩ := grid_diff G hb.2 ha.2 bb2 ba2
  have hba : IsV s (b.sub a) (b1 - a1) (b2 - a2) := ⟨y1, y2⟩
  obtain ⟨y3, e3⟩ := grid_diff G hd.1 hc.1 bd1 bc1
  obtain ⟨y4, e4⟩ := grid_diff G hd.2 hc.2 bd2 bc2
  have hdc : IsV s (d.sub c) (d1 - c1) (d2 - c2) := ⟨y3, y4⟩
  obtain ⟨y5, e5⟩ := grid_diff G hc.1 ha.1 bc1 ba1
  obtain ⟨y6, e6⟩ := grid_diff G hc.2 ha.2 bc2 ba2
  have hca : IsV s (c.sub a) (c1 - a1) (c2 - a2) := ⟨y5, y6⟩
  have subq : ∀ k l m n : ℤ, (Vq s k l).sub (Vq s m n) = Vq s (k - m) (l - n) := by
    intro k l m n
    simp only [Vq, exact_simp]
    push_cast
    rw [sub_mul, sub_mul]
  have perpq : ∀ k l m n : ℤ, (Vq s k l).perpDot (Vq s m n) = ((k * n - l * m : ℤ) : ℚ) * (pow2 s * pow2 s) := by
    intro k l m n
    simp only [Vq, exact_simp]
    push_cast
    ring
  obtain ⟨k1, k2⟩ := perp_exact G hB hba hdc e1 e2 e3 e4
  have hul := ulps_zero G k1 k2
  have hulq : Scalar.ulpsEq (((Vq s b1 b2).sub (Vq s a1 a2)).perpDot ((Vq s d1 d2).sub (Vq s c1 c2))) Scalar.zero =
      decide ((b1 - a1) * (d2 - c2) - (b2 - a2) * (d1 - c1) = 0) := by
    rw [subq, subq, perpq, Bool.eq_iff_iff]
    simp only [exact_simp, decide_eq_true_eq]
    constructor
    · intro h
      rcases mul_eq_zero.1 h with h | h
      · exact_mod_cast h
      · exact absurd h (by positivity)
    · intro h
      rw [h]; simp
  rw [hul, hulq]
  by_cases hpar : (b1 - a1) * (d2 - c2) - (b2 - a2) * (d1 - c1) = 0
  · rw [decide_eq_true hpar, if_pos rfl, if_pos rfl]
    obtain ⟨p1, p2, r1, r2, hp, hr, hpq, hrq, w1, w2, w3, w4, lr, n1, n2, n3, or⟩ :=
      sort_ends G hB ha hb ba1 ba2 bb1 bb2 hab
    obtain ⟨q1, q2, t1, t2, hq, ht, hqq, htq, v1, v2, v3, v4, lt, o1, o2, o3, ot⟩ :=
      sort_ends G hB hc hd bc1 bc2 bd1 bd2 hcd
    rw [hpq, hrq, hqq, htq]
    have hrt : r1 * t2 - r2 * t1 = 0 := by
      rcases or with ⟨-, -, rfl, rfl⟩ | ⟨-, -, rfl, rfl⟩ <;> rcases ot with ⟨-, -, rfl, rfl⟩ | ⟨-, -, rfl, rfl⟩
      · linear_combination hpar
      · linear_combination -hpar
      · linear_combination -hpar
      · linear_combination hpar
    refine (tail_close G hB hp hr hq ht w1 w2 w3 w4 v1 v2 v3 v4 lr lt hrt ?_).mono ?_
    swap
    · rintro o e ⟨h1, h2⟩
      rcases or with ⟨f1, f2, f3, f4⟩ | ⟨f1, f2, f3, f4⟩
      · rw [f1, f2] at h1
        rw [f1, f2, f3, f4, show a1 + (b1 - a1) = b1 by ring, show a2 + (b2 - a2) = b2 by ring] at h2
        exact ⟨h1, h2⟩
      · rw [f1, f2] at h1
        rw [f1, f2, f3, f4, show b1 + -(b1 - a1) = a1 by ring, show b2 + -(b2 - a2) = a2 by ring] at h2
        exact ⟨h2, h1⟩
    intro hcol
    rw [o1, n2] at x1
    rw [n1, o2] at x2
    rcases lr with lr | ⟨lr0, lr⟩
    · -- `D * (q1 - p1) = N0 * r1`
      have h1 : (r1 * r1 + r2 * r2 - ((q1 - p1) * r1 + (q2 - p2) * r2)) * r1 =
          (r1 * r1 + r2 * r2) * (p1 + r1 - q1) := by linear_combination r2 * hcol
      have h2 : ((q1 - p1) * r1 + (q2 - p2) * r2 + (t1 * r1 + t2 * r2)) * r1 =
          (r1 * r1 + r2 * r2) * (q1 + t1 - p1) := by linear_combination -r2 * hcol + r2 * hrt
      have hD : 0 < r1 * r1 + r2 * r2 := by nlinarith
      constructor
      · have := mul_nonneg hD.le (show 0 ≤ p1 + r1 - q1 by linarith)
        rw [← h1] at this
        have := nonneg_of_mul_nonneg_left this lr
        linarith
      · have := mul_nonneg hD.le (show 0 ≤ q1 + t1 - p1 by linarith)
        rw [← h2] at this
        exact nonneg_of_mul_nonneg_left this lr
    · have ht0 : t1 = 0 := by
        rw [lr0] at hrt
        simp at hrt
        rcases hrt with h | h
        · omega
        · exact h
      obtain ⟨z1, z2⟩ := n3 lr0
      obtain ⟨z3, z4⟩ := o3 ht0
      rw [z3, z2] at x3
      rw [z1, z4] at x4
      rw [lr0, ht0]
      constructor
      · have := mul_nonneg lr.le (show 0 ≤ p2 + r2 - q2 by linarith)
        linarith
      · have := mul_nonneg lr.le (show 0 ≤ q2 + t2 - p2 by linarith)
        linarith
  · rw [decide_eq_false hpar, if_neg Bool.false_ne_true, if_neg Bool.false_ne_true]
    obtain ⟨m1, m2⟩ := perp_exact G hB hca hdc e5 e6 e3 e4
    obtain ⟨n1, n2⟩ := perp_exact G hB hca hba e5 e6 e1 e2
    have hU : pow2 (s + s) ≠ 0 := (pow2_pos _).ne'
    obtain ⟨t1, t2, t3, t4⟩ := ratio hU m1 k1 hpar m2 k2
    obtain ⟨u1, u2, u3, u4⟩ := ratio hU n1 k1 hpar n2 k2
    have hUU : pow2 s * pow2 s ≠ 0 := by positivity
    have qq : ∀ n m : ℤ, (n : ℚ) * (pow2 s * pow2 s) / (m * (pow2 s * pow2 s)) = n / m := fun n m =>
      mul_div_mul_right _ _ hUU
    simp only [subq, perpq]
    rw [show Scalar.div ((((c1 - a1) * (d2 - c2) - (c2 - a2) * (d1 - c1) : ℤ) : ℚ) * (pow2 s * pow2 s))
        ((((b1 - a1) * (d2 - c2) - (b2 - a2) * (d1 - c1) : ℤ) : ℚ) * (pow2 s * pow2 s)) =
        (((c1 - a1) * (d2 - c2) - (c2 - a2) * (d1 - c1) : ℤ) : ℚ) / (((b1 - a1) * (d2 - c2) - (b2 - a2) * (d1 - c1) : ℤ) : ℚ)
        by simp only [exact_simp]; exact qq _ _,
      show Scalar.div ((((c1 - a1) * (b2 - a2) - (c2 - a2) * (b1 - a1) : ℤ) : ℚ) * (pow2 s * pow2 s))
        ((((b1 - a1) * (d2 - c2) - (b2 - a2) * (d1 - c1) : ℤ) : ℚ) * (pow2 s * pow2 s)) =
        (((c1 - a1) * (b2 - a2) - (c2 - a2) * (b1 - a1) : ℤ) : ℚ) / (((b1 - a1) * (d2 - c2) - (b2 - a2) * (d1 - c1) : ℤ) : ℚ)
        by simp only [exact_simp]; exact qq _ _]
    have hDB : |(b1 - a1) * (d2 - c2) - (b2 - a2) * (d1 - c1)| ≤ 8 * (B * B) := by
      have z1 := abs_mul_le e1 e4
      have z2 := abs_mul_le e2 e3
      have e : 2 * B * (2 * B) = 4 * (B * B) := by ring
      rw [e] at z1 z2
      rw [abs_le] at z1 z2 ⊢; constructor <;> omega
    obtain ⟨T, hTd⟩ : ∃ T : ℚ, T = (((c1 - a1) * (d2 - c2) - (c2 - a2) * (d1 - c1) : ℤ) : ℚ) / (((b1 - a1) * (d2 - c2) - (b2 - a2) * (d1 - c1) : ℤ) : ℚ) := ⟨_, rfl⟩
    rw [← hTd] at t1 t2 t3 t4 ⊢
    generalize (((c1 - a1) * (b2 - a2) - (c2 - a2) * (b1 - a1) : ℤ) : ℚ) / (((b1 - a1) * (d2 - c2) - (b2 - a2) * (d1 - c1) : ℤ) : ℚ) = U at *
    have rng : ∀ {x : Flt f} {R : ℚ}, Is x (roundQ f R) → (0 ≤ roundQ f R ↔ 0 ≤ R) → (roundQ f R ≤ 1 ↔ R ≤ 1) →
        Scalar.inRange Scalar.zero Scalar.one x = decide (0 ≤ R ∧ R ≤ 1) := by
      intro x R hx h0 h1
      show (Flt.le Scalar.zero x && Flt.le x Scalar.one) = _
      rw [is_le (is_zeroQ (f := f)) hx, is_le hx (is_one (f := f)), Bool.eq_iff_iff]
      simp only [Bool.and_eq_true, decide_eq_true_eq]
      rw [h0, h1]
    have rngq : ∀ R : ℚ, Scalar.inRange Scalar.zero Scalar.one R = decide (0 ≤ R ∧ R ≤ 1) := by
      intro R
      rw [Bool.eq_iff_iff]
      simp only [exact_simp, decide_eq_true_eq]
    rw [rng t1 t2 t3, rng u1 u2 u3, rngq, rngq]
    by_cases hin : (0 ≤ T ∧ T ≤ 1) ∧ (0 ≤ U ∧ U ≤ 1)
    · rw [decide_eq_true hin.1, decide_eq_true hin.2, Bool.and_self, if_pos rfl, if_pos rfl]
      obtain ⟨T0, T1⟩ := hin.1
      have f1 : a1 + (b1 - a1) = b1 := by ring
      have f2 : a2 + (b2 - a2) = b2 := by ring
      obtain ⟨X, iX, -, eX⟩ := axpy G hB ha.1 y1 t1 e1 (abs_le.2 ⟨by linarith, T1⟩)
        (conv_le ba1 (by rw [f1]; exact bb1) T0 T1) (unit_err G hB T0 T1 e1) (by norm_num)
      obtain ⟨Y, iY, -, eY⟩ := axpy G hB ha.2 y2 t1 e2 (abs_le.2 ⟨by linarith, T1⟩)
        (conv_le ba2 (by rw [f2]; exact bb2) T0 T1) (unit_err G hB T0 T1 e2) (by norm_num)
      have nX := near_of iX hB (by norm_num) eX
      have nY := near_of iY hB (by norm_num) eY
      have hsh := sharp_ends G hB ha hba ba1 ba2 (by rw [f1]; exact bb1) (by rw [f2]; exact bb2)
        (by rintro ⟨h1, h2⟩; exact hab ⟨by omega, by omega⟩) hpar hDB hTd t1 T0 T1 rfl rfl
      rw [f1, f2] at hsh
      have hpt : (Vq s a1 a2).add ((Vq s (b1 - a1) (b2 - a2)).smul T) =
          ⟨((a1 : ℚ) + ((b1 - a1 : ℤ) : ℚ) * T) * pow2 s, ((a2 : ℚ) + ((b2 - a2 : ℤ) : ℚ) * T) * pow2 s⟩ := by
        simp only [Vq, exact_simp, V2.mk.injEq]; exact ⟨by ring, by ring⟩
      refine ⟨⟨?_, ?_⟩, by rw [hpt]; exact hsh⟩
      · have : ((Vq s a1 a2).add ((Vq s (b1 - a1) (b2 - a2)).smul T)).x = ((a1 : ℚ) + ((b1 - a1 : ℤ) : ℚ) * T) * pow2 s := by
          simp only [Vq, exact_simp]; ring
        rw [this]; exact nX
      · have : ((Vq s a1 a2).add ((Vq s (b1 - a1) (b2 - a2)).smul T)).y = ((a2 : ℚ) + ((b2 - a2 : ℤ) : ℚ) * T) * pow2 s := by
          simp only [Vq, exact_simp]; ring
        rw [this]; exact nY
    · have : (decide (0 ≤ T ∧ T ≤ 1) && decide (0 ≤ U ∧ U ≤ 1)) = false := by
        rw [← Bool.decide_and]; exact decide_eq_false hin
      rw [this, if_neg Bool.false_ne_true, if_neg Bool.false_ne_true]; trivial

/-- on a good grid the computed intersection is of the right kind and near the exact one -/
theorem close_main {s B : ℤ} (G : GoodGrid f s B) (hB : 1 ≤ B) {a b c d : V2 (Flt f)} {a1 a2 b1 b2 c1 c2 d1 d2 : ℤ}
    (ha : IsV s a a1 a2) (hb : IsV s b b1 b2) (hc : IsV s c c1 c2) (hd : IsV s d d1 d2)
    (ba1 : |a1| ≤ B) (ba2 : |a2| ≤ B) (bb1 : |b1| ≤ B) (bb2 : |b2| ≤ B)
    (bc1 : |c1| ≤ B) (bc2 : |c2| ≤ B) (bd1 : |d1| ≤ B) (bd2 : |d2| ≤ B)
    (hab : ¬ (a1 = b1 ∧ a2 = b2)) (hcd : ¬ (c1 = d1 ∧ c2 = d2)) :
    CloseI (delta f s B) ((Line2.mk a b).intersectionPoint ⟨c, d⟩)
      ((Line2.mk (Vq s a1 a2) (Vq s b1 b2)).intersectionPoint ⟨Vq s c1 c2, Vq s d1 d2⟩) :=
  (sharp_main G hB ha hb hc hd ba1 ba2 bb1 bb2 bc1 bc2 bd1 bd2 hab hcd).close

end Verif.Proofs.FloatIntersect
