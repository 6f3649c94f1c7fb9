import Verif.Proofs.FloatHull
import Verif.Proofs.FloatIntersect
import Verif.Proofs.FloatUlps
import Verif.Props.FloatLinePoint
import Verif.Proofs.Rdp
import Verif.Model.Vw
/-!
# Distances and areas in floating point (lemmas for C80 and C81)
-/
set_option linter.unusedSectionVars false
set_option linter.unusedVariables false
set_option linter.unusedSimpArgs false
namespace Verif.Proofs.FloatSimplify
open Verif Verif.Spec Verif.Model Verif.Fl Verif.Flt Verif.Proofs.FloatHull Verif.Proofs.FloatIntersect
variable {f : Fmt} [Libm f]

/-- rounding a multiple of the least unit has a small relative error -/
theorem rel_unit {e n : ℤ} (he : f.emin ≤ e) :
    |roundQ f (n * pow2 e) - n * pow2 e| ≤ pow2 (-f.prec) * |n * pow2 e| := by
  rcases le_or_gt |n| (2 ^ f.prec) with h | h
  · rw [roundQ_fix f n e h he, sub_self, abs_zero]
    exact mul_nonneg (pow2_pos _).le (abs_nonneg _)
  · apply roundQ_rel_normal
    rw [abs_mul, abs_of_pos (pow2_pos e)]
    have h1 : (pow2 f.prec : ℚ) ≤ |(n : ℚ)| := by rw [pow2_nat]; exact_mod_cast h.le
    calc pow2 (f.emin + f.prec - 1) ≤ pow2 (f.prec + e) := pow2_le (by omega)
      _ = pow2 f.prec * pow2 e := pow2_add _ _
      _ ≤ _ := mul_le_mul_of_nonneg_right h1 (pow2_pos e).le

/-- a bound on a rounded number by a power of two -/
theorem round_lt {q : ℚ} {k : ℤ} (hk : f.emin ≤ k) (hm : k < f.emax) (h : |q| ≤ pow2 k) : |roundQ f q| < pow2 f.emax := by
  have hr : Repr f (pow2 k) := by
    refine ⟨?_, 1, k, by simp, by simp; exact one_lt_pow₀ (by norm_num) (by have := f.hprec; omega), hk⟩
    rw [abs_of_pos (pow2_pos k)]; exact pow2_lt hm
  exact lt_of_le_of_lt (abs_roundQ_le hr h) (pow2_lt hm)

/-- `v` is `e` up to a relative error of `c` half units in the last place -/
def Rel (f : Fmt) (c : ℚ) (v e : ℚ) : Prop := |v - e| ≤ c * pow2 (-f.prec) * |e|

theorem Rel.refl (e : ℚ) : Rel f 0 e e := by simp [Rel]

theorem Rel.mono {c d v e : ℚ} (h : Rel f c v e) (hcd : c ≤ d) : Rel f d v e := by
  unfold Rel at *
  refine h.trans ?_
  have := mul_nonneg (pow2_pos (-(f.prec : ℤ))).le (abs_nonneg e)
  nlinarith

theorem eps_small (f : Fmt) : pow2 (-(f.prec : ℤ)) ≤ 1 / 32 := by
  have : pow2 (-(f.prec : ℤ)) ≤ pow2 (-5) := pow2_le (by have := f.hprec; omega)
  refine this.trans ?_
  rw [pow2_eq]; norm_num

/-- relative errors add up -/
theorem Rel.round {c v e : ℚ} (h : Rel f c v e) (hc : 0 ≤ c) (hr : |roundQ f v - v| ≤ pow2 (-f.prec) * |v|) :
    Rel f (c + 1 + c / 32) (roundQ f v) e := by
  unfold Rel at *
  have h1 : |v| ≤ |e| + c * pow2 (-f.prec) * |e| := by
    have := abs_add_le (v - e) e
    rw [sub_add_cancel] at this
    linarith
  have h2 : |roundQ f v - e| ≤ |roundQ f v - v| + |v - e| := abs_sub_le _ _ _
  have hε := (pow2_pos (-(f.prec : ℤ))).le
  have h6 := eps_small f
  have h3 := mul_le_mul_of_nonneg_left h1 hε
  have hE := abs_nonneg e
  have h4 : pow2 (-f.prec) * (c * pow2 (-f.prec) * |e|) ≤ 1 / 32 * (c * pow2 (-f.prec) * |e|) :=
    mul_le_mul_of_nonneg_right h6 (mul_nonneg (mul_nonneg hc hε) hE)
  nlinarith

/-- sums of positive numbers -/
theorem Rel.add {c v e w d : ℚ} (h1 : Rel f c v e) (h2 : Rel f c w d) (he : 0 ≤ e) (hd : 0 ≤ d) :
    Rel f c (v + w) (e + d) := by
  unfold Rel at *
  rw [abs_of_nonneg he] at h1
  rw [abs_of_nonneg hd] at h2
  rw [abs_of_nonneg (add_nonneg he hd)]
  have : v + w - (e + d) = (v - e) + (w - d) := by ring
  rw [this]
  have := abs_add_le (v - e) (w - d)
  linarith

theorem Rel.div {c v e D : ℚ} (h : Rel f c v e) (hD : 0 < D) : Rel f c (v / D) (e / D) := by
  unfold Rel at *
  rw [← sub_div, abs_div, abs_div, abs_of_pos hD, ← mul_div_assoc]
  exact div_le_div_of_nonneg_right h hD.le


/-- differences of points of the grid -/
theorem diffV {s B : ℤ} (G : GoodGrid f s B) {a b : V2 (Flt f)} {k l m n : ℤ} (a1 : Is a.x (k * pow2 s))
    (a2 : Is a.y (l * pow2 s)) (b1 : Is b.x (m * pow2 s)) (b2 : Is b.y (n * pow2 s)) (hk : |k| ≤ B) (hl : |l| ≤ B)
    (hm : |m| ≤ B) (hn : |n| ≤ B) : IsV s (a.sub b) (k - m) (l - n) ∧ |k - m| ≤ 2 * B ∧ |l - n| ≤ 2 * B := by
  obtain ⟨x1, x2⟩ := grid_diff G a1 b1 hk hm
  obtain ⟨y1, y2⟩ := grid_diff G a2 b2 hl hn
  exact ⟨⟨x1, y1⟩, x2, y2⟩

/-- the quotient `c² / D` -/
theorem quot_rel {s B : ℤ} (G : SquareGrid f s B) {x y : Flt f} {v : ℚ} {C D : ℤ} {c : ℚ} (hc : 0 ≤ c) (hc8 : c ≤ 8)
    (hx : Is x v) (hv : Rel f c v (C * pow2 (4 * s))) (hy : Is y (D * pow2 (s + s)))
    (hC : 0 ≤ C) (hC2 : C < 2 ^ (2 * f.prec - 2)) (hD : 0 < D) (hD2 : D < 2 ^ (f.prec - 1)) (hv0 : C = 0 → v = 0) :
    ∃ w, Is (Scalar.div x y) w ∧ Rel f (c + 1 + c / 32) w (C / D * pow2 (s + s)) ∧
      (w = 0 ∨ pow2 (f.emin + f.prec - 1) < w) := by
  have hp := f.hprec
  have hDq : (0 : ℚ) < D := by exact_mod_cast hD
  have hU := pow2_pos (s + s)
  have e4 : pow2 (4 * s) = pow2 (s + s) * pow2 (s + s) := by rw [← pow2_add]; congr 1; ring
  have hyp : (0 : ℚ) < D * pow2 (s + s) := mul_pos hDq hU
  have hq : Rel f c (v / (D * pow2 (s + s))) (C / D * pow2 (s + s)) := by
    have := hv.div hyp
    rwa [show (C : ℚ) * pow2 (4 * s) / (D * pow2 (s + s)) = C / D * pow2 (s + s) by
      rw [e4]; field_simp] at this
  have hε := pow2_pos (-(f.prec : ℤ))
  have h6 := eps_small f
  rcases hC.lt_or_eq with hCp | hC0
  · -- bounds for the exact quotient
    have hCq : (1 : ℚ) ≤ C := by exact_mod_cast hCp
    have hC2q : (C : ℚ) ≤ pow2 (2 * f.prec - 2) := by
      have : (C : ℚ) ≤ ((2 ^ (2 * f.prec - 2) : ℤ) : ℚ) := by exact_mod_cast hC2.le
      refine this.trans (le_of_eq ?_)
      rw [show (2 * (f.prec : ℤ) - 2) = ((2 * f.prec - 2 : ℕ) : ℤ) by omega, pow2_nat]; push_cast; rfl
    have hD2q : (D : ℚ) ≤ pow2 (f.prec - 1) := by
      have : (D : ℚ) ≤ ((2 ^ (f.prec - 1) : ℤ) : ℚ) := by exact_mod_cast hD2.le
      refine this.trans (le_of_eq ?_)
      rw [show ((f.prec : ℤ) - 1) = ((f.prec - 1 : ℕ) : ℤ) by omega, pow2_nat]; push_cast; rfl
    obtain ⟨E, hE⟩ : ∃ E, E = (C : ℚ) / D * pow2 (s + s) := ⟨_, rfl⟩
    rw [← hE] at hq
    have hEpos : 0 < E := by rw [hE]; exact mul_pos (div_pos (by linarith) hDq) hU
    have hElow : pow2 (f.emin + f.prec + 1) ≤ E := by
      have e1 : pow2 (s + s) = pow2 (s + s - (f.prec - 1)) * pow2 (f.prec - 1) := by
        rw [← pow2_add]; congr 1; ring
      have h1 : pow2 (s + s - (f.prec - 1)) ≤ E := by
        rw [hE, div_mul_eq_mul_div, le_div_iff₀ hDq]
        calc pow2 (s + s - (f.prec - 1)) * D ≤ pow2 (s + s - (f.prec - 1)) * pow2 (f.prec - 1) :=
              mul_le_mul_of_nonneg_left hD2q (pow2_pos _).le
          _ = pow2 (s + s) := e1.symm
          _ ≤ C * pow2 (s + s) := by nlinarith
      exact (pow2_le (by have := G.low; omega)).trans h1
    have hEhigh : E ≤ pow2 (2 * f.prec - 2 + (s + s)) := by
      rw [hE, pow2_add (2 * (f.prec : ℤ) - 2) (s + s)]
      apply mul_le_mul_of_nonneg_right _ hU.le
      rw [div_le_iff₀ hDq]
      have : (1 : ℚ) ≤ D := by exact_mod_cast hD
      nlinarith
    unfold Rel at hq
    rw [abs_of_pos hEpos] at hq
    have hcE : c * pow2 (-f.prec) * E ≤ 1 / 4 * E := by
      have : c * pow2 (-f.prec) ≤ 1 / 4 := by nlinarith
      exact mul_le_mul_of_nonneg_right this hEpos.le
    obtain ⟨q, hqd⟩ : ∃ q, q = v / (D * pow2 (s + s)) := ⟨_, rfl⟩
    rw [← hqd] at hq
    have hq1 := (abs_le.1 (hq.trans hcE)).1
    have hq2 := (abs_le.1 (hq.trans hcE)).2
    have hqpos : 0 < q := by linarith
    have hlow : pow2 (f.emin + f.prec) < q := by
      have : pow2 (f.emin + f.prec + 1) = 2 * pow2 (f.emin + f.prec) := by
        rw [pow2_add, pow2_eq 1]; norm_num; ring
      have := pow2_pos (f.emin + f.prec)
      linarith
    have hrel := roundQ_rel_normal f (q := q) (by
      rw [abs_of_pos hqpos]; exact (pow2_le (by omega)).trans hlow.le)
    have hlim : |roundQ f q| < pow2 f.emax := by
      apply round_lt (k := 2 * f.prec - 1 + (s + s))
      · have := G.low; have := f.hprec; omega
      · have := G.high2; omega
      · rw [abs_of_pos hqpos]
        have : pow2 (2 * f.prec - 1 + (s + s)) = 2 * pow2 (2 * f.prec - 2 + (s + s)) := by
          rw [show (2 * (f.prec : ℤ) - 1 + (s + s)) = 1 + (2 * f.prec - 2 + (s + s)) by ring, pow2_add, pow2_eq 1]; norm_num
        linarith
    have hdiv := is_div hx hy hyp.ne' (by rw [← hqd]; exact hlim)
    rw [← hqd] at hdiv
    refine ⟨_, hdiv, ?_, Or.inr ?_⟩
    · rw [← hE]
      refine Rel.round ?_ hc hrel
      unfold Rel; rw [abs_of_pos hEpos]; exact hq
    · have hr : Repr f (pow2 (f.emin + f.prec)) := by
        refine ⟨?_, 1, f.emin + f.prec, by simp, by simp; exact one_lt_pow₀ (by norm_num) (by omega), by omega⟩
        rw [abs_of_pos (pow2_pos _)]; exact pow2_lt (by have := f.hemin; have := f.hemax; omega)
      have := roundQ_mono f hlow.le
      rw [hr.fix] at this
      exact lt_of_lt_of_le (pow2_lt (by omega)) this
  · have hv' := hv0 hC0.symm
    have hdiv := is_div hx hy hyp.ne' (by rw [hv', zero_div, roundQ_zero, abs_zero]; exact pow2_pos _)
    rw [hv', zero_div, roundQ_zero] at hdiv
    refine ⟨0, hdiv, ?_, Or.inl rfl⟩
    rw [← hC0]; simp [Rel]

/-- the square of an exact number -/
theorem square_rel {s B : ℤ} (G : SquareGrid f s B) {x : Flt f} {n : ℤ} (hx : Is x (n * pow2 (s + s)))
    (hn : |n| < 2 ^ (f.prec - 3)) :
    ∃ v, Is (Scalar.mul x x) v ∧ Rel f 1 v ((n * n : ℤ) * pow2 (4 * s)) ∧ (n = 0 → v = 0) ∧ 0 ≤ v ∧
      v = roundQ f ((n * n : ℤ) * pow2 (4 * s)) := by
  have hp := f.hprec
  have e : (n : ℚ) * pow2 (s + s) * (n * pow2 (s + s)) = (n * n : ℤ) * pow2 (4 * s) := by
    rw [show 4 * s = (s + s) + (s + s) by ring, pow2_add (s + s)]; push_cast; ring
  have hn2 : n * n < 2 ^ (2 * f.prec - 6) := by
    have h1 : n * n = |n| * |n| := (abs_mul_abs_self n).symm
    have h2 : (2 : ℤ) ^ (2 * f.prec - 6) = 2 ^ (f.prec - 3) * 2 ^ (f.prec - 3) := by
      rw [← pow_add]; congr 1; omega
    rw [h1, h2]
    have := abs_nonneg n
    nlinarith
  have hn2q : ((n * n : ℤ) : ℚ) ≤ pow2 (2 * f.prec - 6) := by
    have : ((n * n : ℤ) : ℚ) ≤ ((2 ^ (2 * f.prec - 6) : ℤ) : ℚ) := by exact_mod_cast hn2.le
    refine this.trans (le_of_eq ?_)
    rw [show (2 * (f.prec : ℤ) - 6) = ((2 * f.prec - 6 : ℕ) : ℤ) by omega, pow2_nat]; push_cast; rfl
  have hnn : (0 : ℚ) ≤ ((n * n : ℤ) : ℚ) := by exact_mod_cast mul_self_nonneg n
  have hU := pow2_pos (4 * s)
  have hlo : f.emin ≤ 4 * s := by have := G.coarse; have := f.hemin; omega
  have hlim : |roundQ f ((n * n : ℤ) * pow2 (4 * s))| < pow2 f.emax := by
    apply round_lt (k := 2 * f.prec - 6 + 4 * s)
    · omega
    · have := G.high; omega
    · rw [abs_of_nonneg (mul_nonneg hnn hU.le), pow2_add]
      exact mul_le_mul_of_nonneg_right hn2q hU.le
  have h := is_mul hx hx (by rw [e]; exact hlim)
  rw [e] at h
  refine ⟨_, h, ?_, ?_, ?_, rfl⟩
  · unfold Rel; rw [one_mul]; exact rel_unit hlo
  · rintro rfl; simp [roundQ_zero]
  · exact roundQ_nonneg f (mul_nonneg hnn hU.le)

theorem sq_lt_pow {n : ℤ} {k : ℕ} (h : |n| < 2 ^ k) : n * n < 2 ^ (2 * k) := by
  have h1 : n * n = |n| * |n| := (abs_mul_abs_self n).symm
  rw [h1, two_mul, pow_add]
  have := abs_nonneg n
  nlinarith

/-- what is computed for the distance of a point from a segment -/
theorem dist2_rel {s B : ℤ} (G : SquareGrid f s B) (hB : 1 ≤ B) {a b p : V2 (Flt f)} (ha : OnGrid s B a)
    (hb : OnGrid s B b) (hp : OnGrid s B p) :
    ∃ v, Is (distToLineSqSafe2 a b p) v ∧ Rel f 3 v (distToLineSqSafe2 (exact a) (exact b) (exact p)) ∧
      (v = 0 ∨ pow2 (f.emin + f.prec - 1) < v) := by
  have hprec := f.hprec
  have G' := G.toGoodGrid
  have hsd : ∀ {a p : V2 (Flt f)}, OnGrid s B a → OnGrid s B p →
      ∃ v, Is (a.distSq p) v ∧ v = (exact a).distSq (exact p) ∧ (v = 0 ∨ pow2 (f.emin + f.prec - 1) < v) := by
    intro a p ha hp
    obtain ⟨N, h1, h2, h3⟩ := dist_exact G' ha hp
    refine ⟨_, h1, ?_, ?_⟩
    · rw [← h2]; simp only [exact_simp, sqDist2]; ring
    · have hN : 0 ≤ N := by
        have : 0 ≤ (N : ℚ) * pow2 (s + s) := by
          rw [← h2]; unfold sqDist2; positivity
        have := nonneg_of_mul_nonneg_left this (pow2_pos (s + s))
        exact_mod_cast this
      rcases hN.eq_or_lt with h | h
      · left; rw [← h]; simp
      · right
        have : (1 : ℚ) ≤ N := by exact_mod_cast h
        have hU := pow2_pos (s + s)
        calc pow2 (f.emin + f.prec - 1) < pow2 (s + s) := pow2_lt (by have := G.low; omega)
          _ ≤ N * pow2 (s + s) := by nlinarith
  obtain ⟨k1, l1, a1, a2, a3, a4⟩ := OnGrid.coords ha
  obtain ⟨k2, l2, b1, b2, b3, b4⟩ := OnGrid.coords hb
  obtain ⟨k3, l3, c1, c2, c3, c4⟩ := OnGrid.coords hp
  obtain ⟨d1, d2, d3⟩ := diffV G' a1 a2 b1 b2 a3 a4 b3 b4
  obtain ⟨e1, e2, e3⟩ := diffV G' a1 a2 c1 c2 a3 a4 c3 c4
  have exa : exact a = ⟨k1 * pow2 s, l1 * pow2 s⟩ := by unfold exact; rw [a1.2, a2.2]
  have exb : exact b = ⟨k2 * pow2 s, l2 * pow2 s⟩ := by unfold exact; rw [b1.2, b2.2]
  have exc : exact p = ⟨k3 * pow2 s, l3 * pow2 s⟩ := by unfold exact; rw [c1.2, c2.2]
  have hul := Verif.Props.grid_point_ulps G' ha hb
  unfold distToLineSqSafe2
  rw [hul]
  by_cases hab : exact a = exact b
  · rw [decide_eq_true hab, if_pos rfl, if_pos (by rw [hab]; simp only [exact_simp]; simp)]
    obtain ⟨v, h1, h2, h3⟩ := hsd ha hp
    exact ⟨v, h1, by rw [h2]; exact (Rel.refl _).mono (by norm_num), h3⟩
  · rw [decide_eq_false hab, if_neg Bool.false_ne_true]
    rw [if_neg (c := (exact a).ulpsEq (exact b) = true) (by
      simp only [exact_simp, Bool.and_eq_true, decide_eq_true_eq]
      rintro ⟨h1, h2⟩
      exact hab (by cases h : exact a; cases h' : exact b; simp_all))]
    obtain ⟨m1, m2⟩ := dot_exact G' hB d1 d1 d2 d3 d2 d3
    obtain ⟨n1, n2⟩ := dot_exact G' hB e1 d1 e2 e3 d2 d3
    obtain ⟨p1, p2⟩ := perp_exact G' hB e1 d1 e2 e3 d2 d3
    obtain ⟨D, hD⟩ : ∃ D, D = (k1 - k2) * (k1 - k2) + (l1 - l2) * (l1 - l2) := ⟨_, rfl⟩
    obtain ⟨n, hn⟩ : ∃ n, n = (k1 - k3) * (k1 - k2) + (l1 - l3) * (l1 - l2) := ⟨_, rfl⟩
    obtain ⟨c, hc⟩ : ∃ c, c = (k1 - k3) * (l1 - l2) - (l1 - l3) * (k1 - k2) := ⟨_, rfl⟩
    rw [← hD] at m1 m2
    rw [← hn] at n1 n2
    rw [← hc] at p1 p2
    have hU := pow2_pos s
    have hUU := pow2_pos (s + s)
    have hDpos : 0 < D := by
      rcases (show 0 ≤ D by rw [hD]; nlinarith [mul_self_nonneg (k1 - k2), mul_self_nonneg (l1 - l2)]).lt_or_eq with h | h
      · exact h
      · exfalso
        apply hab
        have h1 := mul_self_nonneg (k1 - k2)
        have h2 := mul_self_nonneg (l1 - l2)
        have g1 : (k1 - k2) * (k1 - k2) = 0 := by omega
        have g2 : (l1 - l2) * (l1 - l2) = 0 := by omega
        have g1 := mul_self_eq_zero.1 g1
        have g2 := mul_self_eq_zero.1 g2
        rw [exa, exb, show k1 = k2 by omega, show l1 = l2 by omega]
    have hDq : (0 : ℚ) < D := by exact_mod_cast hDpos
    replace m1 : Is (a.sub b).magSq (D * pow2 (s + s)) := m1
    obtain ⟨q1, q2, q3, -⟩ := ratio hUU.ne' n1 m1 hDpos.ne' n2 m2
    -- the exact run
    have hex : distToLineSq2 (exact a) (exact b) (exact p) =
        if (n : ℚ) / D < 0 then (exact a).distSq (exact p) else if 1 < (n : ℚ) / D then (exact b).distSq (exact p)
        else ((c * c : ℤ) : ℚ) / D * pow2 (s + s) := by
      have eD : ((exact a).sub (exact b)).magSq = D * pow2 (s + s) := by
        rw [exa, exb, hD, pow2_add]; simp only [exact_simp]; push_cast; ring
      have en : ((exact a).sub (exact p)).dot ((exact a).sub (exact b)) = n * pow2 (s + s) := by
        rw [exa, exb, exc, hn, pow2_add]; simp only [exact_simp]; push_cast; ring
      have ec : ((exact a).sub (exact p)).perpDot ((exact a).sub (exact b)) = c * pow2 (s + s) := by
        rw [exa, exb, exc, hc, pow2_add]; simp only [exact_simp]; push_cast; ring
      unfold distToLineSq2
      simp only [eD, en, ec, V2.distSq]
      rw [ExactScalar.div_eq, mul_div_mul_right _ _ hUU.ne']
      rw [ExactScalar.div_eq, ExactScalar.mul_eq]
      have e3 : (c : ℚ) * pow2 (s + s) * (c * pow2 (s + s)) / (D * pow2 (s + s)) = ((c * c : ℤ) : ℚ) / D * pow2 (s + s) := by
        push_cast; field_simp
      rw [e3]
      have l1 : (Scalar.lt ((n : ℚ) / D) Scalar.zero = true) ↔ (n : ℚ) / D < 0 := by simp only [exact_simp]
      have l2 : (Scalar.lt Scalar.one ((n : ℚ) / D) = true) ↔ 1 < (n : ℚ) / D := by simp only [exact_simp]
      by_cases h1 : (n : ℚ) / D < 0
      · rw [if_pos h1, if_pos (l1.2 h1)]
      · rw [if_neg h1, if_neg (fun h => h1 (l1.1 h))]
        by_cases h2 : 1 < (n : ℚ) / D
        · rw [if_pos h2]; exact if_pos (l2.2 h2)
        · rw [if_neg h2]; exact if_neg (fun h => h2 (l2.1 h))
    rw [hex]
    have f1 : (Scalar.lt (Scalar.div ((a.sub p).dot (a.sub b)) (a.sub b).magSq) Scalar.zero = true) ↔ (n : ℚ) / D < 0 := by
      rw [show Scalar.lt (Scalar.div ((a.sub p).dot (a.sub b)) (a.sub b).magSq) Scalar.zero =
        Flt.lt (Scalar.div ((a.sub p).dot (a.sub b)) (a.sub b).magSq) Scalar.zero from rfl, is_lt q1 is_zeroQ,
        decide_eq_true_eq, ← not_le, ← not_le, q2]
    have f2 : (Scalar.lt Scalar.one (Scalar.div ((a.sub p).dot (a.sub b)) (a.sub b).magSq) = true) ↔ 1 < (n : ℚ) / D := by
      rw [show Scalar.lt Scalar.one (Scalar.div ((a.sub p).dot (a.sub b)) (a.sub b).magSq) =
        Flt.lt Scalar.one (Scalar.div ((a.sub p).dot (a.sub b)) (a.sub b).magSq) from rfl, is_lt is_one q1,
        decide_eq_true_eq, ← not_le, ← not_le, q3]
    by_cases h1 : (n : ℚ) / D < 0
    · rw [if_pos h1]
      have e : distToLineSq2 a b p = a.distSq p := by
        unfold distToLineSq2; exact if_pos (f1.2 h1)
      rw [e]
      obtain ⟨v, h1, h2, h3⟩ := hsd ha hp
      exact ⟨v, h1, by rw [h2]; exact (Rel.refl _).mono (by norm_num), h3⟩
    · rw [if_neg h1]
      by_cases h2 : 1 < (n : ℚ) / D
      · rw [if_pos h2]
        have e : distToLineSq2 a b p = b.distSq p := by
          unfold distToLineSq2
          exact (if_neg (fun h => h1 (f1.1 h))).trans (if_pos (f2.2 h2))
        rw [e]
        obtain ⟨v, h1, h2, h3⟩ := hsd hb hp
        exact ⟨v, h1, by rw [h2]; exact (Rel.refl _).mono (by norm_num), h3⟩
      · rw [if_neg h2]
        have e : distToLineSq2 a b p = Scalar.div (Scalar.mul ((a.sub p).perpDot (a.sub b)) ((a.sub p).perpDot (a.sub b)))
            (a.sub b).magSq := by
          unfold distToLineSq2
          exact (if_neg (fun h => h1 (f1.1 h))).trans (if_neg (fun h => h2 (f2.1 h)))
        rw [e]
        obtain ⟨v, v1, v2, v3, -⟩ := square_rel G p1 p2
        have hcc := sq_lt_pow p2
        have hDb : D < 2 ^ (f.prec - 1) := lt_of_lt_of_le (lt_of_le_of_lt (le_abs_self D) m2)
          (pow_le_pow_right₀ (by norm_num) (by omega))
        obtain ⟨w, w1, w2, w3⟩ := quot_rel G (by norm_num) (by norm_num) v1 v2 m1 (mul_self_nonneg c)
          (lt_of_lt_of_le hcc (pow_le_pow_right₀ (by norm_num) (by omega))) hDpos hDb
          (fun h => v3 (mul_self_eq_zero.1 h))
        exact ⟨w, w1, w2.mono (by norm_num), w3⟩

/-! ### Space -/

theorem coords3 {s B : ℤ} {p : V3 (Flt f)} (h : OnGrid3 s B p) :
    ∃ k l m : ℤ, Is p.x (k * pow2 s) ∧ Is p.y (l * pow2 s) ∧ Is p.z (m * pow2 s) ∧ |k| ≤ B ∧ |l| ≤ B ∧ |m| ≤ B := by
  obtain ⟨h1, h2, h3, k, l, m, h4, h5, h6, h7⟩ := h
  exact ⟨k, l, m, ⟨h1, by rw [h4, pow2_eq]⟩, ⟨h2, by rw [h5, pow2_eq]⟩, ⟨h3, by rw [h6, pow2_eq]⟩, h7⟩

theorem det_exact {s B : ℤ} (G : GoodGrid f s B) (hB : 1 ≤ B) {x y z w : Flt f} {a b c d : ℤ} (hx : Is x (a * pow2 s))
    (hy : Is y (b * pow2 s)) (hz : Is z (c * pow2 s)) (hw : Is w (d * pow2 s)) (ha : |a| ≤ 2 * B) (hb : |b| ≤ 2 * B)
    (hc : |c| ≤ 2 * B) (hd : |d| ≤ 2 * B) :
    Is (Scalar.sub (Scalar.mul x y) (Scalar.mul z w)) ((a * b - c * d : ℤ) * pow2 (s + s)) ∧
      |a * b - c * d| < 2 ^ (f.prec - 3) :=
  perp_exact (v := ⟨x, z⟩) (w := ⟨w, y⟩) G hB ⟨hx, hz⟩ ⟨hw, hy⟩ ha hc hd hb

theorem sum3_exact {s B : ℤ} (G : GoodGrid f s B) (hB : 1 ≤ B) {x y z : Flt f} {a b c : ℤ} (hx : Is x (a * pow2 s))
    (hy : Is y (b * pow2 s)) (hz : Is z (c * pow2 s)) (ha : |a| ≤ 2 * B) (hb : |b| ≤ 2 * B) (hc : |c| ≤ 2 * B) :
    Is (Scalar.add (Scalar.add (Scalar.mul x x) (Scalar.mul y y)) (Scalar.mul z z))
      ((a * a + b * b + c * c : ℤ) * pow2 (s + s)) ∧ a * a + b * b + c * c < 2 ^ (f.prec - 1) := by
  have hsm := G.small
  have hps : (2 : ℤ) ^ f.prec = 8 * 2 ^ (f.prec - 3) := pow_split f
  have hps1 : (2 : ℤ) ^ (f.prec - 1) = 4 * 2 ^ (f.prec - 3) := by
    rw [show (4 : ℤ) = 2 ^ 2 by norm_num, ← pow_add]; congr 1; have := f.hprec; omega
  have m1 := abs_mul_le ha ha
  have m2 := abs_mul_le hb hb
  have m3 := abs_mul_le hc hc
  have hBB : 0 ≤ B * B := mul_self_nonneg B
  have n1 := mul_self_nonneg a
  have n2 := mul_self_nonneg b
  have n3 := mul_self_nonneg c
  rw [abs_of_nonneg n1] at m1
  rw [abs_of_nonneg n2] at m2
  rw [abs_of_nonneg n3] at m3
  have e : 2 * B * (2 * B) = 4 * (B * B) := by ring
  rw [e] at m1 m2 m3
  have u := GoodGrid.unit2 G
  have g1 := grid_mul u hx hx (by rw [abs_of_nonneg n1]; omega)
  have g2 := grid_mul u hy hy (by rw [abs_of_nonneg n2]; omega)
  have g3 := grid_mul u hz hz (by rw [abs_of_nonneg n3]; omega)
  have g4 := grid_add u g1 g2 (by rw [abs_of_nonneg (by omega)]; omega)
  exact ⟨grid_add u g4 g3 (by rw [abs_of_nonneg (by omega)]; omega), by omega⟩

/-- representable numbers are multiples of the least one -/
theorem repr_unit {q : ℚ} (h : Repr f q) : ∃ n : ℤ, q = n * pow2 f.emin := by
  obtain ⟨-, n, e, rfl, -, he⟩ := h
  obtain ⟨m, hm⟩ := pow2_grid he
  exact ⟨n * m, by rw [hm]; push_cast; ring⟩

/-- the sum of the squares of three exact numbers -/
theorem squares3_rel {s B : ℤ} (G : SquareGrid f s B) {x y z : Flt f} {a b c : ℤ} (hx : Is x (a * pow2 (s + s)))
    (hy : Is y (b * pow2 (s + s))) (hz : Is z (c * pow2 (s + s))) (ha : |a| < 2 ^ (f.prec - 3)) (hb : |b| < 2 ^ (f.prec - 3))
    (hc : |c| < 2 ^ (f.prec - 3)) :
    ∃ v, Is (Scalar.add (Scalar.add (Scalar.mul x x) (Scalar.mul y y)) (Scalar.mul z z)) v ∧
      Rel f (13 / 4) v ((a * a + b * b + c * c : ℤ) * pow2 (4 * s)) ∧ (a * a + b * b + c * c = 0 → v = 0) ∧
      a * a + b * b + c * c < 2 ^ (2 * f.prec - 2) := by
  have hp := f.hprec
  obtain ⟨v1, x1, x2, x3, x4, x5⟩ := square_rel G hx ha
  obtain ⟨v2, y1, y2, y3, y4, y5⟩ := square_rel G hy hb
  obtain ⟨v3, z1, z2, z3, z4, z5⟩ := square_rel G hz hc
  have hU := pow2_pos (4 * s)
  have hlo : f.emin ≤ 4 * s := by have := G.coarse; have := f.hemin; omega
  have n1 := mul_self_nonneg a
  have n2 := mul_self_nonneg b
  have n3 := mul_self_nonneg c
  have bd : ∀ {n : ℤ}, |n| < 2 ^ (f.prec - 3) → n * n < 2 ^ (2 * f.prec - 6) := by
    intro n hn
    have := sq_lt_pow hn
    rwa [show 2 * (f.prec - 3) = 2 * f.prec - 6 by omega] at this
  have b1 := bd ha
  have b2 := bd hb
  have b3 := bd hc
  -- the rounded squares are below a power of two
  have cap : ∀ {n : ℤ}, n * n < 2 ^ (2 * f.prec - 6) →
      roundQ f ((n * n : ℤ) * pow2 (4 * s)) ≤ pow2 (2 * f.prec - 6 + 4 * s) := by
    intro n hn
    have hr : Repr f (pow2 (2 * f.prec - 6 + 4 * s)) := by
      refine ⟨?_, 1, _, by rw [Int.cast_one, one_mul], by simp; exact one_lt_pow₀ (by norm_num) (by omega), by omega⟩
      rw [abs_of_pos (pow2_pos _)]; exact pow2_lt (by have := G.high; omega)
    have h1 : ((n * n : ℤ) : ℚ) ≤ pow2 (2 * f.prec - 6) := by
      have : ((n * n : ℤ) : ℚ) ≤ ((2 ^ (2 * f.prec - 6) : ℤ) : ℚ) := by exact_mod_cast hn.le
      refine this.trans (le_of_eq ?_)
      rw [show (2 * (f.prec : ℤ) - 6) = ((2 * f.prec - 6 : ℕ) : ℤ) by omega, pow2_nat]; push_cast; rfl
    have := roundQ_mono f (mul_le_mul_of_nonneg_right h1 hU.le)
    rwa [← pow2_add, hr.fix] at this
  have k1 := cap b1
  have k2 := cap b2
  have k3 := cap b3
  rw [← x5] at k1
  rw [← y5] at k2
  rw [← z5] at k3
  obtain ⟨P, hP⟩ : ∃ P, P = pow2 (2 * f.prec - 6 + 4 * s) := ⟨_, rfl⟩
  rw [← hP] at k1 k2 k3
  have hP2 : pow2 (2 * f.prec - 5 + 4 * s) = 2 * P := by
    rw [hP, show (2 * (f.prec : ℤ) - 5 + 4 * s) = 1 + (2 * f.prec - 6 + 4 * s) by ring, pow2_add, pow2_eq 1]; norm_num
  have hP4 : pow2 (2 * f.prec - 4 + 4 * s) = 4 * P := by
    rw [hP, show (2 * (f.prec : ℤ) - 4 + 4 * s) = 2 + (2 * f.prec - 6 + 4 * s) by ring, pow2_add, pow2_eq 2]; norm_num
  have hPpos : 0 < P := hP ▸ pow2_pos _
  have unitSum : ∀ {v w : ℚ}, Repr f v → Repr f w → |roundQ f (v + w) - (v + w)| ≤ pow2 (-f.prec) * |v + w| := by
    intro v w hv hw
    obtain ⟨n, rfl⟩ := repr_unit hv
    obtain ⟨m, rfl⟩ := repr_unit hw
    have := rel_unit (f := f) (e := f.emin) (n := n + m) (le_refl _)
    push_cast at this
    rwa [add_mul] at this
  have capR : Repr f (2 * P) := by
    rw [← hP2]
    refine ⟨?_, 1, _, by rw [Int.cast_one, one_mul], by simp; exact one_lt_pow₀ (by norm_num) (by omega), by omega⟩
    rw [abs_of_pos (pow2_pos _)]; exact pow2_lt (by have := G.high; omega)
  have lim1 : |roundQ f (v1 + v2)| < pow2 f.emax :=
    round_lt (k := 2 * f.prec - 5 + 4 * s) (by omega) (by have := G.high; omega)
      (by rw [abs_of_nonneg (by linarith), hP2]; linarith)
  have s1 := is_add x1 y1 lim1
  have r1 := Rel.round (x2.add y2 (mul_nonneg (by exact_mod_cast n1) hU.le) (mul_nonneg (by exact_mod_cast n2) hU.le))
    (by norm_num) (unitSum (is_repr x1) (is_repr y1))
  have w0 : 0 ≤ roundQ f (v1 + v2) := roundQ_nonneg f (by linarith)
  have w1 : roundQ f (v1 + v2) ≤ 2 * P := by
    have := roundQ_mono f (show v1 + v2 ≤ 2 * P by linarith)
    rwa [capR.fix] at this
  have lim2 : |roundQ f (roundQ f (v1 + v2) + v3)| < pow2 f.emax :=
    round_lt (k := 2 * f.prec - 4 + 4 * s) (by omega) (by have := G.high; omega)
      (by rw [abs_of_nonneg (by linarith), hP4]; linarith)
  have s2 := is_add s1 z1 lim2
  have hnn : (0 : ℚ) ≤ ((a * a : ℤ) : ℚ) * pow2 (4 * s) + ((b * b : ℤ) : ℚ) * pow2 (4 * s) :=
    add_nonneg (mul_nonneg (by exact_mod_cast n1) hU.le) (mul_nonneg (by exact_mod_cast n2) hU.le)
  have r2 := Rel.round (r1.add (z2.mono (by norm_num)) hnn (mul_nonneg (by exact_mod_cast n3) hU.le))
    (by norm_num) (unitSum (is_repr s1) (is_repr z1))
  refine ⟨_, s2, ?_, ?_, ?_⟩
  · have e : ((a * a : ℤ) : ℚ) * pow2 (4 * s) + ((b * b : ℤ) : ℚ) * pow2 (4 * s) + ((c * c : ℤ) : ℚ) * pow2 (4 * s)
        = (a * a + b * b + c * c : ℤ) * pow2 (4 * s) := by push_cast; ring
    rw [e] at r2
    exact r2.mono (by norm_num)
  · intro h
    have a0 := mul_self_eq_zero.1 (show a * a = 0 by omega)
    have b0 := mul_self_eq_zero.1 (show b * b = 0 by omega)
    have c0 := mul_self_eq_zero.1 (show c * c = 0 by omega)
    simp only [x3 a0, y3 b0, z3 c0, add_zero, roundQ_zero]
  · have : (2 : ℤ) ^ (2 * f.prec - 2) = 16 * 2 ^ (2 * f.prec - 6) := by
      rw [show (16 : ℤ) = 2 ^ 4 by norm_num, ← pow_add]; congr 1; omega
    omega

theorem grid3_ulps {s B : ℤ} (G : GoodGrid f s B) (hB : 1 ≤ B) {a b : V3 (Flt f)} (ha : OnGrid3 s B a)
    (hb : OnGrid3 s B b) : a.ulpsEq b = decide (exact3 a = exact3 b) := by
  obtain ⟨k1, l1, m1, a1, a2, a3, a4, a5, a6⟩ := coords3 ha
  obtain ⟨k2, l2, m2, b1, b2, b3, b4, b5, b6⟩ := coords3 hb
  have hu := pow2_pos s
  have hBP : B < 2 ^ (f.prec - 3) := by have := G.small; nlinarith
  have ul : ∀ {x y : Flt f} {k l : ℤ}, Is x (k * pow2 s) → Is y (l * pow2 s) → |k| ≤ B → |l| ≤ B →
      Scalar.ulpsEq x y = decide (k = l) := fun hx hy hk hl =>
    grid_ulps (GoodGrid.unit G) (by have := G.coarse; have := f.hprec; omega) hx hy (by omega) (by omega)
  unfold V3.ulpsEq
  rw [ul a1 b1 a4 b4, ul a2 b2 a5 b5, ul a3 b3 a6 b6]
  rw [← Bool.decide_and, ← Bool.decide_and]
  apply decide_eq_decide.2
  have eq : ∀ k l : ℤ, (k : ℚ) * pow2 s = l * pow2 s ↔ k = l := by
    intro k l
    rw [mul_left_inj' hu.ne']; exact_mod_cast Iff.rfl
  unfold exact3
  rw [a1.2, a2.2, a3.2, b1.2, b2.2, b3.2, V3.mk.injEq, eq, eq, eq, and_assoc]

/-- what is computed for the distance of a point from a line in space -/
theorem dist3_rel {s B : ℤ} (G : SquareGrid f s B) (hB : 1 ≤ B) {a b p : V3 (Flt f)} (ha : OnGrid3 s B a)
    (hb : OnGrid3 s B b) (hp : OnGrid3 s B p) :
    ∃ v, Is (distToLineSqSafe3 a b p) v ∧ Rel f 5 v (distToLineSqSafe3 (exact3 a) (exact3 b) (exact3 p)) ∧
      (v = 0 ∨ pow2 (f.emin + f.prec - 1) < v) := by
  have hprec := f.hprec
  have G' := G.toGoodGrid
  obtain ⟨k1, l1, m1, a1, a2, a3, a4, a5, a6⟩ := coords3 ha
  obtain ⟨k2, l2, m2, b1, b2, b3, b4, b5, b6⟩ := coords3 hb
  obtain ⟨k3, l3, m3, c1, c2, c3, c4, c5, c6⟩ := coords3 hp
  obtain ⟨d1, d1'⟩ := grid_diff G' a1 b1 a4 b4
  obtain ⟨d2, d2'⟩ := grid_diff G' a2 b2 a5 b5
  obtain ⟨d3, d3'⟩ := grid_diff G' a3 b3 a6 b6
  obtain ⟨e1, e1'⟩ := grid_diff G' a1 c1 a4 c4
  obtain ⟨e2, e2'⟩ := grid_diff G' a2 c2 a5 c5
  obtain ⟨e3, e3'⟩ := grid_diff G' a3 c3 a6 c6
  have exa : exact3 a = ⟨k1 * pow2 s, l1 * pow2 s, m1 * pow2 s⟩ := by unfold exact3; rw [a1.2, a2.2, a3.2]
  have exb : exact3 b = ⟨k2 * pow2 s, l2 * pow2 s, m2 * pow2 s⟩ := by unfold exact3; rw [b1.2, b2.2, b3.2]
  have exc : exact3 p = ⟨k3 * pow2 s, l3 * pow2 s, m3 * pow2 s⟩ := by unfold exact3; rw [c1.2, c2.2, c3.2]
  have hUU := pow2_pos (s + s)
  unfold distToLineSqSafe3
  rw [grid3_ulps G' hB ha hb]
  by_cases hab : exact3 a = exact3 b
  · rw [decide_eq_true hab, if_pos rfl, if_pos (by rw [hab]; simp only [exact_simp]; simp)]
    obtain ⟨g1, g2⟩ := sum3_exact G' hB e1 e2 e3 e1' e2' e3'
    refine ⟨_, g1, ?_, ?_⟩
    · have e : (exact3 a).distSq (exact3 p) = ((k1 - k3) * (k1 - k3) + (l1 - l3) * (l1 - l3) + (m1 - m3) * (m1 - m3) : ℤ)
          * pow2 (s + s) := by rw [exa, exc, pow2_add]; simp only [exact_simp]; push_cast; ring
      rw [e]; exact (Rel.refl _).mono (by norm_num)
    · rcases (show 0 ≤ (k1 - k3) * (k1 - k3) + (l1 - l3) * (l1 - l3) + (m1 - m3) * (m1 - m3) by
        nlinarith [mul_self_nonneg (k1 - k3), mul_self_nonneg (l1 - l3), mul_self_nonneg (m1 - m3)]).eq_or_lt with h | h
      · left; rw [← h]; simp
      · right
        have : (1 : ℚ) ≤ ((k1 - k3) * (k1 - k3) + (l1 - l3) * (l1 - l3) + (m1 - m3) * (m1 - m3) : ℤ) := by exact_mod_cast h
        calc pow2 (f.emin + f.prec - 1) < pow2 (s + s) := pow2_lt (by have := G.low; omega)
          _ ≤ _ := by nlinarith
  · rw [decide_eq_false hab, if_neg Bool.false_ne_true]
    rw [if_neg (c := (exact3 a).ulpsEq (exact3 b) = true) (by
      simp only [exact_simp, Bool.and_eq_true, decide_eq_true_eq]
      rintro ⟨⟨h1, h2⟩, h3⟩
      exact hab (by cases h : exact3 a; cases h' : exact3 b; simp_all))]
    obtain ⟨x1, x2⟩ := det_exact G' hB e2 d3 e3 d2 e2' d3' e3' d2'
    obtain ⟨y1, y2⟩ := det_exact G' hB e3 d1 e1 d3 e3' d1' e1' d3'
    obtain ⟨z1, z2⟩ := det_exact G' hB e1 d2 e2 d1 e1' d2' e2' d1'
    obtain ⟨v, v1, v2, v3, v4⟩ := squares3_rel G x1 y1 z1 x2 y2 z2
    obtain ⟨g1, g2⟩ := sum3_exact G' hB d1 d2 d3 d1' d2' d3'
    obtain ⟨D, hD⟩ : ∃ D, D = (k1 - k2) * (k1 - k2) + (l1 - l2) * (l1 - l2) + (m1 - m2) * (m1 - m2) := ⟨_, rfl⟩
    rw [← hD] at g1 g2
    have hDpos : 0 < D := by
      have h1 := mul_self_nonneg (k1 - k2)
      have h2 := mul_self_nonneg (l1 - l2)
      have h3 := mul_self_nonneg (m1 - m2)
      rcases (show 0 ≤ D by rw [hD]; omega).lt_or_eq with h | h
      · exact h
      · exfalso
        apply hab
        have g1 := mul_self_eq_zero.1 (show (k1 - k2) * (k1 - k2) = 0 by omega)
        have g2 := mul_self_eq_zero.1 (show (l1 - l2) * (l1 - l2) = 0 by omega)
        have g3 := mul_self_eq_zero.1 (show (m1 - m2) * (m1 - m2) = 0 by omega)
        rw [exa, exb, show k1 = k2 by omega, show l1 = l2 by omega, show m1 = m2 by omega]
    obtain ⟨C, hC⟩ : ∃ C, C = ((l1 - l3) * (m1 - m2) - (m1 - m3) * (l1 - l2)) * ((l1 - l3) * (m1 - m2) - (m1 - m3) * (l1 - l2))
        + ((m1 - m3) * (k1 - k2) - (k1 - k3) * (m1 - m2)) * ((m1 - m3) * (k1 - k2) - (k1 - k3) * (m1 - m2))
        + ((k1 - k3) * (l1 - l2) - (l1 - l3) * (k1 - k2)) * ((k1 - k3) * (l1 - l2) - (l1 - l3) * (k1 - k2)) := ⟨_, rfl⟩
    rw [← hC] at v2 v3 v4
    have hC0 : 0 ≤ C := by
      rw [hC]
      exact add_nonneg (add_nonneg (mul_self_nonneg _) (mul_self_nonneg _)) (mul_self_nonneg _)
    obtain ⟨w, w1, w2, w3⟩ := quot_rel G (by norm_num) (by norm_num) v1 v2 g1 hC0 v4 hDpos g2 v3
    refine ⟨w, w1, ?_, w3⟩
    have e : distToLineSq3 (exact3 a) (exact3 b) (exact3 p) = C / D * pow2 (s + s) := by
      have hDq : (D : ℚ) ≠ 0 := by exact_mod_cast hDpos.ne'
      have hs := pow2_ne s
      have eC : crossAbsSq ((exact3 a).sub (exact3 p)) ((exact3 a).sub (exact3 b)) = C * (pow2 (s + s) * pow2 (s + s)) := by
        rw [exa, exb, exc, hC, pow2_add]; simp only [crossAbsSq, exact_simp]; push_cast; ring
      have eD : ((exact3 a).sub (exact3 b)).dot ((exact3 a).sub (exact3 b)) = D * pow2 (s + s) := by
        rw [exa, exb, hD, pow2_add]; simp only [exact_simp]; push_cast; ring
      have : distToLineSq3 (exact3 a) (exact3 b) (exact3 p) = crossAbsSq ((exact3 a).sub (exact3 p)) ((exact3 a).sub (exact3 b))
        / ((exact3 a).sub (exact3 b)).dot ((exact3 a).sub (exact3 b)) := rfl
      rw [this, eC, eD]
      have hUU' := hUU.ne'
      field_simp
    rw [e]
    exact w2.mono (by norm_num)

/-! ### Areas -/

/-- the signed area, computed as in `triangleArea2`, is exact -/
theorem area2_exact {s B : ℤ} (G : GoodGrid f s B) {a b c : V2 (Flt f)} (ha : OnGrid s B a) (hb : OnGrid s B b)
    (hc : OnGrid s B c) : ∃ (x : Flt f) (N : ℤ), triangleArea2 a b c = Scalar.mul x x ∧ Is x (N * pow2 (s + s)) ∧
      orient (exact a) (exact b) (exact c) = N * pow2 (s + s) ∧ |N| < 2 ^ (f.prec - 3) := by
  obtain ⟨k1, l1, a1, a2, a3, a4⟩ := OnGrid.coords ha
  obtain ⟨k2, l2, b1, b2, b3, b4⟩ := OnGrid.coords hb
  obtain ⟨k3, l3, c1, c2, c3, c4⟩ := OnGrid.coords hc
  have hsm := G.small
  have hps : (2 : ℤ) ^ f.prec = 8 * 2 ^ (f.prec - 3) := pow_split f
  have u := GoodGrid.unit2 G
  have hBB : 0 ≤ B * B := mul_self_nonneg B
  have p1 := abs_le.1 (abs_mul_le a3 b4)
  have p2 := abs_le.1 (abs_mul_le b3 c4)
  have p3 := abs_le.1 (abs_mul_le c3 a4)
  have p4 := abs_le.1 (abs_mul_le a3 c4)
  have p5 := abs_le.1 (abs_mul_le b3 a4)
  have p6 := abs_le.1 (abs_mul_le c3 b4)
  have g1 := grid_mul u a1 b2 (by rw [abs_le]; constructor <;> omega)
  have g2 := grid_mul u b1 c2 (by rw [abs_le]; constructor <;> omega)
  have g3 := grid_mul u c1 a2 (by rw [abs_le]; constructor <;> omega)
  have g4 := grid_mul u a1 c2 (by rw [abs_le]; constructor <;> omega)
  have g5 := grid_mul u b1 a2 (by rw [abs_le]; constructor <;> omega)
  have g6 := grid_mul u c1 b2 (by rw [abs_le]; constructor <;> omega)
  have s1 := grid_add u g1 g2 (by rw [abs_le]; constructor <;> omega)
  have s2 := grid_add u s1 g3 (by rw [abs_le]; constructor <;> omega)
  have s3 := grid_sub u s2 g4 (by rw [abs_le]; constructor <;> omega)
  have s4 := grid_sub u s3 g5 (by rw [abs_le]; constructor <;> omega)
  have s5 := grid_sub u s4 g6 (by rw [abs_le]; constructor <;> omega)
  refine ⟨_, _, rfl, s5, ?_, ?_⟩
  · unfold orient exact
    rw [a1.2, a2.2, b1.2, b2.2, c1.2, c2.2, pow2_add]
    push_cast; ring
  · rw [abs_lt]; constructor <;> omega

/-- rounded squares of integers of less than `prec - 3` bits are different -/
theorem square_strict {s B : ℤ} (G : SquareGrid f s B) {m n : ℤ} (hn : |n| < 2 ^ (f.prec - 3)) (h : |m| < |n|) :
    roundQ f ((m * m : ℤ) * pow2 (4 * s)) < roundQ f ((n * n : ℤ) * pow2 (4 * s)) := by
  have hlo : f.emin ≤ 4 * s := by have := G.coarse; have := f.hemin; omega
  have hU := pow2_pos (4 * s)
  have r1 := rel_unit (f := f) (n := m * m) hlo
  have r2 := rel_unit (f := f) (n := n * n) hlo
  obtain ⟨M, hM⟩ : ∃ M : ℚ, M = |(m : ℚ)| := ⟨_, rfl⟩
  obtain ⟨N, hN⟩ : ∃ N : ℚ, N = |(n : ℚ)| := ⟨_, rfl⟩
  have eM : ((m * m : ℤ) : ℚ) = M * M := by rw [hM, abs_mul_abs_self]; push_cast; rfl
  have eN : ((n * n : ℤ) : ℚ) = N * N := by rw [hN, abs_mul_abs_self]; push_cast; rfl
  rw [eM] at r1 ⊢
  rw [eN] at r2 ⊢
  have hM0 : 0 ≤ M := hM ▸ abs_nonneg _
  have hMN : M + 1 ≤ N := by rw [hM, hN]; exact_mod_cast h
  have hε := pow2_pos (-(f.prec : ℤ))
  have hNb : 8 * (pow2 (-f.prec) * N) ≤ 1 := by
    have h1 : N ≤ ((2 ^ (f.prec - 3) : ℤ) : ℚ) := by rw [hN]; exact_mod_cast hn.le
    have h2 : (pow2 (-(f.prec : ℤ)) : ℚ) * ((8 * 2 ^ (f.prec - 3) : ℤ) : ℚ) = 1 := by
      rw [← pow_split]
      have : ((2 ^ f.prec : ℤ) : ℚ) = pow2 f.prec := by rw [pow2_nat]; push_cast; rfl
      rw [this, ← pow2_add]; simp [pow2_zero]
    push_cast at h1 h2
    have := mul_le_mul_of_nonneg_left h1 hε.le
    linarith
  rw [abs_of_nonneg (mul_nonneg (mul_nonneg hM0 hM0) hU.le)] at r1
  have hN0 : 0 ≤ N := by linarith
  rw [abs_of_nonneg (mul_nonneg (mul_nonneg hN0 hN0) hU.le)] at r2
  have r1' := (abs_le.1 r1).2
  have r2' := (abs_le.1 r2).1
  -- M²(1+ε) < N²(1-ε)
  obtain ⟨ε, hεd⟩ : ∃ ε, ε = pow2 (-(f.prec : ℤ)) := ⟨_, rfl⟩
  rw [← hεd] at r1' r2' hNb hε
  have key : M * M + ε * (M * M) < N * N - ε * (N * N) := by
    have k1 : ε * (M * M) ≤ M / 8 := by nlinarith
    have k2 : ε * (N * N) ≤ N / 8 := by nlinarith
    nlinarith
  have := mul_lt_mul_of_pos_right key hU
  nlinarith

/-- comparing computed areas is comparing areas -/
theorem area2_le {s B : ℤ} (G : SquareGrid f s B) {a b c a' b' c' : V2 (Flt f)} (ha : OnGrid s B a) (hb : OnGrid s B b)
    (hc : OnGrid s B c) (ha' : OnGrid s B a') (hb' : OnGrid s B b') (hc' : OnGrid s B c') :
    Scalar.le (triangleArea2 a b c) (triangleArea2 a' b' c') =
      decide (|orient (exact a) (exact b) (exact c)| ≤ |orient (exact a') (exact b') (exact c')|) := by
  obtain ⟨x, N, h1, h2, h3, h4⟩ := area2_exact G.toGoodGrid ha hb hc
  obtain ⟨y, M, i1, i2, i3, i4⟩ := area2_exact G.toGoodGrid ha' hb' hc'
  obtain ⟨v, v1, -, -, -, v2⟩ := square_rel G h2 h4
  obtain ⟨w, w1, -, -, -, w2⟩ := square_rel G i2 i4
  rw [h1, i1]
  refine (is_le v1 w1).trans (decide_eq_decide.2 ?_)
  have hU := pow2_pos (s + s)
  rw [h3, i3, abs_mul, abs_mul, abs_of_pos hU, mul_le_mul_iff_left₀ hU, v2, w2]
  have : (|(N : ℚ)| ≤ |(M : ℚ)|) ↔ |N| ≤ |M| := by exact_mod_cast Iff.rfl
  rw [this]
  constructor
  · intro h
    by_contra hc
    exact absurd (square_strict G h4 (not_le.1 hc)) (not_lt.2 h)
  · intro h
    rcases h.lt_or_eq with h | h
    · exact (square_strict G i4 h).le
    · rw [← abs_mul_abs_self N, ← abs_mul_abs_self M, h]

theorem area2_fin {s B : ℤ} (G : SquareGrid f s B) {a b c : V2 (Flt f)} (ha : OnGrid s B a) (hb : OnGrid s B b)
    (hc : OnGrid s B c) : (triangleArea2 a b c).isFin = true := by
  obtain ⟨x, N, h1, h2, h3, h4⟩ := area2_exact G.toGoodGrid ha hb hc
  obtain ⟨v, v1, -⟩ := square_rel G h2 h4
  rw [h1]; exact v1.1

/-- what is computed for the area of a triangle in space -/
theorem area3_rel {s B : ℤ} (G : SquareGrid f s B) (hB : 1 ≤ B) {a b c : V3 (Flt f)} (ha : OnGrid3 s B a)
    (hb : OnGrid3 s B b) (hc : OnGrid3 s B c) :
    ∃ v, Is (triangleArea3 a b c) v ∧ Rel f (13 / 4) v (triangleArea3 (exact3 a) (exact3 b) (exact3 c)) := by
  have G' := G.toGoodGrid
  obtain ⟨k1, l1, m1, a1, a2, a3, a4, a5, a6⟩ := coords3 ha
  obtain ⟨k2, l2, m2, b1, b2, b3, b4, b5, b6⟩ := coords3 hb
  obtain ⟨k3, l3, m3, c1, c2, c3, c4, c5, c6⟩ := coords3 hc
  obtain ⟨d1, d1'⟩ := grid_diff G' a1 b1 a4 b4
  obtain ⟨d2, d2'⟩ := grid_diff G' a2 b2 a5 b5
  obtain ⟨d3, d3'⟩ := grid_diff G' a3 b3 a6 b6
  obtain ⟨e1, e1'⟩ := grid_diff G' c1 b1 c4 b4
  obtain ⟨e2, e2'⟩ := grid_diff G' c2 b2 c5 b5
  obtain ⟨e3, e3'⟩ := grid_diff G' c3 b3 c6 b6
  obtain ⟨x1, x2⟩ := det_exact G' hB d2 e3 e2 d3 d2' e3' e2' d3'
  obtain ⟨y1, y2⟩ := det_exact G' hB d1 e3 e1 d3 d1' e3' e1' d3'
  obtain ⟨z1, z2⟩ := det_exact G' hB d1 e2 e1 d2 d1' e2' e1' d2'
  obtain ⟨v, v1, v2, -⟩ := squares3_rel G x1 y1 z1 x2 y2 z2
  refine ⟨v, v1, ?_⟩
  have e : triangleArea3 (exact3 a) (exact3 b) (exact3 c) =
      (((l1 - l2) * (m3 - m2) - (l3 - l2) * (m1 - m2)) * ((l1 - l2) * (m3 - m2) - (l3 - l2) * (m1 - m2))
        + ((k1 - k2) * (m3 - m2) - (k3 - k2) * (m1 - m2)) * ((k1 - k2) * (m3 - m2) - (k3 - k2) * (m1 - m2))
        + ((k1 - k2) * (l3 - l2) - (k3 - k2) * (l1 - l2)) * ((k1 - k2) * (l3 - l2) - (k3 - k2) * (l1 - l2)) : ℤ)
        * pow2 (4 * s) := by
    unfold exact3 triangleArea3
    rw [a1.2, a2.2, a3.2, b1.2, b2.2, b3.2, c1.2, c2.2, c3.2, show 4 * s = (s + s) + (s + s) by ring, pow2_add, pow2_add]
    simp only [exact_simp]
    push_cast; ring
  rw [e]; exact v2

/-! ### The recursion -/
section
variable {P : Type}
open Verif.Proofs.Rdp

/-- the rational under a float key -/
def keyVal (x : Flt f × Nat) : ℚ × Nat := (x.1.val, x.2)

theorem maxStep_val {x y : Flt f × Nat} (hx : x.1.isFin = true) (hy : y.1.isFin = true) :
    maxStep (keyVal x) (keyVal y) = keyVal (maxStep x y) := by
  have h1 : Scalar.le x.1 y.1 = decide (x.1.val ≤ y.1.val) := is_le (is_self hx) (is_self hy)
  have h2 : Scalar.le y.1 x.1 = decide (y.1.val ≤ x.1.val) := is_le (is_self hy) (is_self hx)
  have e : Scalar.pcmp x.1 y.1 = Scalar.pcmp x.1.val y.1.val := by
    unfold Scalar.pcmp Scalar.ge
    rw [h1, h2]
    simp only [exact_simp]
  unfold maxStep
  rw [e]
  split
  · rename_i h; rw [if_pos (show (Scalar.pcmp x.1.val y.1.val).getD Ordering.eq = Ordering.gt from h)]
  · rename_i h; rw [if_neg (show ¬ (Scalar.pcmp x.1.val y.1.val).getD Ordering.eq = Ordering.gt from h)]

theorem maxByLast_val (l : List (Flt f × Nat)) (h : ∀ x ∈ l, x.1.isFin = true) :
    maxByLast (l.map keyVal) = (maxByLast l).map keyVal := by
  cases l with
  | nil => rfl
  | cons x xs =>
    have key : ∀ (xs : List (Flt f × Nat)) (x : Flt f × Nat), (∀ y ∈ x :: xs, y.1.isFin = true) →
        (xs.map keyVal).foldl maxStep (keyVal x) = keyVal (xs.foldl maxStep x) := by
      intro xs
      induction xs with
      | nil => intro x _; rfl
      | cons y ys ih =>
        intro x hx
        simp only [List.map_cons, List.foldl_cons]
        rw [maxStep_val (hx x (by simp)) (hx y (by simp))]
        apply ih
        intro z hz
        rcases List.mem_cons.1 hz with rfl | hz
        · unfold maxStep; split
          · exact hx x (by simp)
          · exact hx y (by simp)
        · exact hx z (by simp [hz])
    show some _ = some _
    rw [key xs x h]

/-- the run with floats is the run with the rationals under them -/
theorem rdpRec_val (d : P → P → P → Flt f) (thr : Flt f) (T : ℚ) (points : List P)
    (hfin : ∀ a ∈ points, ∀ b ∈ points, ∀ p ∈ points, (d a b p).isFin = true)
    (hthr : ∀ a ∈ points, ∀ b ∈ points, ∀ p ∈ points, Scalar.le (d a b p) thr = decide ((d a b p).val ≤ T)) :
    rdpRec (fun a b p => .ok (d a b p)) thr points = rdpRec (fun a b p => .ok (d a b p).val) T points := by
  induction hn : points.length using Nat.strong_induction_on generalizing points with
  | _ n ih =>
    subst hn
    by_cases hl : points.length ≤ 2
    · rw [rdpRec, rdpRec, dif_pos hl, dif_pos hl]
    · have h2 : 2 < points.length := by omega
      obtain ⟨i, hi, i0, i1, hm, hr⟩ := rdpRec_unfold (fun a b p => .ok (d a b p)) d thr points (by intros; rfl) h2
      obtain ⟨j, hj, j0, j1, hm', hr'⟩ := rdpRec_unfold (fun a b p => .ok (d a b p).val) (fun a b p => (d a b p).val) T points
        (by intros; rfl) h2
      have hint : Proofs.Rdp.interior (fun a b p => (d a b p).val) points points[0] points[points.length - 1] =
          (Proofs.Rdp.interior d points points[0] points[points.length - 1]).map keyVal := by
        unfold Proofs.Rdp.interior
        rw [List.map_map]; rfl
      rw [hint, maxByLast_val _ (by
        intro x hx
        obtain ⟨hi, -, -, hx1⟩ := interior_mem _ _ _ _ _ hx
        rw [hx1]
        exact hfin _ (List.getElem_mem _) _ (List.getElem_mem _) _ (List.getElem_mem _)), hm] at hm'
      simp only [Option.map_some, keyVal, Option.some.injEq, Prod.mk.injEq] at hm'
      obtain ⟨-, rfl⟩ := hm'
      rw [hr, hr', hthr _ (List.getElem_mem _) _ (List.getElem_mem _) _ (List.getElem_mem _)]
      have e : Scalar.le (d points[0] points[points.length - 1] points[i]).val T =
          decide ((d points[0] points[points.length - 1] points[i]).val ≤ T) := by simp only [exact_simp]
      rw [e]
      have m1 : ∀ x ∈ points.take (i + 1), x ∈ points := fun x hx => List.mem_of_mem_take hx
      have m2 : ∀ x ∈ points.drop i, x ∈ points := fun x hx => List.mem_of_mem_drop hx
      rw [ih _ (by rw [List.length_take]; omega) (points.take (i + 1))
        (fun a ha b hb p hp => hfin a (m1 a ha) b (m1 b hb) p (m1 p hp))
        (fun a ha b hb p hp => hthr a (m1 a ha) b (m1 b hb) p (m1 p hp)) rfl]
      rw [ih _ (by rw [List.length_drop]; omega) (points.drop i)
        (fun a ha b hb p hp => hfin a (m2 a ha) b (m2 b hb) p (m2 p hp))
        (fun a ha b hb p hp => hthr a (m2 a ha) b (m2 b hb) p (m2 p hp)) rfl]

/-- comparing with the rounded square of `d` is comparing with a number near the square of `d` -/
theorem thr_exists {d : Flt f} (hd : d.isFin = true) :
    ∃ T : ℚ, 0 ≤ T ∧ |T - d.val ^ 2| ≤ pow2 (-f.prec) * d.val ^ 2 ∧
      ∀ (x : Flt f) (v : ℚ), Is x v → (v = 0 ∨ pow2 (f.emin + f.prec - 1) < v) →
        Scalar.le x (Scalar.mul d d) = decide (v ≤ T) := by
  have hsq : d.val * d.val = d.val ^ 2 := (sq _).symm
  have hnn : 0 ≤ d.val * d.val := mul_self_nonneg _
  have hε := pow2_pos (-(f.prec : ℤ))
  by_cases hlim : |roundQ f (d.val * d.val)| < pow2 f.emax
  · have hm := is_mul (is_self hd) (is_self hd) hlim
    rcases le_or_gt (pow2 (f.emin + f.prec - 1)) (d.val * d.val) with h | h
    · refine ⟨roundQ f (d.val * d.val), roundQ_nonneg f hnn, ?_, fun x v hx _ => is_le hx hm⟩
      have := roundQ_rel_normal f (q := d.val * d.val) (by rwa [abs_of_nonneg hnn])
      rw [← hsq]
      rwa [abs_of_nonneg hnn] at this
    · refine ⟨d.val * d.val, hnn, by rw [hsq, sub_self, abs_zero]; positivity, ?_⟩
      intro x v hx hv
      refine (is_le hx hm).trans (decide_eq_decide.2 ?_)
      have hr : Repr f (pow2 (f.emin + f.prec - 1)) := by
        have := f.hprec
        refine ⟨?_, 1, _, by rw [Int.cast_one, one_mul], by simp; exact one_lt_pow₀ (by norm_num) (by omega), by omega⟩
        rw [abs_of_pos (pow2_pos _)]; exact pow2_lt (by have := f.hemin; have := f.hemax; omega)
      have h3 := roundQ_mono f h.le
      rw [hr.fix] at h3
      rcases hv with rfl | hv
      · exact ⟨fun _ => hnn, fun _ => roundQ_nonneg f hnn⟩
      · constructor <;> intro h' <;> linarith
  · refine ⟨d.val * d.val, hnn, by rw [hsq, sub_self, abs_zero]; positivity, ?_⟩
    intro x v hx hv
    have e : Scalar.mul d d = Flt.inf false := by
      show Flt.mul d d = _
      rw [mul_ofQ hd hd]
      unfold ofQ
      rw [dif_neg hlim, decide_eq_false (not_lt.2 hnn)]
    rw [e]
    have h1 : Scalar.le x (Flt.inf false) = true := by
      have := hx.1
      cases x <;> simp_all [isFin] <;> rfl
    rw [h1]
    symm
    rw [decide_eq_true_eq]
    by_contra hc
    have h3 := roundQ_mono f (not_le.1 hc).le
    rw [(is_repr hx).fix] at h3
    have h4 := (is_repr hx).1
    rw [not_lt, abs_of_nonneg (roundQ_nonneg f hnn)] at hlim
    have := le_abs_self v
    linarith

end

end Verif.Proofs.FloatSimplify
