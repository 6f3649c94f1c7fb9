import Verif.Proofs.FloatLinePoint
import Verif.Props.FloatIntersect
/-!
# Points on segments in floating point
-/
namespace Verif.Props
open Verif Verif.Model Verif.Spec Scalar Verif.Proofs.FloatHull Verif.Proofs.FloatIntersect Verif.Proofs.FloatLinePoint Fl Flt
set_option linter.unusedSectionVars false
set_option linter.unusedVariables false
section
variable {f : Fmt} [Libm f]

/-- the triangle inequality, and Heron's formula as an inequality -/
theorem triangle (a p b : V2 ℝ) :
    Real.sqrt (sqDist2 a b) ≤ Real.sqrt (sqDist2 a p) + Real.sqrt (sqDist2 p b) ∧
    4 * (orient a b p) ^ 2 ≤ ((Real.sqrt (sqDist2 a p) + Real.sqrt (sqDist2 p b)) ^ 2 - sqDist2 a b) * sqDist2 a b := by
  have nn : ∀ p q : V2 ℝ, 0 ≤ sqDist2 p q := fun p q => by unfold sqDist2; positivity
  obtain ⟨x, hx⟩ : ∃ x, x = Real.sqrt (sqDist2 a p) := ⟨_, rfl⟩
  obtain ⟨y, hy⟩ : ∃ y, y = Real.sqrt (sqDist2 p b) := ⟨_, rfl⟩
  have hx0 : 0 ≤ x := hx ▸ Real.sqrt_nonneg _
  have hy0 : 0 ≤ y := hy ▸ Real.sqrt_nonneg _
  have hxx : x * x = sqDist2 a p := by rw [hx]; exact Real.mul_self_sqrt (nn _ _)
  have hyy : y * y = sqDist2 p b := by rw [hy]; exact Real.mul_self_sqrt (nn _ _)
  rw [← hx, ← hy]
  -- the scalar product
  obtain ⟨d, hd⟩ : ∃ d, d = (p.x - a.x) * (b.x - p.x) + (p.y - a.y) * (b.y - p.y) := ⟨_, rfl⟩
  have ha : sqDist2 a b = x * x + y * y + 2 * d := by
    rw [hxx, hyy, hd]; unfold sqDist2; ring
  have ho : (orient a b p) ^ 2 = (x * x) * (y * y) - d * d := by
    rw [hxx, hyy, hd]; unfold orient sqDist2; ring
  have hdle : d ≤ x * y := by
    have h1 : d * d ≤ (x * y) * (x * y) := by nlinarith [sq_nonneg (orient a b p)]
    exact (abs_le.1 (abs_le_of_sq_le_sq (by nlinarith) (by positivity))).2
  have hle : sqDist2 a b ≤ (x + y) ^ 2 := by rw [ha]; nlinarith
  refine ⟨Real.sqrt_le_iff.2 ⟨by positivity, hle⟩, ?_⟩
  have e : 4 * (orient a b p) ^ 2 = ((x + y) ^ 2 - sqDist2 a b) * (sqDist2 a b - (x - y) ^ 2) := by
    rw [ho, ha]; ring
  rw [e]
  apply mul_le_mul_of_nonneg_left _ (by linarith)
  nlinarith [sq_nonneg (x - y)]

/-- the triangle equality -/
theorem triangle_eq {a p b : V2 ℝ} (h : OnSegment2 a b p) :
    Real.sqrt (sqDist2 a p) + Real.sqrt (sqDist2 p b) = Real.sqrt (sqDist2 a b) := by
  have := (Proofs.Intersect.triangle_eq_iff (K := ℝ) a.x a.y b.x b.y p.x p.y).2 h
  have e : ∀ p q : V2 ℝ, Real.sqrt (sqDist2 p q) =
      Scalar.sqrt ((q.x - p.x) * (q.x - p.x) + (q.y - p.y) * (q.y - p.y)) := by
    intro p q
    show _ = Real.sqrt _
    congr 1; unfold sqDist2; ring
  rw [e, e, e, this]

/-- zero is not close to a length -/
theorem zero_not_ulps {w : Flt f} {x : ℚ} (hw : Is w x) {s B : ℤ} (G : GoodGrid f s B) (hB : 1 ≤ B)
    (hx : pow2 (s - 1) ≤ x) {z : Flt f} (hz : Is z 0) : Flt.ulpsEq z w = false := by
  have hx0 : 0 < x := lt_of_lt_of_le (pow2_pos _) hx
  have hr := is_repr hw
  have e0 : roundQ f (0 - x) = -x := by rw [zero_sub, roundQ_neg, hr.fix]
  have hs := is_abs (is_sub hz hw (by rw [e0, abs_neg]; exact hr.1))
  rw [e0, abs_neg, abs_of_pos hx0] at hs
  have hle := is_le hs (is_epsilon (f := f))
  have hz0 : z ≠ nan := by rintro rfl; simp [Is, isFin] at hz
  have hw0 : w ≠ nan := by rintro rfl; simp [Is, isFin] at hw
  have hc := G.coarse; have hm := f.hemin; have hp := f.hprec
  have h7 : (7 : ℤ) ≤ f.prec := by
    obtain ⟨g1, -⟩ := grid_facts G hB
    by_contra hcon
    have h6 : f.prec ≤ 6 := by omega
    have h2 : (2 : ℚ) ^ f.prec ≤ 2 ^ 6 := pow_le_pow_right₀ (by norm_num) h6
    have hBq : (1 : ℚ) ≤ B := by exact_mod_cast hB
    nlinarith
  have hne : ¬ x ≤ pow2 (1 - f.prec) := by
    rw [not_le]; exact lt_of_lt_of_le (pow2_lt (by omega)) hx
  have hord : (64 : ℤ) ≤ w.ord := by
    have h1 := ord_eq hw hx0.ne'
    have h2 : (1 : ℤ) ≤ ulpExp f x - f.emin := by
      have h3 : s - 1 ≤ ilog2 x := by
        have := pow2_lt_iff.1 (lt_of_le_of_lt hx (lt_ilog2 hx0)); omega
      unfold ulpExp
      rw [abs_of_pos hx0]
      have := le_max_left (ilog2 x + 1 - (f.prec : ℤ)) f.emin
      omega
    have h4 : (0 : ℚ) ≤ |x| / pow2 (ulpExp f x) := div_nonneg (abs_nonneg _) (pow2_pos _).le
    have h5 : (2 : ℚ) ^ 6 ≤ 2 ^ (f.prec - 1) := pow_le_pow_right₀ (by norm_num) (by omega)
    have h6 : (1 : ℚ) ≤ ((ulpExp f x - f.emin : ℤ) : ℚ) := by exact_mod_cast h2
    have h7 : (64 : ℚ) ≤ w.ord := by
      rw [h1]
      have : (1 : ℚ) * 2 ^ (f.prec - 1) ≤ ((ulpExp f x - f.emin : ℤ) : ℚ) * 2 ^ (f.prec - 1) :=
        mul_le_mul_of_nonneg_right h6 (by positivity)
      norm_num at h5 ⊢
      push_cast at this
      linarith
    exact_mod_cast h7
  have hzord : z.ord = 0 := by
    obtain ⟨h1, h2⟩ := hz
    cases z with
    | nan => rfl
    | inf s => simp [isFin] at h1
    | zero s => rfl
    | fin q hh => simp only [Flt.val] at h2; exact absurd h2 hh.1
  unfold Flt.ulpsEq
  rw [hle, hzord]
  simp only [hne, if_false, hz0, hw0, decide_false, Bool.or_self, Bool.false_eq_true]
  split
  · rfl
  · rw [decide_eq_false_iff_not, zero_sub, abs_neg, abs_of_nonneg (by omega)]; omega

theorem is_sqrt_zero {z : Flt f} (hz : Is z 0) : Is (Scalar.sqrt z) 0 := by
  obtain ⟨h1, h2⟩ := hz
  cases z with
  | nan => simp [isFin] at h1
  | inf s => simp [isFin] at h1
  | zero s => exact is_zero s
  | fin q hh => simp only [Flt.val] at h2; exact absurd h2 hh.1

/-- the sum of two computed lengths is not small -/
theorem sum_grid {s B : ℤ} (G : GoodGrid f s B) (hB : 1 ≤ B) {z2 z3 : Flt f} {N2 N3 : ℤ}
    (h2 : Is z2 (N2 * pow2 (s + s))) (h3 : Is z3 (N3 * pow2 (s + s))) (n2 : 1 ≤ N2) (n3 : 1 ≤ N3)
    (m2 : N2 < 2 ^ (f.prec - 3)) (m3 : N3 < 2 ^ (f.prec - 3)) :
    ∃ v, Is (Scalar.add (Scalar.sqrt z2) (Scalar.sqrt z3)) v ∧ pow2 (s - 1) ≤ v := by
  obtain ⟨g1, g2, g3, g4, g5⟩ := grid_facts G hB
  obtain ⟨v2, i2, r2, l2, u2⟩ := sqrt_grid G hB h2 n2 m2
  obtain ⟨v3, i3, r3, l3, u3⟩ := sqrt_grid G hB h3 n3 m3
  have hε6 : ((pow2 (-f.prec) : ℚ) : ℝ) ≤ 1 / 64 := by
    have := (Rat.cast_le (K := ℝ)).2 g5
    push_cast at this; exact this
  have hu : (0 : ℝ) < ((pow2 s : ℚ) : ℝ) := by exact_mod_cast pow2_pos s
  have bnd : ∀ {v : ℚ} {x : ℝ}, |(v : ℝ) - x| ≤ 65 / 64 * ((pow2 (-f.prec) : ℚ) : ℝ) * x → ((pow2 s : ℚ) : ℝ) ≤ x →
      x ≤ 2 ^ (f.prec - 3) * ((pow2 s : ℚ) : ℝ) →
      pow2 s ≤ 2 * v ∧ v ≤ 2 * (2 ^ (f.prec - 3) * pow2 s) := by
    intro v x h hl hx
    have h1 : 65 / 64 * ((pow2 (-f.prec) : ℚ) : ℝ) * x ≤ 65 / 64 * (1 / 64) * x :=
      mul_le_mul_of_nonneg_right (by linarith) (by linarith)
    rw [abs_le] at h
    have a1 : ((pow2 s : ℚ) : ℝ) ≤ 2 * v := by linarith
    have a2 : (v : ℝ) ≤ 2 * (2 ^ (f.prec - 3) * ((pow2 s : ℚ) : ℝ)) := by linarith
    exact ⟨by exact_mod_cast a1, by exact_mod_cast a2⟩
  obtain ⟨b1, b2⟩ := bnd r2 l2 u2
  obtain ⟨b3, b4⟩ := bnd r3 l3 u3
  have huq := pow2_pos s
  have hp := f.hprec
  have rr : Repr f ((2 ^ (f.prec - 1) : ℤ) * pow2 s) := by
    apply repr_grid (GoodGrid.unit G)
    rw [abs_of_pos (by positivity)]
    exact pow_le_pow_right₀ (by norm_num) (by omega)
  have hfin : |roundQ f (v2 + v3)| < pow2 f.emax := by
    refine lt_of_le_of_lt ((abs_roundQ_le rr ?_).trans (le_abs_self _)) rr.1
    rw [abs_of_pos (by linarith)]
    have e4 : (2 : ℚ) ^ (f.prec - 1) = 4 * 2 ^ (f.prec - 3) := by
      rw [show f.prec - 1 = 2 + (f.prec - 3) by omega, pow_add]; norm_num
    push_cast
    rw [e4]
    linarith
  refine ⟨_, is_add i2 i3 hfin, ?_⟩
  have ru : Repr f (pow2 s) := by
    have := repr_grid (f := f) (e := s) (n := 1) (GoodGrid.unit G) (by simpa using one_le_pow₀ (by norm_num))
    simpa using this
  have h1 := roundQ_mono f (show pow2 s ≤ v2 + v3 by linarith)
  rw [ru.fix] at h1
  exact le_trans (pow2_le (by omega)) h1

/-- `intersect_line_point` on a grid, in terms of distances -/
theorem line_point {s B : ℤ} (G : GoodGrid f s B) {a b p : V2 (Flt f)} (ha : OnGrid s B a) (hb : OnGrid s B b)
    (hp : OnGrid s B p) :
    (OnSegment2 (exactR a) (exactR b) (exactR p) → intersectLinePoint ⟨a, b⟩ p = some (.point p)) ∧
    (∀ r, intersectLinePoint ⟨a, b⟩ p = some r → r = .point p ∧
      (exact a = exact b → exact p = exact a) ∧
      Real.sqrt (sqDist2 (exactR a) (exactR p)) + Real.sqrt (sqDist2 (exactR p) (exactR b)) ≤
        Real.sqrt (sqDist2 (exactR a) (exactR b)) +
          2 ^ (-(f.prec : ℤ)) * (16 * Real.sqrt (sqDist2 (exactR a) (exactR b)) + 4)) := by
  have hε : (0 : ℝ) < 2 ^ (-(f.prec : ℤ)) := by positivity
  have hpos : 0 ≤ (2 : ℝ) ^ (-(f.prec : ℤ)) * (16 * Real.sqrt (sqDist2 (exactR a) (exactR b)) + 4) :=
    mul_nonneg hε.le (by have := Real.sqrt_nonneg (sqDist2 (exactR a) (exactR b)); linarith)
  obtain ⟨a1, a2, i1, i2, i3, i4⟩ := OnGrid.coords ha
  obtain ⟨b1, b2, j1, j2, j3, j4⟩ := OnGrid.coords hb
  obtain ⟨p1, p2, k1, k2, k3, k4⟩ := OnGrid.coords hp
  have hu := pow2_pos s
  have ceq : ∀ k l : ℤ, ((k : ℚ) * pow2 s = l * pow2 s) ↔ k = l := fun k l => by
    rw [mul_left_inj' hu.ne']; exact Int.cast_inj
  have hPp : (0 : ℤ) < 2 ^ (f.prec - 3) := by positivity
  have hBP : B < 2 ^ (f.prec - 3) := by
    have := G.small
    have h0 : 0 ≤ B := (abs_nonneg _).trans i3
    nlinarith
  have ul : ∀ {x y : Flt f} {k l : ℤ}, Is x (k * pow2 s) → Is y (l * pow2 s) → |k| ≤ B → |l| ≤ B →
      Scalar.ulpsEq x y = decide (k = l) := fun hx hy hk hl =>
    grid_ulps (GoodGrid.unit G) (by have := G.coarse; have := f.hprec; omega) hx hy (by omega) (by omega)
  have ev : ∀ {q : V2 (Flt f)} {k l m n : ℤ} {r : V2 (Flt f)}, Is q.x (k * pow2 s) → Is q.y (l * pow2 s) →
      Is r.x (m * pow2 s) → Is r.y (n * pow2 s) → (exact q = exact r ↔ k = m ∧ l = n) := by
    intro q k l m n r h1 h2 h3 h4
    have e1 : exact q = ⟨k * pow2 s, l * pow2 s⟩ := congrArg₂ V2.mk h1.2 h2.2
    have e2 : exact r = ⟨m * pow2 s, n * pow2 s⟩ := congrArg₂ V2.mk h3.2 h4.2
    rw [e1, e2, V2.mk.injEq, ceq, ceq]
  unfold intersectLinePoint
  simp only
  rw [ul i1 k1 i3 k3, ul i2 k2 i4 k4, ul j1 k1 j3 k3, ul j2 k2 j4 k4, ← Bool.decide_and, ← Bool.decide_and]
  have hself : ∀ q : V2 ℝ, Real.sqrt (sqDist2 q q) = 0 := fun q => by
    rw [show sqDist2 q q = 0 by unfold sqDist2; ring, Real.sqrt_zero]
  by_cases c1 : a1 = p1 ∧ a2 = p2
  · rw [decide_eq_true c1, if_pos rfl]
    have e : exact a = exact p := (ev i1 i2 k1 k2).2 c1
    have eR : exactR a = exactR p := by
      have : ∀ q : V2 (Flt f), exactR q = castV (exact q) := fun _ => rfl
      rw [this, this, e]
    refine ⟨fun _ => rfl, fun r hr => ⟨(Option.some.inj hr).symm, fun _ => e.symm, ?_⟩⟩
    rw [← eR, hself]; linarith
  rw [decide_eq_false c1, if_neg Bool.false_ne_true]
  by_cases c2 : b1 = p1 ∧ b2 = p2
  · rw [decide_eq_true c2, if_pos rfl]
    have e : exact b = exact p := (ev j1 j2 k1 k2).2 c2
    have eR : exactR b = exactR p := by
      have : ∀ q : V2 (Flt f), exactR q = castV (exact q) := fun _ => rfl
      rw [this, this, e]
    refine ⟨fun _ => rfl, fun r hr => ⟨(Option.some.inj hr).symm, fun h => by rw [h, e], ?_⟩⟩
    rw [← eR, hself]; linarith
  rw [decide_eq_false c2, if_neg Bool.false_ne_true]
  have hB : 1 ≤ B := by
    by_contra hc
    rw [abs_le] at i3 i4 k3 k4
    exact c1 ⟨by omega, by omega⟩
  -- the three squared lengths
  have sq : ∀ {q r : V2 (Flt f)}, OnGrid s B q → OnGrid s B r →
      ∃ N : ℤ, Is (r.distSq q) (N * pow2 (s + s)) ∧ sqDist2 (exactR q) (exactR r) = ((N * pow2 (s + s) : ℚ) : ℝ) ∧
        0 ≤ N ∧ N < 2 ^ (f.prec - 3) ∧ (exact q ≠ exact r → 1 ≤ N) := by
    intro q r hq hr
    obtain ⟨N, h1, h2, h3⟩ := dist_exact G hr hq
    have hp2 := pow2_pos (s + s)
    have hnn : 0 ≤ sqDist2 (exact r) (exact q) := by unfold sqDist2; positivity
    have hN0 : 0 ≤ N := by
      rw [h2] at hnn
      have := nonneg_of_mul_nonneg_left hnn hp2
      exact_mod_cast this
    refine ⟨N, h1, ?_, hN0, lt_of_le_of_lt (le_abs_self _) h3, ?_⟩
    · rw [← h2]; simp only [sqDist2, exactR, exact]; push_cast; ring
    · intro hne
      by_contra hc
      have : N = 0 := by omega
      rw [this] at h2
      simp only [Int.cast_zero, zero_mul, sqDist2] at h2
      apply hne
      have hx : (exact r).x - (exact q).x = 0 := by
        have := sq_nonneg ((exact r).x - (exact q).x)
        have := sq_nonneg ((exact r).y - (exact q).y)
        exact pow_eq_zero_iff (two_ne_zero) |>.1 (by linarith)
      have hy : (exact r).y - (exact q).y = 0 := by
        have := sq_nonneg ((exact r).x - (exact q).x)
        have := sq_nonneg ((exact r).y - (exact q).y)
        exact pow_eq_zero_iff (two_ne_zero) |>.1 (by linarith)
      have e1 : (exact q).x = (exact r).x := by linarith
      have e2 : (exact q).y = (exact r).y := by linarith
      exact congrArg₂ V2.mk e1 e2
  obtain ⟨N1, z1, d1, o1, m1, n1⟩ := sq ha hb
  obtain ⟨N2, z2, d2, o2, m2, n2⟩ := sq ha hp
  obtain ⟨N3, z3, d3, o3, m3, n3⟩ := sq hp hb
  have n2 := n2 (fun h => c1 ((ev i1 i2 k1 k2).1 h))
  have n3 := n3 (fun h => c2 (by have := (ev k1 k2 j1 j2).1 h; exact ⟨this.1.symm, this.2.symm⟩))
  have cond : Scalar.ulpsEq (Scalar.sqrt (((b.x -. a.x) *. (b.x -. a.x)) +. ((b.y -. a.y) *. (b.y -. a.y))))
      (Scalar.sqrt (((p.x -. a.x) *. (p.x -. a.x)) +. ((p.y -. a.y) *. (p.y -. a.y))) +.
        Scalar.sqrt (((b.x -. p.x) *. (b.x -. p.x)) +. ((b.y -. p.y) *. (b.y -. p.y)))) =
      Scalar.ulpsEq (Scalar.sqrt (b.distSq a)) (Scalar.add (Scalar.sqrt (p.distSq a)) (Scalar.sqrt (b.distSq p))) := rfl
  rw [cond]
  by_cases hab : exact a = exact b
  · -- the segment is a point
    have hN1 : N1 = 0 := by
      have h0 : sqDist2 (exactR a) (exactR b) = 0 := by
        have : exactR a = exactR b := by
          have : ∀ q : V2 (Flt f), exactR q = castV (exact q) := fun _ => rfl
          rw [this, this, hab]
        rw [this]; unfold sqDist2; ring
      rw [h0] at d1
      have : (N1 : ℚ) * pow2 (s + s) = 0 := by exact_mod_cast d1.symm
      rcases mul_eq_zero.1 this with h | h
      · exact_mod_cast h
      · exact absurd h (pow2_pos _).ne'
    rw [hN1, Int.cast_zero, zero_mul] at z1
    obtain ⟨v, iv, lv⟩ := sum_grid G hB z2 z3 n2 n3 m2 m3
    have hz := zero_not_ulps iv G hB lv (is_sqrt_zero z1)
    rw [show Scalar.ulpsEq (Scalar.sqrt (b.distSq a)) (Scalar.add (Scalar.sqrt (p.distSq a)) (Scalar.sqrt (b.distSq p))) =
      false from hz, if_neg Bool.false_ne_true]
    refine ⟨?_, fun r hr => (nomatch hr)⟩
    intro hseg
    exfalso
    have eR : exactR a = exactR b := by
      have : ∀ q : V2 (Flt f), exactR q = castV (exact q) := fun _ => rfl
      rw [this, this, hab]
    rw [← eR] at hseg
    have := Proofs.Intersect.onSeg_self hseg
    have : exact p = exact a := by
      have e : ∀ q : V2 (Flt f), exactR q = castV (exact q) := fun _ => rfl
      rw [e, e, castV_inj] at this; exact this
    exact c1 ((ev i1 i2 k1 k2).1 this.symm)
  · have n1 := n1 hab
    have htri := (triangle (exactR a) (exactR p) (exactR b)).1
    obtain ⟨q1, q2⟩ := lengths G hB z1 z2 z3 n1 n2 n3 m1 m2 m3 (a := Real.sqrt (sqDist2 (exactR a) (exactR b)))
      (x := Real.sqrt (sqDist2 (exactR a) (exactR p))) (y := Real.sqrt (sqDist2 (exactR p) (exactR b)))
      (by rw [d1]) (by rw [d2]) (by rw [d3]) htri
    have eε : ((pow2 (-f.prec) : ℚ) : ℝ) = 2 ^ (-(f.prec : ℤ)) := by rw [pow2_eq]; push_cast; rfl
    rw [eε] at q2
    constructor
    · intro hseg
      rw [q1 (triangle_eq hseg), if_pos rfl]
    · intro r hr
      by_cases hc : Scalar.ulpsEq (Scalar.sqrt (b.distSq a)) (Scalar.add (Scalar.sqrt (p.distSq a)) (Scalar.sqrt (b.distSq p))) = true
      · rw [if_pos hc] at hr
        exact ⟨(Option.some.inj hr).symm, fun h => absurd h hab, q2 hc⟩
      · rw [if_neg hc] at hr
        exact (nomatch hr)

/-- C78: `intersect_line_point` in floating point accepts every point of the grid that lies on the segment. -/
theorem C78_accepts_points_on_the_segment {s B : ℤ} (G : GoodGrid f s B) {a b p : V2 (Flt f)} (ha : OnGrid s B a)
    (hb : OnGrid s B b) (hp : OnGrid s B p) (h : OnSegment2 (exactR a) (exactR b) (exactR p)) :
    intersectLinePoint ⟨a, b⟩ p = some (.point p) :=
  (line_point G ha hb hp).1 h

/-- C78: an accepted point is returned as it is and lies in a thin ellipse around the segment: the sum of
the distances to the two ends exceeds the length of the segment by a relative error only. -/
theorem C78_accepted_points_are_near {s B : ℤ} (G : GoodGrid f s B) {a b p : V2 (Flt f)} (ha : OnGrid s B a)
    (hb : OnGrid s B b) (hp : OnGrid s B p) (r : Intersection (Flt f)) (h : intersectLinePoint ⟨a, b⟩ p = some r) :
    r = .point p ∧
      Real.sqrt (sqDist2 (exactR a) (exactR p)) + Real.sqrt (sqDist2 (exactR p) (exactR b)) ≤
        Real.sqrt (sqDist2 (exactR a) (exactR b)) +
          2 ^ (-(f.prec : ℤ)) * (16 * Real.sqrt (sqDist2 (exactR a) (exactR b)) + 4) :=
  ⟨((line_point G ha hb hp).2 r h).1, ((line_point G ha hb hp).2 r h).2.2⟩

/-- C78: if the line is a point, only that point is accepted. -/
theorem C78_point_on_point {s B : ℤ} (G : GoodGrid f s B) {a b p : V2 (Flt f)} (ha : OnGrid s B a)
    (hb : OnGrid s B b) (hp : OnGrid s B p) (hab : exact a = exact b) :
    (intersectLinePoint ⟨a, b⟩ p).isSome = true ↔ exact p = exact a := by
  obtain ⟨h1, h2⟩ := line_point G ha hb hp
  constructor
  · intro h
    obtain ⟨r, hr⟩ := Option.isSome_iff_exists.1 h
    exact (h2 r hr).2.1 hab
  · intro h
    rw [h1 ?_]; · rfl
    have e : ∀ q : V2 (Flt f), exactR q = castV (exact q) := fun _ => rfl
    rw [e, e, e, h, hab]
    exact Proofs.Intersect.onSeg_start _ _

/-- if a point off the segment is not far from it compared with the unit, the grid is big -/
theorem off_segment {u L ε : ℝ} (hu : 0 < u) (a p b : V2 ℝ) (hε : 0 < ε) (hε1 : 1024 * ε ≤ 1)
    (hL : sqDist2 a b ≤ 8 * L ^ 2 * u ^ 2) (hL1 : 1 ≤ L) (hLε : 1024 * L ^ 4 * ε ≤ 1)
    (ho : orient a b p = 0 ∨ u ^ 2 ≤ |orient a b p|)
    (hx : u ^ 2 ≤ sqDist2 a p) (hy : u ^ 2 ≤ sqDist2 p b)
    (hS : Real.sqrt (sqDist2 a p) + Real.sqrt (sqDist2 p b) ≤ Real.sqrt (sqDist2 a b) * (1 + 20 * ε)) :
    OnSegment2 a b p := by
  have nn : ∀ p q : V2 ℝ, 0 ≤ sqDist2 p q := fun p q => by unfold sqDist2; positivity
  obtain ⟨h1, h2⟩ := triangle a p b
  have hxu := Real.le_sqrt_of_sq_le hx
  have hyu := Real.le_sqrt_of_sq_le hy
  have key : OnSegment2 a b p ↔ Real.sqrt (sqDist2 a p) + Real.sqrt (sqDist2 p b) = Real.sqrt (sqDist2 a b) := by
    have e : ∀ p q : V2 ℝ, Real.sqrt (sqDist2 p q) =
        Scalar.sqrt ((q.x - p.x) * (q.x - p.x) + (q.y - p.y) * (q.y - p.y)) := by
      intro p q
      show _ = Real.sqrt _
      congr 1; unfold sqDist2; ring
    rw [e, e, e]
    constructor
    · exact fun h => ((Proofs.Intersect.triangle_eq_iff (K := ℝ) a.x a.y b.x b.y p.x p.y).2 h).symm
    · exact fun h => ((Proofs.Intersect.triangle_eq_iff (K := ℝ) a.x a.y b.x b.y p.x p.y).1 h.symm)
  obtain ⟨x, hxe⟩ : ∃ x, x = Real.sqrt (sqDist2 a p) := ⟨_, rfl⟩
  obtain ⟨y, hye⟩ : ∃ y, y = Real.sqrt (sqDist2 p b) := ⟨_, rfl⟩
  obtain ⟨c, hce⟩ : ∃ c, c = Real.sqrt (sqDist2 a b) := ⟨_, rfl⟩
  have hc0 : 0 ≤ c := hce ▸ Real.sqrt_nonneg _
  have hxx : x * x = sqDist2 a p := by rw [hxe]; exact Real.mul_self_sqrt (nn _ _)
  have hyy : y * y = sqDist2 p b := by rw [hye]; exact Real.mul_self_sqrt (nn _ _)
  have hcc : c * c = sqDist2 a b := by rw [hce]; exact Real.mul_self_sqrt (nn _ _)
  rw [key]
  rw [← hxe] at h2 hS hxu ⊢
  rw [← hye] at h2 hS hyu ⊢
  rw [← hce] at hS ⊢
  rw [← hcc] at h2 hL
  clear key h1 hxe hye hce nn hx hy
  have hS1 : (x + y) ^ 2 ≤ (c * (1 + 20 * ε)) ^ 2 := pow_le_pow_left₀ (by linarith) hS 2
  have hS2 : (x + y) ^ 2 - c * c ≤ 41 * ε * (c * c) := by
    have : (c * (1 + 20 * ε)) ^ 2 = c * c + (40 * ε + 400 * ε * ε) * (c * c) := by ring
    have h4 : 400 * ε * ε ≤ ε := by nlinarith
    have h5 : (40 * ε + 400 * ε * ε) * (c * c) ≤ 41 * ε * (c * c) :=
      mul_le_mul_of_nonneg_right (by linarith) (mul_self_nonneg c)
    linarith
  rcases ho with ho | ho
  · -- on the line
    obtain ⟨d, hd⟩ : ∃ d, d = (p.x - a.x) * (b.x - p.x) + (p.y - a.y) * (b.y - p.y) := ⟨_, rfl⟩
    have ha : c * c = x * x + y * y + 2 * d := by
      rw [hcc, hxx, hyy, hd]; unfold sqDist2; ring
    have hO : (orient a b p) ^ 2 = (x * x) * (y * y) - d * d := by
      rw [hxx, hyy, hd]; unfold orient sqDist2; ring
    rw [ho] at hO
    have hf : (x * y - d) * (x * y + d) = 0 := by linear_combination -hO
    rcases mul_eq_zero.1 hf with h | h
    · have : (x + y) ^ 2 = c ^ 2 := by linear_combination 2 * h - ha
      exact (sq_eq_sq₀ (by linarith) hc0).1 this
    · exfalso
      have e : (x + y) ^ 2 - c * c = 4 * (x * y) := by rw [ha]; linear_combination -2 * h
      have h3 : u * u ≤ x * y := mul_le_mul hxu hyu hu.le (by linarith)
      have h4 : 41 * ε * (c * c) ≤ 41 * ε * (8 * L ^ 2 * u ^ 2) :=
        mul_le_mul_of_nonneg_left (by linarith) (by linarith)
      have h5 : L ^ 2 ≤ L ^ 4 := pow_le_pow_right₀ hL1 (by norm_num)
      have h6 : ε * L ^ 2 ≤ ε * L ^ 4 := mul_le_mul_of_nonneg_left h5 hε.le
      have h7 : 41 * ε * (8 * L ^ 2 * u ^ 2) ≤ u ^ 2 := by
        have : (328 * (ε * L ^ 2)) * u ^ 2 ≤ 1 * u ^ 2 := mul_le_mul_of_nonneg_right (by linarith) (by positivity)
        linarith
      have hu2 : 0 < u ^ 2 := by positivity
      linarith
  · exfalso
    have h3 : u ^ 2 * u ^ 2 ≤ (orient a b p) ^ 2 := by
      rw [← sq_abs (orient a b p), sq (|orient a b p|)]
      exact mul_le_mul ho ho (by positivity) (abs_nonneg _)
    have h4 : ((x + y) ^ 2 - c * c) * (c * c) ≤ 41 * ε * (c * c) * (c * c) :=
      mul_le_mul_of_nonneg_right hS2 (mul_self_nonneg c)
    have h5 : (c * c) * (c * c) ≤ (8 * L ^ 2 * u ^ 2) * (8 * L ^ 2 * u ^ 2) :=
      mul_le_mul hL hL (mul_self_nonneg c) (by positivity)
    have h6 : 41 * ε * ((c * c) * (c * c)) ≤ 41 * ε * ((8 * L ^ 2 * u ^ 2) * (8 * L ^ 2 * u ^ 2)) :=
      mul_le_mul_of_nonneg_left h5 (by linarith)
    have h7 : 41 * ε * ((8 * L ^ 2 * u ^ 2) * (8 * L ^ 2 * u ^ 2)) = 2624 * (L ^ 4 * ε) * (u ^ 2 * u ^ 2) := by ring
    have hu4 : 0 < u ^ 2 * u ^ 2 := by positivity
    have h8 : 2624 * (L ^ 4 * ε) * (u ^ 2 * u ^ 2) ≤ 3 * (u ^ 2 * u ^ 2) :=
      mul_le_mul_of_nonneg_right (by linarith) hu4.le
    linarith

/-- C78: on a small grid of unit at least one the test is exact: a point is accepted if and only if it lies
on the segment.  (For doubles: coordinates up to 1448 units.) -/
theorem C78_exact_on_small_grids {s B : ℤ} (G : GoodGrid f s B) (hs : 0 ≤ s) (hsm : 1024 * B ^ 4 ≤ 2 ^ f.prec)
    {a b p : V2 (Flt f)} (ha : OnGrid s B a) (hb : OnGrid s B b) (hp : OnGrid s B p) :
    (OnSegment2 (exactR a) (exactR b) (exactR p) → intersectLinePoint ⟨a, b⟩ p = some (.point p)) ∧
    (¬ OnSegment2 (exactR a) (exactR b) (exactR p) → intersectLinePoint ⟨a, b⟩ p = none) := by
  obtain ⟨h1, h2⟩ := line_point G ha hb hp
  refine ⟨h1, fun hn => ?_⟩
  by_contra hcon
  obtain ⟨r, hr⟩ := Option.ne_none_iff_exists'.1 hcon
  obtain ⟨-, hpt, hS⟩ := h2 r hr
  apply hn
  have ec : ∀ q : V2 (Flt f), exactR q = castV (exact q) := fun _ => rfl
  by_cases hab : exact a = exact b
  · rw [ec, ec, ec, hpt hab, hab]
    exact Proofs.Intersect.onSeg_start _ _
  by_cases hap : exact a = exact p
  · rw [ec, ec, ec, hap]
    exact Proofs.Intersect.onSeg_start _ _
  by_cases hbp : exact p = exact b
  · rw [ec, ec, ec, hbp]
    exact Proofs.Intersect.onSeg_end _ _
  obtain ⟨a1, a2, i1, i2, i3, i4⟩ := OnGrid.coords ha
  obtain ⟨b1, b2, j1, j2, j3, j4⟩ := OnGrid.coords hb
  obtain ⟨p1, p2, k1, k2, k3, k4⟩ := OnGrid.coords hp
  obtain ⟨u, hue⟩ : ∃ u : ℝ, u = ((pow2 s : ℚ) : ℝ) := ⟨_, rfl⟩
  have hu : 0 < u := by rw [hue]; exact_mod_cast pow2_pos s
  have hu1 : 1 ≤ u := by
    rw [hue]; have : pow2 0 ≤ pow2 s := pow2_le hs
    rw [pow2_zero] at this; exact_mod_cast this
  have mk : ∀ {q : V2 (Flt f)} {k l : ℤ}, Is q.x (k * pow2 s) → Is q.y (l * pow2 s) →
      exactR q = ⟨k * u, l * u⟩ := by
    intro q k l hk hl
    have e1 : ((q.x.val : ℚ) : ℝ) = k * u := by rw [hk.2, hue]; push_cast; rfl
    have e2 : ((q.y.val : ℚ) : ℝ) = l * u := by rw [hl.2, hue]; push_cast; rfl
    exact congrArg₂ V2.mk e1 e2
  have ea := mk i1 i2
  have eb := mk j1 j2
  have ep := mk k1 k2
  have dist : ∀ (k l m n : ℤ), sqDist2 (⟨k * u, l * u⟩ : V2 ℝ) ⟨m * u, n * u⟩ = (((k - m) ^ 2 + (l - n) ^ 2 : ℤ) : ℝ) * u ^ 2 := by
    intro k l m n; unfold sqDist2; push_cast; ring
  have dne : ∀ {q r : V2 (Flt f)} {k l m n : ℤ}, exact q ≠ exact r → exactR q = ⟨k * u, l * u⟩ → exactR r = ⟨m * u, n * u⟩ →
      u ^ 2 ≤ sqDist2 (exactR q) (exactR r) := by
    intro q r k l m n hne h3 h4
    rw [h3, h4, dist]
    have : 1 ≤ (k - m) ^ 2 + (l - n) ^ 2 := by
      by_contra hc
      have g1 := sq_nonneg (k - m); have g2 := sq_nonneg (l - n)
      have g3 : (k - m) ^ 2 = 0 := by omega
      have g4 : (l - n) ^ 2 = 0 := by omega
      have g5 : k = m := by have := pow_eq_zero_iff (two_ne_zero) |>.1 g3; omega
      have g6 : l = n := by have := pow_eq_zero_iff (two_ne_zero) |>.1 g4; omega
      apply hne
      have : exactR q = exactR r := by rw [h3, h4, g5, g6]
      rw [ec, ec, castV_inj] at this
      exact this
    have h5 : (1 : ℝ) ≤ (((k - m) ^ 2 + (l - n) ^ 2 : ℤ) : ℝ) := by exact_mod_cast this
    nlinarith [sq_nonneg u]
  have hB : 1 ≤ B := by
    by_contra hc
    rw [abs_le] at i3 i4 k3 k4
    apply hap
    have : exactR a = exactR p := by
      rw [ea, ep, show a1 = p1 by omega, show a2 = p2 by omega]
    rw [ec, ec, castV_inj] at this
    exact this
  have hBr : (1 : ℝ) ≤ B := by exact_mod_cast hB
  have hε : (0 : ℝ) < 2 ^ (-(f.prec : ℤ)) := by positivity
  have hBε : 1024 * (B : ℝ) ^ 4 * 2 ^ (-(f.prec : ℤ)) ≤ 1 := by
    have : (1024 : ℝ) * B ^ 4 ≤ 2 ^ f.prec := by exact_mod_cast hsm
    rw [zpow_neg, zpow_natCast, ← div_eq_mul_inv, div_le_one (by positivity)]
    exact this
  have hε1 : 1024 * (2 : ℝ) ^ (-(f.prec : ℤ)) ≤ 1 := by
    have h4 : (1 : ℝ) ≤ (B : ℝ) ^ 4 := one_le_pow₀ hBr
    nlinarith
  have hab2 := dne hab ea eb
  refine off_segment hu _ _ _ hε hε1 ?_ hBr hBε ?_ (dne hap ea ep) (dne hbp ep eb) ?_
  · rw [ea, eb, dist]
    apply mul_le_mul_of_nonneg_right _ (sq_nonneg u)
    have : (a1 - b1) ^ 2 + (a2 - b2) ^ 2 ≤ 8 * B ^ 2 := by
      rw [abs_le] at i3 i4 j3 j4
      nlinarith
    exact_mod_cast this
  · have e : orient (exactR a) (exactR b) (exactR p) =
        (((b1 - a1) * (p2 - a2) - (b2 - a2) * (p1 - a1) : ℤ) : ℝ) * u ^ 2 := by
      rw [ea, eb, ep]; unfold orient; push_cast; ring
    rw [e]
    by_cases h0 : (b1 - a1) * (p2 - a2) - (b2 - a2) * (p1 - a1) = 0
    · left; rw [h0]; simp
    · right
      rw [abs_mul, abs_of_nonneg (sq_nonneg u), ← Int.cast_abs]
      have : 1 ≤ |(b1 - a1) * (p2 - a2) - (b2 - a2) * (p1 - a1)| := Int.one_le_abs h0
      have h5 : (1 : ℝ) ≤ ((|(b1 - a1) * (p2 - a2) - (b2 - a2) * (p1 - a1)| : ℤ) : ℝ) := by exact_mod_cast this
      nlinarith [sq_nonneg u]
  · have h5 : u ≤ Real.sqrt (sqDist2 (exactR a) (exactR b)) := Real.le_sqrt_of_sq_le hab2
    generalize Real.sqrt (sqDist2 (exactR a) (exactR b)) = c at *
    have h6 : (2 : ℝ) ^ (-(f.prec : ℤ)) * 4 ≤ (2 : ℝ) ^ (-(f.prec : ℤ)) * (4 * c) :=
      mul_le_mul_of_nonneg_left (by linarith) hε.le
    linarith

/-- the comparison of points on a grid -/
theorem grid_point_ulps {s B : ℤ} (G : GoodGrid f s B) {a b : V2 (Flt f)} (ha : OnGrid s B a) (hb : OnGrid s B b) :
    a.ulpsEq b = decide (exact a = exact b) := by
  obtain ⟨a1, a2, i1, i2, i3, i4⟩ := OnGrid.coords ha
  obtain ⟨b1, b2, j1, j2, j3, j4⟩ := OnGrid.coords hb
  have hu := pow2_pos s
  have hPp : (0 : ℤ) < 2 ^ (f.prec - 3) := by positivity
  have hBP : B < 2 ^ (f.prec - 3) := by
    have := G.small
    have h0 : 0 ≤ B := (abs_nonneg _).trans i3
    nlinarith
  have ul : ∀ {x y : Flt f} {k l : ℤ}, Is x (k * pow2 s) → Is y (l * pow2 s) → |k| ≤ B → |l| ≤ B →
      Scalar.ulpsEq x y = decide (k = l) := fun hx hy hk hl =>
    grid_ulps (GoodGrid.unit G) (by have := G.coarse; have := f.hprec; omega) hx hy (by omega) (by omega)
  show (Scalar.ulpsEq a.x b.x && Scalar.ulpsEq a.y b.y) = _
  rw [ul i1 j1 i3 j3, ul i2 j2 i4 j4, ← Bool.decide_and]
  have e1 : exact a = ⟨a1 * pow2 s, a2 * pow2 s⟩ := congrArg₂ V2.mk i1.2 i2.2
  have e2 : exact b = ⟨b1 * pow2 s, b2 * pow2 s⟩ := congrArg₂ V2.mk j1.2 j2.2
  rw [e1, e2]
  congr 1
  rw [V2.mk.injEq, mul_left_inj' hu.ne', mul_left_inj' hu.ne', Int.cast_inj, Int.cast_inj]

/-- C78: `intersection_point` on a small grid of unit at least one, for any two segments, points included:
something is reported if and only if they have a common point. -/
theorem C78_any_segments_on_small_grids {s B : ℤ} (G : GoodGrid f s B) (hs : 0 ≤ s) (hsm : 1024 * B ^ 4 ≤ 2 ^ f.prec)
    {a b c d : V2 (Flt f)} (ha : OnGrid s B a) (hb : OnGrid s B b) (hc : OnGrid s B c) (hd : OnGrid s B d) :
    ((Line2.mk a b).intersectionPoint ⟨c, d⟩).isSome = true ↔
      ∃ x : V2 ℝ, OnSegment2 (exactR a) (exactR b) x ∧ OnSegment2 (exactR c) (exactR d) x := by
  have ec : ∀ q : V2 (Flt f), exactR q = castV (exact q) := fun _ => rfl
  have one : ∀ {p q r : V2 (Flt f)}, OnGrid s B p → OnGrid s B q → OnGrid s B r →
      ((intersectLinePoint ⟨p, q⟩ r).isSome = true ↔ OnSegment2 (exactR p) (exactR q) (exactR r)) := by
    intro p q r hp hq hr
    obtain ⟨h1, h2⟩ := C78_exact_on_small_grids G hs hsm hp hq hr
    constructor
    · intro h; by_contra hn; rw [h2 hn] at h; exact absurd h Bool.false_ne_true
    · intro h; rw [h1 h]; rfl
  by_cases hab : exact a = exact b
  · have e : (Line2.mk a b).intersectionPoint ⟨c, d⟩ = intersectLinePoint ⟨c, d⟩ a := by
      unfold Line2.intersectionPoint
      simp only
      rw [grid_point_ulps G ha hb, decide_eq_true hab, if_pos rfl]
    rw [e, one hc hd ha]
    have eR : exactR b = exactR a := by rw [ec, ec, hab]
    rw [eR]
    constructor
    · exact fun h => ⟨_, Proofs.Intersect.onSeg_start _ _, h⟩
    · rintro ⟨x, h1, h2⟩
      rw [← Proofs.Intersect.onSeg_self h1]; exact h2
  by_cases hcd : exact c = exact d
  · have e : (Line2.mk a b).intersectionPoint ⟨c, d⟩ = intersectLinePoint ⟨a, b⟩ c := by
      unfold Line2.intersectionPoint
      simp only
      rw [grid_point_ulps G ha hb, decide_eq_false hab, if_neg Bool.false_ne_true,
        grid_point_ulps G hc hd, decide_eq_true hcd, if_pos rfl]
    rw [e, one ha hb hc]
    have eR : exactR d = exactR c := by rw [ec, ec, hcd]
    rw [eR]
    constructor
    · exact fun h => ⟨_, h, Proofs.Intersect.onSeg_start _ _⟩
    · rintro ⟨x, h1, h2⟩
      rw [← Proofs.Intersect.onSeg_self h2]; exact h1
  exact C77_reported_iff_common_point G ha hb hc hd hab hcd

end

/-- a small grid for doubles and one for floats -/
theorem smallGrid64 : GoodGrid b64 0 1448 ∧ 1024 * (1448 : ℤ) ^ 4 ≤ 2 ^ b64.prec :=
  ⟨⟨by norm_num [b64], by norm_num [b64], by norm_num [b64]⟩, by norm_num [b64]⟩
theorem smallGrid32 : GoodGrid b32 0 11 ∧ 1024 * (11 : ℤ) ^ 4 ≤ 2 ^ b32.prec :=
  ⟨⟨by norm_num [b32], by norm_num [b32], by norm_num [b32]⟩, by norm_num [b32]⟩

theorem exactR_ipt {f : Fmt} {B : ℤ} (G : GoodGrid f 0 B) {k l : ℤ} (hk : |k| ≤ B) (hl : |l| ≤ B) :
    exactR (ipt f k l) = ⟨k, l⟩ := by
  have : exactR (ipt f k l) = castV (exact (ipt f k l)) := rfl
  rw [this, (onGrid_ipt G hk hl).2]
  simp [castV]

/-- C78: the bound on the grid matters: with doubles and integer coordinates below 2^23 (where the tests of
the convex hull are exact) there is a point off the segment that is accepted; it is then also reported as the
intersection of the segment with the segment from the point to itself. -/
theorem C78_false_positive : ∃ a b p : V2 F64, OnGrid 0 (2 ^ 23) a ∧ OnGrid 0 (2 ^ 23) b ∧ OnGrid 0 (2 ^ 23) p ∧
    ¬ OnSegment2 (exactR a) (exactR b) (exactR p) ∧
    ∀ _ : Libm b64, intersectLinePoint ⟨a, b⟩ p = some (.point p) ∧
      (Line2.mk a b).intersectionPoint ⟨p, p⟩ = some (.point p) := by
  have g : ∀ {k l : ℤ}, |k| ≤ 2 ^ 23 → |l| ≤ 2 ^ 23 → OnGrid 0 (2 ^ 23) (ipt b64 k l) := fun hk hl =>
    (onGrid_ipt goodGrid64 hk hl).1
  have h1 : |(0 : ℤ)| ≤ 2 ^ 23 := by norm_num
  have h2 : |(8388607 : ℤ)| ≤ 2 ^ 23 := by norm_num [abs_of_pos]
  have h3 : |(8388605 : ℤ)| ≤ 2 ^ 23 := by norm_num [abs_of_pos]
  have h4 : |(4194303 : ℤ)| ≤ 2 ^ 23 := by norm_num [abs_of_pos]
  have h5 : |(4194302 : ℤ)| ≤ 2 ^ 23 := by norm_num [abs_of_pos]
  refine ⟨ipt b64 0 0, ipt b64 8388607 8388605, ipt b64 4194303 4194302, g h1 h1, g h2 h3, g h4 h5, ?_, ?_⟩
  · rw [exactR_ipt goodGrid64 h1 h1, exactR_ipt goodGrid64 h2 h3, exactR_ipt goodGrid64 h4 h5]
    rintro ⟨t, -, -, h⟩
    simp only [lerp2, V2.mk.injEq] at h
    obtain ⟨hx, hy⟩ := h
    push_cast at hx hy
    nlinarith
  · intro L
    have e1 : (let _ : Libm b64 := ⟨fun _ _ => .nan⟩
        intersectLinePoint ⟨ipt b64 0 0, ipt b64 8388607 8388605⟩ (ipt b64 4194303 4194302) =
          some (.point (ipt b64 4194303 4194302))) := by decide +kernel
    have e2 : (let _ : Libm b64 := ⟨fun _ _ => .nan⟩
        (Line2.mk (ipt b64 0 0) (ipt b64 8388607 8388605)).intersectionPoint
          ⟨ipt b64 4194303 4194302, ipt b64 4194303 4194302⟩ = some (.point (ipt b64 4194303 4194302))) := by decide +kernel
    exact ⟨e1, e2⟩

/-- the hypotheses of C78 are met: the middle of a segment, and a point beside it -/
example (L : Libm b64) : intersectLinePoint ⟨ipt b64 (-300) 100, ipt b64 700 500⟩ (ipt b64 200 300) = some (.point (ipt b64 200 300)) ∧
    intersectLinePoint ⟨ipt b64 (-300) 100, ipt b64 700 500⟩ (ipt b64 200 301) = none := by
  have g : ∀ {k l : ℤ}, |k| ≤ 1448 → |l| ≤ 1448 → OnGrid 0 1448 (ipt b64 k l) ∧ exactR (ipt b64 k l) = ⟨k, l⟩ := fun hk hl =>
    ⟨(onGrid_ipt smallGrid64.1 hk hl).1, exactR_ipt smallGrid64.1 hk hl⟩
  obtain ⟨ga, ea⟩ := g (k := -300) (l := 100) (by decide) (by decide)
  obtain ⟨gb, eb⟩ := g (k := 700) (l := 500) (by decide) (by decide)
  obtain ⟨gp, ep⟩ := g (k := 200) (l := 300) (by decide) (by decide)
  obtain ⟨gq, eq⟩ := g (k := 200) (l := 301) (by decide) (by decide)
  refine ⟨(C78_exact_on_small_grids smallGrid64.1 le_rfl smallGrid64.2 ga gb gp).1 ?_,
    (C78_exact_on_small_grids smallGrid64.1 le_rfl smallGrid64.2 ga gb gq).2 ?_⟩
  · rw [ea, eb, ep]
    refine ⟨1 / 2, by norm_num, by norm_num, ?_⟩
    simp only [lerp2]; norm_num
  · rw [ea, eb, eq]
    rintro ⟨t, -, -, h⟩
    simp only [lerp2, V2.mk.injEq] at h
    obtain ⟨hx, hy⟩ := h
    push_cast at hx hy
    linarith

end Verif.Props
