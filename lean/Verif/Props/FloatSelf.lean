import Verif.Props.FloatLineString
import Verif.Props.FloatSweep
/-!
# Self intersection of short line strings in floating point
-/
set_option linter.unusedSectionVars false
set_option linter.unusedVariables false
namespace Verif.Props
open Verif Verif.Model Verif.Spec Scalar Verif.Proofs.FloatHull Verif.Proofs.FloatIntersect Verif.Proofs.FloatLinePoint Fl Flt
open Verif.Proofs.FloatUlps
section
variable {f : Fmt} [Libm f]

/-- a computed point is `ulps_eq` to a point of the grid only if the exact one is near it -/
theorem ulps_near_point {s B : ℤ} (G : GoodGrid f s B) (hB : 1 ≤ B) (hs : 0 ≤ s) {x y : Flt f} {q : ℚ}
    (hx : Near (delta f s B) x q) (hq : |q| ≤ B * pow2 s) (hy : y.isFin = true) (h : Flt.ulpsEq x y = true) :
    |q - y.val| ≤ 53 * B * (pow2 (-f.prec) * pow2 s) := by
  obtain ⟨g1, g2, g3, g4, g5⟩ := grid_facts G hB
  have hε := pow2_pos (-(f.prec : ℤ))
  have hu := pow2_pos s
  have hBq : (1 : ℚ) ≤ B := by exact_mod_cast hB
  have hu1 : 1 ≤ pow2 s := by
    have := pow2_le hs
    rwa [pow2_zero] at this
  obtain ⟨W, hW⟩ : ∃ W, W = B * pow2 s := ⟨_, rfl⟩
  have hW1 : 1 ≤ W := by rw [hW]; nlinarith
  have hδ : delta f s B ≤ W := by
    unfold delta
    have h1 : 64 * B * pow2 (-(f.prec : ℤ)) ≤ 1 := by
      have a1 : 64 * B * pow2 (-(f.prec : ℤ)) ≤ 64 * B * B * pow2 (-(f.prec : ℤ)) := by
        have := mul_le_mul_of_nonneg_left hBq (show 0 ≤ 64 * B * pow2 (-(f.prec : ℤ)) by positivity)
        linarith
      have a2 : 64 * B * B * pow2 (-(f.prec : ℤ)) < 2 ^ f.prec * pow2 (-(f.prec : ℤ)) := mul_lt_mul_of_pos_right g1 hε
      linarith
    have h2 := mul_le_mul_of_nonneg_right h1 hu.le
    have h3 : pow2 s ≤ W := by rw [hW]; nlinarith
    linarith
  have hxv : |x.val| ≤ 2 * W := by
    have h1 := abs_sub_abs_le_abs_sub x.val q
    have h2 := hx.2
    rw [← hW] at hq
    linarith
  have hM : pow2 (f.emin + f.prec - 1) ≤ 2 * W := by
    have : pow2 (f.emin + f.prec - 1) ≤ pow2 0 := pow2_le (by have := f.hemin; have := f.hprec; omega)
    rw [pow2_zero] at this
    linarith
  have h1 := ulps_diff (is_self hx.1) (is_self hy) hxv hM g5 h
  have h2 := hx.2
  have h3 : |q - y.val| ≤ |x.val - q| + |x.val - y.val| := by
    have e : q - y.val = -(x.val - q) + (x.val - y.val) := by ring
    rw [e]
    refine (abs_add_le _ _).trans ?_
    rw [abs_neg]
  have e1 : delta f s B = 32 * (pow2 (-(f.prec : ℤ)) * W) := by unfold delta; rw [hW]; ring
  have e2 : 53 * B * (pow2 (-(f.prec : ℤ)) * pow2 s) = 53 * (pow2 (-(f.prec : ℤ)) * W) := by rw [hW]; ring
  have h4 : pow2 (-(f.prec : ℤ)) ≤ pow2 (-(f.prec : ℤ)) * W := le_mul_of_one_le_right hε.le hW1
  rw [e1] at h2
  rw [e2]
  have e3 : pow2 (-(f.prec : ℤ)) * (21 / 10 + 92 / 10 * (2 * W)) = 21 / 10 * pow2 (-(f.prec : ℤ)) + 184 / 10 * (pow2 (-(f.prec : ℤ)) * W) := by ring
  rw [e3] at h1
  linarith

/-- a computed point is `ulps_eq` to an end of the first segment exactly if the exact point is that end -/
theorem sharp_ulps {s B : ℤ} (G : GoodGrid f s B) (hB : 1 ≤ B) (hs : 0 ≤ s) (hsm : 1024 * B ^ 4 ≤ 2 ^ f.prec)
    {o x : V2 (Flt f)} {e : V2 ℚ} (hx : OnGrid s B x) (ho : CloseV (delta f s B) o e) (hex : |e.x| ≤ B * pow2 s) (hey : |e.y| ≤ B * pow2 s)
    (h : (e = exact x → exact o = exact x) ∧
        (e ≠ exact x → pow2 s ≤ 8 * (B * B) * |e.x - (exact x).x| ∨ pow2 s ≤ 8 * (B * B) * |e.y - (exact x).y|)) :
    o.ulpsEq x = decide (e = exact x) := by
  by_cases he : e = exact x
  · rw [decide_eq_true he]
    have h1 := h.1 he
    have hog : OnGrid s B o := by
      have e1 : o.x.val = x.x.val := congrArg V2.x h1
      have e2 : o.y.val = x.y.val := congrArg V2.y h1
      obtain ⟨-, -, k, l, h3, h4, h5⟩ := hx
      exact ⟨ho.1.1, ho.2.1, k, l, e1.trans h3, e2.trans h4, h5⟩
    rw [grid_point_ulps G hog hx, decide_eq_true h1]
  · rw [decide_eq_false he, Bool.eq_false_iff]
    intro hu
    have hu : (Flt.ulpsEq o.x x.x && Flt.ulpsEq o.y x.y) = true := hu
    rw [Bool.and_eq_true] at hu
    have hε := pow2_pos (-(f.prec : ℤ))
    have hup := pow2_pos s
    have g2 : pow2 (-f.prec) * 2 ^ f.prec = 1 := (grid_facts G hB).2.1
    have hBq : (1 : ℚ) ≤ B := by exact_mod_cast hB
    have hB3 : 1024 * (B : ℚ) ^ 3 * pow2 (-f.prec) ≤ 1 := by
      have h1 : (1024 : ℚ) * B ^ 4 ≤ 2 ^ f.prec := by exact_mod_cast hsm
      have h2 : (B : ℚ) ^ 3 ≤ B ^ 4 := pow_le_pow_right₀ hBq (by norm_num)
      have h3 : 1024 * (B : ℚ) ^ 3 * pow2 (-f.prec) ≤ 2 ^ f.prec * pow2 (-f.prec) :=
        mul_le_mul_of_nonneg_right (by linarith) hε.le
      linarith
    have step : ∀ {z : ℚ}, z ≤ 53 * B * (pow2 (-f.prec) * pow2 s) → ¬ pow2 s ≤ 8 * (B * B) * z := by
      intro z hz hc
      have h1 := mul_le_mul_of_nonneg_left hz (show (0 : ℚ) ≤ 8 * (B * B) by positivity)
      have h2 : 8 * (B * B) * (53 * B * (pow2 (-(f.prec : ℤ)) * pow2 s)) = 424 * ((B : ℚ) ^ 3 * pow2 (-(f.prec : ℤ)) * pow2 s) := by ring
      have h3 := mul_le_mul_of_nonneg_right hB3 hup.le
      have h4 : 1024 * (B : ℚ) ^ 3 * pow2 (-(f.prec : ℤ)) * pow2 s = 1024 * ((B : ℚ) ^ 3 * pow2 (-(f.prec : ℤ)) * pow2 s) := by ring
      rw [h2] at h1
      rw [h4] at h3
      linarith
    rcases h.2 he with hh | hh
    · exact step (ulps_near_point G hB hs ho.1 hex hx.1 hu.1) hh
    · exact step (ulps_near_point G hB hs ho.2 hey hx.2.1 hu.2) hh

/-- the decision about `single` -/
theorem hit_core {s B : ℤ} (G : GoodGrid f s B) (hB : 1 ≤ B) (hs : 0 ≤ s) (hsm : 1024 * B ^ 4 ≤ 2 ^ f.prec)
    {a b c d o : V2 (Flt f)} {e : V2 ℚ} (ha : OnGrid s B a) (hb : OnGrid s B b) (hc : OnGrid s B c) (hd : OnGrid s B d)
    (ho : CloseV (delta f s B) o e) (hex : |e.x| ≤ B * pow2 s) (hey : |e.y| ≤ B * pow2 s)
    (h : ∀ x, x = a ∨ x = b → (e = exact x → exact o = exact x) ∧
        (e ≠ exact x → pow2 s ≤ 8 * (B * B) * |e.x - (exact x).x| ∨ pow2 s ≤ 8 * (B * B) * |e.y - (exact x).y|)) :
    (!((o.ulpsEq a || o.ulpsEq b) && (o.ulpsEq c || o.ulpsEq d))) =
      !(((castV e).ulpsEq (exactR a) || (castV e).ulpsEq (exactR b)) && ((castV e).ulpsEq (exactR c) || (castV e).ulpsEq (exactR d))) := by
  have hR : ∀ x : V2 (Flt f), (castV e).ulpsEq (exactR x) = decide (e = exact x) := by
    intro x
    rw [Bool.eq_iff_iff, Proofs.Intersect.v2_ulps, decide_eq_true_eq]
    exact castV_inj (p := e) (q := exact x)
  rw [hR, hR, hR, hR, sharp_ulps G hB hs hsm ha ho hex hey (h a (Or.inl rfl)),
    sharp_ulps G hB hs hsm hb ho hex hey (h b (Or.inr rfl))]
  by_cases hab : e = exact a ∨ e = exact b
  · obtain ⟨x, hxab, hxe⟩ : ∃ x, (x = a ∨ x = b) ∧ e = exact x := by
      rcases hab with h | h
      · exact ⟨a, Or.inl rfl, h⟩
      · exact ⟨b, Or.inr rfl, h⟩
    have hx : OnGrid s B x := by rcases hxab with rfl | rfl <;> assumption
    have h1 := (h x hxab).1 hxe
    have hog : OnGrid s B o := by
      have e1 : o.x.val = x.x.val := congrArg V2.x h1
      have e2 : o.y.val = x.y.val := congrArg V2.y h1
      obtain ⟨-, -, k, l, h3, h4, h5⟩ := hx
      exact ⟨ho.1.1, ho.2.1, k, l, e1.trans h3, e2.trans h4, h5⟩
    rw [grid_point_ulps G hog hc, grid_point_ulps G hog hd, h1, ← hxe]
  · have : (decide (e = exact a) || decide (e = exact b)) = false := by simpa using hab
    rw [this, Bool.false_and, Bool.false_and]

theorem box_of_onSegment {s B : ℤ} {a b : V2 (Flt f)} {e : V2 ℚ} (ha : OnGrid s B a) (hb : OnGrid s B b)
    (h : OnSegment2 (exactR a) (exactR b) (castV e)) : |e.x| ≤ B * pow2 s ∧ |e.y| ≤ B * pow2 s := by
  obtain ⟨a1, a2, i1, i2, i3, i4⟩ := OnGrid.coords ha
  obtain ⟨b1, b2, j1, j2, j3, j4⟩ := OnGrid.coords hb
  have hu := pow2_pos s
  have bnd : ∀ {v : ℚ} {k : ℤ}, v = k * pow2 s → |k| ≤ B → |v| ≤ B * pow2 s := by
    rintro v k rfl hk
    rw [abs_mul, abs_of_pos hu]
    exact mul_le_mul_of_nonneg_right (by exact_mod_cast hk) hu.le
  obtain ⟨t, t0, t1, ht⟩ := h
  have conv : ∀ {u v w M : ℚ}, (w : ℝ) = u + t * (v - u) → |u| ≤ M → |v| ≤ M → |w| ≤ M := by
    intro u v w M hw h1 h2
    have g1 : |(u : ℝ)| ≤ M := by exact_mod_cast h1
    have g2 : |(v : ℝ)| ≤ M := by exact_mod_cast h2
    have : |(w : ℝ)| ≤ M := by
      rw [hw]
      rw [abs_le] at *
      constructor <;> nlinarith
    exact_mod_cast this
  simp only [castV, exactR, lerp2, V2.mk.injEq] at ht
  exact ⟨conv ht.1 (bnd i1.2 i3) (bnd j1.2 j3), conv ht.2 (bnd i2.2 i4) (bnd j2.2 j4)⟩

theorem real_line_point (l : Line2 ℝ) (p : V2 ℝ) :
    (OnSegment2 l.start l.end p → intersectLinePoint l p = some (.point p)) ∧
    (¬ OnSegment2 l.start l.end p → intersectLinePoint l p = none) := by
  have h := Proofs.Intersect.linePoint_denotes l p p
  have h2 : intersectLinePoint l p = none ∨ intersectLinePoint l p = some (.point p) := by
    unfold intersectLinePoint
    simp only
    split_ifs <;> simp
  constructor
  · intro hon
    rcases h2 with h2 | h2
    · rw [h2] at h; exact absurd (h.2 ⟨hon, rfl⟩) (by simp [Denotes])
    · exact h2
  · intro hon
    rcases h2 with h2 | h2
    · exact h2
    · rw [h2] at h
      exact absurd (h.1 rfl).1 hon

/-- on a small grid the test for two segments that are not neighbours is exact -/
theorem hit_exact {s B : ℤ} (G : GoodGrid f s B) (hs : 0 ≤ s) (hsm : 1024 * B ^ 4 ≤ 2 ^ f.prec) {a b c d : V2 (Flt f)}
    (ha : OnGrid s B a) (hb : OnGrid s B b) (hc : OnGrid s B c) (hd : OnGrid s B d) :
    nonAdjacentHit ⟨a, b⟩ ⟨c, d⟩ = nonAdjacentHit ⟨exactR a, exactR b⟩ ⟨exactR c, exactR d⟩ := by
  have ec : ∀ q : V2 (Flt f), exactR q = castV (exact q) := fun _ => rfl
  have hR : ∀ {x y : V2 (Flt f)}, (exactR x).ulpsEq (exactR y) = decide (exact x = exact y) := by
    intro x y
    rw [Bool.eq_iff_iff, Proofs.Intersect.v2_ulps, decide_eq_true_eq]
    exact castV_inj (p := exact x) (q := exact y)
  -- both ends are points of the grid
  have pts : ∀ {x y : V2 (Flt f)}, OnGrid s B x → OnGrid s B y → x.ulpsEq y = (exactR x).ulpsEq (exactR y) := by
    intro x y hx hy
    rw [hR, grid_point_ulps G hx hy]
  by_cases hab : exact a = exact b
  · have e : (Line2.mk a b).intersectionPoint ⟨c, d⟩ = intersectLinePoint ⟨c, d⟩ a := by
      unfold Line2.intersectionPoint
      simp only
      rw [grid_point_ulps G ha hb, decide_eq_true hab, if_pos rfl]
    have e' : (Line2.mk (exactR a) (exactR b)).intersectionPoint ⟨exactR c, exactR d⟩ =
        intersectLinePoint ⟨exactR c, exactR d⟩ (exactR a) := by
      unfold Line2.intersectionPoint
      simp only
      rw [hR, decide_eq_true hab, if_pos rfl]
    unfold nonAdjacentHit
    rw [e, e']
    by_cases hon : OnSegment2 (exactR c) (exactR d) (exactR a)
    · rw [(C78_exact_on_small_grids G hs hsm hc hd ha).1 hon, (real_line_point _ _).1 hon]
      simp only [Intersection.single]
      rw [pts ha ha, pts ha hb, pts ha hc, pts ha hd]
    · rw [(C78_exact_on_small_grids G hs hsm hc hd ha).2 hon, (real_line_point _ _).2 hon]
  by_cases hcd : exact c = exact d
  · have e : (Line2.mk a b).intersectionPoint ⟨c, d⟩ = intersectLinePoint ⟨a, b⟩ c := by
      unfold Line2.intersectionPoint
      simp only
      rw [grid_point_ulps G ha hb, decide_eq_false hab, if_neg Bool.false_ne_true,
        grid_point_ulps G hc hd, decide_eq_true hcd, if_pos rfl]
    have e' : (Line2.mk (exactR a) (exactR b)).intersectionPoint ⟨exactR c, exactR d⟩ =
        intersectLinePoint ⟨exactR a, exactR b⟩ (exactR c) := by
      unfold Line2.intersectionPoint
      simp only
      rw [hR, decide_eq_false hab, if_neg Bool.false_ne_true, hR, decide_eq_true hcd, if_pos rfl]
    unfold nonAdjacentHit
    rw [e, e']
    by_cases hon : OnSegment2 (exactR a) (exactR b) (exactR c)
    · rw [(C78_exact_on_small_grids G hs hsm ha hb hc).1 hon, (real_line_point _ _).1 hon]
      simp only [Intersection.single]
      rw [pts hc ha, pts hc hb, pts hc hc, pts hc hd]
    · rw [(C78_exact_on_small_grids G hs hsm ha hb hc).2 hon, (real_line_point _ _).2 hon]
  -- proper segments
  have hB : 1 ≤ B := by
    obtain ⟨a1, a2, i1, i2, i3, i4⟩ := OnGrid.coords ha
    obtain ⟨b1, b2, j1, j2, j3, j4⟩ := OnGrid.coords hb
    by_contra hcon
    rw [abs_le] at i3 i4 j3 j4
    apply hab
    have e1 : a1 = b1 := by omega
    have e2 : a2 = b2 := by omega
    exact congrArg₂ V2.mk (i1.2.trans (by rw [e1]; exact j1.2.symm)) (i2.2.trans (by rw [e2]; exact j2.2.symm))
  have h := computed_sharp G ha hb hc hd hab hcd
  have hr := intersection_cast hab hcd
  have h1 := fun x => Proofs.Intersect.intersectionPoint_denotes (Line2.mk (castV (exact a)) (castV (exact b))) ⟨castV (exact c), castV (exact d)⟩ x
  unfold nonAdjacentHit
  rw [ec a, ec b, ec c, ec d, hr]
  rw [hr] at h1
  generalize (Line2.mk a b).intersectionPoint ⟨c, d⟩ = r at h
  generalize (Line2.mk (exact a) (exact b)).intersectionPoint ⟨exact c, exact d⟩ = r' at h h1
  match r, r', h with
  | none, none, _ => rfl
  | some (.point p), some (.point q), h =>
    obtain ⟨x1, x2⟩ := box_of_onSegment ha hb ((h1 (castV q)).1 rfl).1
    exact hit_core G hB hs hsm ha hb hc hd h.1 x1 x2 h.2
  | some (.overlap o), some (.overlap o'), h =>
    obtain ⟨x1, x2⟩ := box_of_onSegment ha hb ((h1 (castV o'.start)).1 (Proofs.Intersect.onSeg_start _ _)).1
    exact hit_core G hB hs hsm ha hb hc hd h.1 x1 x2 h.2.2

/-! ## the three point test -/

/-- the ratios of small integers are told apart -/
theorem slope_ulps {s B : ℤ} (G : GoodGrid f s B) (hB : 1 ≤ B) {a b : Flt f} {n1 d1 n2 d2 : ℤ} (h1 : d1 ≠ 0) (h2 : d2 ≠ 0)
    (bn1 : |n1| ≤ 2 * B) (bd1 : |d1| ≤ 2 * B) (bn2 : |n2| ≤ 2 * B) (bd2 : |d2| ≤ 2 * B)
    (ha : Is a (roundQ f ((n1 : ℚ) / d1))) (hb : Is b (roundQ f ((n2 : ℚ) / d2))) :
    Flt.ulpsEq a b = decide (n1 * d2 = n2 * d1) := by
  have hd1 : (d1 : ℚ) ≠ 0 := by exact_mod_cast h1
  have hd2 : (d2 : ℚ) ≠ 0 := by exact_mod_cast h2
  by_cases he : n1 * d2 = n2 * d1
  · rw [decide_eq_true he]
    have e : (n1 : ℚ) / d1 = n2 / d2 := by rw [div_eq_div_iff hd1 hd2]; exact_mod_cast he
    rw [← e] at hb
    exact same_ulps ha.1 hb.1 (ha.2.trans hb.2.symm)
  · rw [decide_eq_false he, Bool.eq_false_iff]
    intro hu
    obtain ⟨g1, g2, g3, g4, g5⟩ := grid_facts G hB
    have hε := pow2_pos (-(f.prec : ℤ))
    have hM : pow2 (f.emin + f.prec - 1) ≤ pow2 (-(f.prec : ℤ)) / 8 := by
      have : pow2 (f.emin + f.prec - 1) ≤ pow2 (-f.prec + -3) := pow2_le (by have := f.hemin; omega)
      rw [pow2_add, show pow2 (-3) = 1 / 8 by rw [pow2_eq]; norm_num] at this
      linarith
    have hd := ulps_diff ha hb (M := |roundQ f ((n1 : ℚ) / d1)| + pow2 (-(f.prec : ℤ)) / 8) (by linarith)
      (by have := abs_nonneg (roundQ f ((n1 : ℚ) / d1)); linarith) g5 hu
    have r1 := roundQ_rel f ((n1 : ℚ) / d1)
    have r2 := roundQ_rel f ((n2 : ℚ) / d2)
    obtain ⟨X1, hX1⟩ : ∃ X, X = roundQ f ((n1 : ℚ) / d1) := ⟨_, rfl⟩
    obtain ⟨X2, hX2⟩ : ∃ X, X = roundQ f ((n2 : ℚ) / d2) := ⟨_, rfl⟩
    obtain ⟨q1, hq1⟩ : ∃ X, X = (n1 : ℚ) / d1 := ⟨_, rfl⟩
    obtain ⟨q2, hq2⟩ : ∃ X, X = (n2 : ℚ) / d2 := ⟨_, rfl⟩
    rw [← hX1] at hd r1
    rw [← hX2] at hd r2
    rw [← hq1] at r1
    rw [← hq2] at r2
    obtain ⟨ε, hεe⟩ : ∃ X, X = pow2 (-(f.prec : ℤ)) := ⟨_, rfl⟩
    rw [← hεe] at hd r1 r2 g2 g4 g5 hε
    obtain ⟨D, hD⟩ : ∃ X : ℚ, X = |(d1 : ℚ) * d2| := ⟨_, rfl⟩
    have hB0 : (0 : ℚ) ≤ 2 * B := by have : (1 : ℚ) ≤ B := by exact_mod_cast hB
                                     linarith
    have qn1 : |(n1 : ℚ)| ≤ 2 * B := by exact_mod_cast bn1
    have qn2 : |(n2 : ℚ)| ≤ 2 * B := by exact_mod_cast bn2
    have qd1 : |(d1 : ℚ)| ≤ 2 * B := by exact_mod_cast bd1
    have qd2 : |(d2 : ℚ)| ≤ 2 * B := by exact_mod_cast bd2
    obtain ⟨W, hW⟩ : ∃ X : ℚ, X = 4 * B * B := ⟨_, rfl⟩
    have mulW : ∀ {u v : ℚ}, |u| ≤ 2 * B → |v| ≤ 2 * B → |u * v| ≤ W := by
      intro u v hu hv
      rw [abs_mul, hW]
      have := mul_le_mul hu hv (abs_nonneg _) hB0
      linarith
    have hDW : D ≤ W := by rw [hD]; exact mulW qd1 qd2
    have hD0 : 0 ≤ D := by rw [hD]; exact abs_nonneg _
    have hDq1 : D * |q1| ≤ W := by
      rw [hD, ← abs_mul, hq1, show (d1 : ℚ) * d2 * (n1 / d1) = n1 * d2 by field_simp]
      exact mulW qn1 qd2
    have hDq2 : D * |q2| ≤ W := by
      rw [hD, ← abs_mul, hq2, show (d1 : ℚ) * d2 * (n2 / d2) = n2 * d1 by field_simp]
      exact mulW qn2 qd1
    have hDd : 1 ≤ D * |q1 - q2| := by
      rw [hD, ← abs_mul, hq1, hq2, show (d1 : ℚ) * d2 * (n1 / d1 - n2 / d2) = ((n1 * d2 - n2 * d1 : ℤ) : ℚ) by push_cast; field_simp]
      exact_mod_cast Int.one_le_abs (sub_ne_zero.2 he)
    have hεW : ε * W < 1 / 16 := by
      have h3 := mul_lt_mul_of_pos_left g1 hε
      rw [hW]
      have e : ε * (64 * B * B) = 16 * (ε * (4 * B * B)) := by ring
      rw [e, g2] at h3
      linarith
    have hX1a : |X1| ≤ |q1| + (ε * |q1| + pow2 (f.emin - 1)) := by
      have := abs_sub_abs_le_abs_sub X1 q1
      linarith
    have tri : |q1 - q2| ≤ |X1 - q1| + |X1 - X2| + |X2 - q2| := by
      have e : q1 - q2 = -(X1 - q1) + (X1 - X2) + (X2 - q2) := by ring
      rw [e]
      refine (abs_add_le _ _).trans ?_
      have := abs_add_le (-(X1 - q1)) (X1 - X2)
      rw [abs_neg] at this
      linarith
    obtain ⟨η, hη⟩ : ∃ X, X = pow2 (f.emin - 1) := ⟨_, rfl⟩
    rw [← hη] at r1 r2 hX1a g4
    obtain ⟨A1, hA1⟩ : ∃ X, X = |q1| := ⟨_, rfl⟩
    obtain ⟨A2, hA2⟩ : ∃ X, X = |q2| := ⟨_, rfl⟩
    rw [← hA1] at r1 hX1a hDq1
    rw [← hA2] at r2 hDq2
    have hA1n : 0 ≤ A1 := by rw [hA1]; exact abs_nonneg _
    have hA2n : 0 ≤ A2 := by rw [hA2]; exact abs_nonneg _
    have h5 : ε * (21 / 10 + 92 / 10 * (|X1| + ε / 8)) ≤ ε * (25 / 10 + 94 / 10 * A1) := by
      apply mul_le_mul_of_nonneg_left _ hε.le
      have : ε * A1 ≤ 1 / 64 * A1 := mul_le_mul_of_nonneg_right g5 hA1n
      linarith
    have h6 : |q1 - q2| ≤ ε * (26 / 10 + 104 / 10 * A1 + A2) := by
      have e : ε * (26 / 10 + 104 / 10 * A1 + A2) = ε * (25 / 10 + 94 / 10 * A1) + ε * A1 + ε * A2 + ε / 10 := by ring
      rw [e]
      linarith
    have h7 := mul_le_mul_of_nonneg_left h6 hD0
    have e8 : D * (ε * (26 / 10 + 104 / 10 * A1 + A2)) = 26 / 10 * (ε * D) + 104 / 10 * (ε * (D * A1)) + ε * (D * A2) := by ring
    rw [e8] at h7
    have k1 := mul_le_mul_of_nonneg_left hDW hε.le
    have k2 := mul_le_mul_of_nonneg_left hDq1 hε.le
    have k3 := mul_le_mul_of_nonneg_left hDq2 hε.le
    linarith

/-- an infinity is not `ulps_eq` to a number of moderate size -/
theorem inf_ulps_fin {a : Flt f} {x : ℚ} (ha : Is a x) (hx : |x| < 2 ^ f.prec) (t : Bool) :
    Flt.ulpsEq (.inf t) a = false ∧ Flt.ulpsEq a (.inf t) = false := by
  have hord : (a.ord : ℚ) + 5 ≤ ((f.emax - f.prec - f.emin + 2) * 2 ^ (f.prec - 1) : ℤ) := by
    have hp := f.hprec
    have hm := f.hemin
    have hM := f.hemax
    have hP : (16 : ℚ) ≤ 2 ^ (f.prec - 1) := by
      have : (2 : ℚ) ^ 4 ≤ 2 ^ (f.prec - 1) := pow_le_pow_right₀ (by norm_num) (by omega)
      norm_num at this ⊢
      exact this
    obtain ⟨P, hPe⟩ : ∃ P : ℚ, P = 2 ^ (f.prec - 1) := ⟨_, rfl⟩
    have hemn : (f.emin : ℚ) ≤ 0 := by
      have : f.emin ≤ 0 := by omega
      exact_mod_cast this
    have hemx : (f.prec : ℚ) + 2 ≤ f.emax := by
      have : (f.prec : ℤ) + 2 ≤ f.emax := by omega
      exact_mod_cast this
    have goal2 : (4 - (f.emin : ℚ)) * P ≤ ((f.emax : ℚ) - f.prec - f.emin + 2) * P :=
      mul_le_mul_of_nonneg_right (by linarith) (by rw [hPe]; positivity)
    push_cast
    rw [← hPe] at hP ⊢
    rcases eq_or_ne x 0 with h0 | h0
    · rw [h0] at ha
      rw [ord_zero ha]
      have : 0 ≤ -(f.emin : ℚ) * P := mul_nonneg (by linarith) (by linarith)
      push_cast
      nlinarith
    · have hxp := abs_pos.2 h0
      have e := ord_eq ha h0
      have hil : ilog2 |x| < f.prec := by
        have h1 := ilog2_le hxp
        have h2 : pow2 (ilog2 |x|) < pow2 f.prec := by rw [pow2_nat]; exact lt_of_le_of_lt h1 hx
        exact pow2_lt_iff.1 h2
      have hul : ulpExp f x ≤ 0 := by
        unfold ulpExp
        rw [max_le_iff]
        omega
      have hfl : |x| / pow2 (ulpExp f x) ≤ 2 * P := by
        rw [div_le_iff₀ (pow2_pos _)]
        have h1 := (lt_ilog2 hxp).le
        refine h1.trans ?_
        have h2 : 2 * P = pow2 f.prec := by
          rw [hPe, pow2_nat, ← pow_succ']; congr 1; omega
        rw [h2, ← pow2_add]
        apply pow2_le
        have : ilog2 |x| + 1 - f.prec ≤ ulpExp f x := le_max_left _ _
        omega
      rw [e, ← hPe]
      have h3 : ((ulpExp f x - f.emin : ℤ) : ℚ) * P ≤ (-(f.emin : ℚ)) * P := by
        apply mul_le_mul_of_nonneg_right _ (by linarith)
        push_cast
        have : (ulpExp f x : ℚ) ≤ 0 := by exact_mod_cast hul
        linarith
      linarith
  have hordZ : a.ord + 5 ≤ (f.emax - f.prec - f.emin + 2) * 2 ^ (f.prec - 1) := by exact_mod_cast hord
  have hi : (Flt.inf t : Flt f).ord = (f.emax - f.prec - f.emin + 2) * 2 ^ (f.prec - 1) := rfl
  have h4 : ¬ |(Flt.inf t : Flt f).ord - a.ord| ≤ 4 := by
    rw [hi, abs_le]; omega
  have h5 : ¬ |a.ord - (Flt.inf t : Flt f).ord| ≤ 4 := by
    rw [hi, abs_le]; omega
  have heps : (Flt.epsilon : Flt f).isFin = true := is_epsilon.1
  have hle : ∀ u : Bool, Flt.le (Flt.abs (Flt.inf u : Flt f)) Flt.epsilon = false := by
    intro u
    have e : Flt.abs (Flt.inf u : Flt f) = Flt.inf false := by cases u <;> rfl
    rw [e]
    cases h : (Flt.epsilon : Flt f) with
    | nan => rfl
    | inf s => rw [h] at heps; cases heps
    | zero s => rfl
    | fin q hq => rfl
  have hs1 : Flt.sub (.inf t) a = .inf t := by
    have := ha.1
    cases a with
    | nan => cases this
    | inf s => cases this
    | zero s => rfl
    | fin q hq => rfl
  have hs2 : Flt.sub a (.inf t) = .inf (!t) := by
    have := ha.1
    cases a with
    | nan => cases this
    | inf s => cases this
    | zero s => rfl
    | fin q hq => rfl
  unfold Flt.ulpsEq
  rw [hs1, hs2, hle, hle]
  simp only [decide_eq_false h4, decide_eq_false h5]
  constructor <;> simp

theorem sign_of {a : Flt f} {q : ℚ} (h : Is a q) (hq : q ≠ 0) : a.sign = decide (q < 0) := by
  obtain ⟨h1, h2⟩ := h
  cases a with
  | nan => cases h1
  | inf s => cases h1
  | zero s => exact absurd h2.symm hq
  | fin r hr => rw [← h2]; rfl

/-- the sign bit of a difference -/
theorem sub_sign {a b : Flt f} {x y : ℚ} (ha : Is a x) (hb : Is b y) (hn : a ≠ .zero true) (h : Is (Flt.sub a b) (x - y)) :
    (Flt.sub a b).sign = decide (x < y) := by
  rcases eq_or_ne x y with e | e
  · rw [decide_eq_false (by rw [e]; exact lt_irrefl _)]
    obtain ⟨a1, a2⟩ := ha
    obtain ⟨b1, b2⟩ := hb
    rw [e, sub_self] at h
    have hz : ∀ c : Flt f, c = ofQ false (a.val - b.val) → c.sign = false := by
      rintro c rfl
      rw [a2, b2, e, sub_self]
      unfold ofQ
      split
      · rw [dif_pos (roundQ_zero f)]; rfl
      · simp [Flt.sign]
    cases a with
    | nan => cases a1
    | inf s => cases a1
    | zero s =>
      cases b with
      | nan => cases b1
      | inf s => cases b1
      | zero t =>
        cases s with
        | true => exact absurd rfl hn
        | false => rfl
      | fin r hr =>
        refine hz _ ?_
        rw [sub_eq_add_neg]
        rfl
    | fin q hq =>
      cases b with
      | nan => cases b1
      | inf s => cases b1
      | zero t =>
        refine hz _ ?_
        show ofQ false (q + 0) = ofQ false (q - 0)
        rw [add_zero, sub_zero]
      | fin r hr =>
        refine hz _ ?_
        rw [sub_eq_add_neg]
        rfl
  · rw [sign_of h (sub_ne_zero.2 e)]
    congr 1
    exact propext sub_neg

theorem is_zero_cases {a : Flt f} (h : Is a 0) : a = .zero a.sign := by
  obtain ⟨h1, h2⟩ := h
  cases a with
  | nan => cases h1
  | inf s => cases h1
  | zero s => rfl
  | fin q hq => exact absurd h2 hq.1

theorem div_zero_inf {a b : Flt f} {x : ℚ} (ha : Is a x) (hx : x ≠ 0) (hb : Is b 0) : Flt.div a b = .inf (a.sign != b.sign) := by
  rw [is_zero_cases hb]
  obtain ⟨h1, h2⟩ := ha
  cases a with
  | nan => cases h1
  | inf s => cases h1
  | zero s => exact absurd h2.symm hx
  | fin q hq => rfl

theorem inf_ulps_inf (s t : Bool) : Flt.ulpsEq (.inf s : Flt f) (.inf t) = (s == t) := by
  have heps : (Flt.epsilon : Flt f).isFin = true := is_epsilon.1
  have hle : Flt.le (Flt.inf false : Flt f) Flt.epsilon = false := by
    cases h : (Flt.epsilon : Flt f) with
    | nan => rfl
    | inf s => rw [h] at heps; cases heps
    | zero s => rfl
    | fin q hq => rfl
  cases s <;> cases t
  · show (if Flt.le Flt.nan Flt.epsilon then true else _) = _
    rw [show Flt.le (Flt.nan : Flt f) Flt.epsilon = false from rfl]
    simp [Flt.sign]
  · show (if Flt.le (Flt.inf false) Flt.epsilon then true else _) = _
    rw [hle]; simp [Flt.sign]
  · show (if Flt.le (Flt.inf false) Flt.epsilon then true else _) = _
    rw [hle]; simp [Flt.sign]
  · show (if Flt.le Flt.nan Flt.epsilon then true else _) = _
    rw [show Flt.le (Flt.nan : Flt f) Flt.epsilon = false from rfl]
    simp [Flt.sign]

/-- C83: what the three point test of `is_self_intersecting` decides for points of a grid: it is the
decision about the exact points, whatever the slopes (the ordinate of the middle point must not be a
negative zero). -/
theorem C83_three_point_test {s B : ℤ} (G : GoodGrid f s B) {p m q : V2 (Flt f)} (hp : OnGrid s B p) (hm : OnGrid s B m)
    (hq : OnGrid s B q) (hz : m.y ≠ .zero true) :
    (intersectionPoint3 p m q).isSome = true ↔ ThreePointFloat (exact p) (exact m) (exact q) := by
  obtain ⟨p1, p2, i1, i2, i3, i4⟩ := OnGrid.coords hp
  obtain ⟨m1, m2, j1, j2, j3, j4⟩ := OnGrid.coords hm
  obtain ⟨q1, q2, k1, k2, k3, k4⟩ := OnGrid.coords hq
  have hu := pow2_pos s
  have hB0 : 0 ≤ B := (abs_nonneg _).trans i3
  have hPp : (0 : ℤ) < 2 ^ (f.prec - 3) := by positivity
  have hBP : 2 * B < 2 ^ (f.prec - 3) := by
    have := G.small
    nlinarith
  obtain ⟨dx1, bx1⟩ := grid_diff G j1 i1 j3 i3
  obtain ⟨dy1, by1⟩ := grid_diff G j2 i1 j4 i3
  obtain ⟨dx2, bx2⟩ := grid_diff G j1 k1 j3 k3
  obtain ⟨dy2, by2⟩ := grid_diff G j2 k2 j4 k4
  have sg1 : (Scalar.sub m.y p.x : Flt f).sign = decide (m2 < p1) := by
    have := sub_sign j2 i1 hz (by rw [← sub_mul]; have := dy1; push_cast at this; exact this)
    rw [show (Scalar.sub m.y p.x : Flt f) = Flt.sub m.y p.x from rfl, this]
    congr 1
    rw [mul_lt_mul_iff_left₀ hu, Int.cast_lt]
  have sg2 : (Scalar.sub m.y q.y : Flt f).sign = decide (m2 < q2) := by
    have := sub_sign j2 k2 hz (by rw [← sub_mul]; have := dy2; push_cast at this; exact this)
    rw [show (Scalar.sub m.y q.y : Flt f) = Flt.sub m.y q.y from rfl, this]
    congr 1
    rw [mul_lt_mul_iff_left₀ hu, Int.cast_lt]
  have zt : ∀ {x : Flt f} {n : ℤ}, Is x (n * pow2 s) → |n| ≤ 2 * B → Scalar.ulpsEq x Scalar.zero = decide (n = 0) := fun hx hn =>
    grid_ulps (GoodGrid.unit G) (by have := G.coarse; have := f.hprec; omega) hx (is_zero_grid s) (by omega) (by simp)
  have e1 : exact p = ⟨p1 * pow2 s, p2 * pow2 s⟩ := congrArg₂ V2.mk i1.2 i2.2
  have e2 : exact m = ⟨m1 * pow2 s, m2 * pow2 s⟩ := congrArg₂ V2.mk j1.2 j2.2
  have e3 : exact q = ⟨q1 * pow2 s, q2 * pow2 s⟩ := congrArg₂ V2.mk k1.2 k2.2
  -- the specification in integers
  have spec : ThreePointFloat (exact p) (exact m) (exact q) ↔
      ((m1 - p1 = 0 ∧ m1 - q1 = 0 ∧ ¬ (m2 < p1 ∧ q2 ≤ m2)) ∨
        (m1 - p1 ≠ 0 ∧ m1 - q1 ≠ 0 ∧ (m1 - p1) * (m2 - q2) = (m1 - q1) * (m2 - p1))) ∧
      (m2 - p1 = 0 → m2 - q2 = 0 → m1 - p1 ≠ 0 → 0 < (m1 - p1) * (m1 - q1)) := by
    unfold ThreePointFloat ThreePoint
    rw [e1, e2, e3]
    simp only [← sub_mul, mul_left_inj' hu.ne', Int.cast_inj, mul_lt_mul_iff_left₀ hu, mul_le_mul_iff_left₀ hu,
      Int.cast_lt, Int.cast_le, ne_eq, sub_eq_zero]
    have c1 : ((m1 : ℚ) - p1) * pow2 s * ((m2 - q2) * pow2 s) = (m1 - q1) * pow2 s * ((m2 - p1) * pow2 s) ↔
        (m1 - p1) * (m2 - q2) = (m1 - q1) * (m2 - p1) := by
      have : ((m1 : ℚ) - p1) * pow2 s * ((m2 - q2) * pow2 s) = (((m1 - p1) * (m2 - q2) : ℤ) : ℚ) * (pow2 s * pow2 s) := by push_cast; ring
      rw [this]
      have : ((m1 : ℚ) - q1) * pow2 s * ((m2 - p1) * pow2 s) = (((m1 - q1) * (m2 - p1) : ℤ) : ℚ) * (pow2 s * pow2 s) := by push_cast; ring
      rw [this, mul_left_inj' (mul_pos hu hu).ne', Int.cast_inj]
    have c2 : (0 : ℚ) < ((m1 : ℚ) - p1) * pow2 s * ((m1 - q1) * pow2 s) ↔ 0 < (m1 - p1) * (m1 - q1) := by
      have : ((m1 : ℚ) - p1) * pow2 s * ((m1 - q1) * pow2 s) = (((m1 - p1) * (m1 - q1) : ℤ) : ℚ) * (pow2 s * pow2 s) := by push_cast; ring
      rw [this, mul_pos_iff_of_pos_right (mul_pos hu hu), Int.cast_pos]
    rw [c1, c2]
  rw [spec]
  unfold intersectionPoint3
  have sh : ∀ c : Bool, (if c = true then some (Intersection.overlap ⟨p, m⟩) else some (Intersection.overlap ⟨m, q⟩)).isSome = true := by
    intro c; cases c <;> rfl
  simp only
  generalize @Scalar.lt (Flt f) _ _ _ = cmp
  have hSs := sh cmp
  generalize (if cmp = true then some (Intersection.overlap ⟨p, m⟩) else some (Intersection.overlap ⟨m, q⟩)) = S at hSs ⊢
  rw [zt dx1 bx1, zt dx2 bx2]
  change ((if (decide (m1 - p1 = 0) && decide (m1 - q1 = 0)) = true then
      (if ((Scalar.sub m.y p.x : Flt f).sign && !(Scalar.sub m.y q.y : Flt f).sign) = true then none else S) else _).isSome = true) ↔ _
  rw [sg1, sg2]
  obtain ⟨A, hA⟩ : ∃ A, A = m1 - p1 := ⟨_, rfl⟩
  obtain ⟨C, hC⟩ : ∃ A, A = m1 - q1 := ⟨_, rfl⟩
  obtain ⟨b, hb⟩ : ∃ A, A = m2 - p1 := ⟨_, rfl⟩
  obtain ⟨d, hd⟩ : ∃ A, A = m2 - q2 := ⟨_, rfl⟩
  rw [← hA] at dx1 bx1 ⊢
  rw [← hC] at dx2 bx2 ⊢
  rw [← hb] at dy1 by1 ⊢
  rw [← hd] at dy2 by2 ⊢
  by_cases hA0 : A = 0
  · by_cases hC0 : C = 0
    · have hl : (m2 < p1 ↔ b < 0) := by omega
      have hr : (m2 < q2 ↔ d < 0) := by omega
      have hr' : (q2 ≤ m2 ↔ 0 ≤ d) := by omega
      rw [decide_eq_true hA0, decide_eq_true hC0]
      simp only [Bool.and_self, if_true, hl, hr, hr']
      by_cases h1 : b < 0 <;> by_cases h2 : d < 0 <;> simp [h1, h2, hSs, hA0, hC0]
    · rw [decide_eq_true hA0, decide_eq_false hC0]
      simp [hA0, hC0]
  · by_cases hC0 : C = 0
    · rw [decide_eq_false hA0, decide_eq_true hC0]
      simp [hA0, hC0]
    · rw [decide_eq_false hA0, decide_eq_false hC0]
      simp only [Bool.and_self, Bool.or_self, if_neg Bool.false_ne_true]
      have hB : 1 ≤ B := by
        by_contra hcon
        have : B = 0 := by omega
        rw [this, mul_zero] at bx1
        exact hA0 (abs_nonpos_iff.1 bx1)
      have hAu : (A : ℚ) * pow2 s ≠ 0 := mul_ne_zero (by exact_mod_cast hA0) hu.ne'
      have hCu : (C : ℚ) * pow2 s ≠ 0 := mul_ne_zero (by exact_mod_cast hC0) hu.ne'
      have small : ∀ {n e : ℤ}, |n| ≤ 2 * B → e ≠ 0 → |roundQ f ((n : ℚ) / e)| < 2 ^ f.prec := by
        intro n e hn he
        obtain ⟨g1, g2, g3, g4, g5⟩ := grid_facts G hB
        have h1 := roundQ_rel f ((n : ℚ) / e)
        have h2 := abs_sub_abs_le_abs_sub (roundQ f ((n : ℚ) / e)) ((n : ℚ) / e)
        have h3 : |(n : ℚ) / e| ≤ 2 * B := by
          rw [abs_div]
          refine (div_le_self (abs_nonneg _) ?_).trans ?_
          · exact_mod_cast Int.one_le_abs he
          · exact_mod_cast hn
        have hBq : (1 : ℚ) ≤ B := by exact_mod_cast hB
        have h4 : pow2 (-(f.prec : ℤ)) * |(n : ℚ) / e| ≤ 1 / 64 * (2 * B) := mul_le_mul g5 h3 (abs_nonneg _) (by norm_num)
        have h5 : (B : ℚ) ≤ B * B := by nlinarith
        linarith
      have key : Scalar.ulpsEq (Scalar.div (Scalar.sub m.x p.x) (Scalar.sub m.y p.x)) (Scalar.div (Scalar.sub m.x q.x) (Scalar.sub m.y q.y))
          = decide (A * d = C * b ∧ (b = 0 → d = 0 → 0 < A * C)) := by
        by_cases hb0 : b = 0
        · have z1 := dy1
          rw [hb0, Int.cast_zero, zero_mul] at z1
          have v1 := div_zero_inf dx1 hAu z1
          by_cases hd0 : d = 0
          · have z2 := dy2
            rw [hd0, Int.cast_zero, zero_mul] at z2
            have v2 := div_zero_inf dx2 hCu z2
            rw [sg1, decide_eq_false (by omega), sign_of dx1 hAu] at v1
            rw [sg2, decide_eq_false (by omega), sign_of dx2 hCu] at v2
            show Flt.ulpsEq (Flt.div _ _) (Flt.div _ _) = _
            rw [v1, v2, inf_ulps_inf, hb0, hd0]
            have n1 : ((A : ℚ) * pow2 s < 0) ↔ A < 0 := by
              rw [← zero_mul (pow2 s), mul_lt_mul_iff_left₀ hu, Int.cast_lt_zero]
            have n2 : ((C : ℚ) * pow2 s < 0) ↔ C < 0 := by
              rw [← zero_mul (pow2 s), mul_lt_mul_iff_left₀ hu, Int.cast_lt_zero]
            simp only [n1, n2, mul_zero, true_and, forall_const, Bool.bne_false]
            rw [Bool.eq_iff_iff, beq_iff_eq, decide_eq_decide, decide_eq_true_eq, mul_pos_iff]
            omega
          · obtain ⟨w, -⟩ := ratio hu.ne' dx2 dy2 hd0 (by omega) (by omega)
            show Flt.ulpsEq (Flt.div _ _) _ = _
            rw [v1, (inf_ulps_fin w (small bx2 hd0) _).1, hb0, eq_comm, decide_eq_false_iff_not, mul_zero]
            exact fun h => mul_ne_zero hA0 hd0 h.1
        · obtain ⟨w1, -⟩ := ratio hu.ne' dx1 dy1 hb0 (by omega) (by omega)
          by_cases hd0 : d = 0
          · have z2 := dy2
            rw [hd0, Int.cast_zero, zero_mul] at z2
            have v2 := div_zero_inf dx2 hCu z2
            show Flt.ulpsEq _ (Flt.div _ _) = _
            rw [v2, (inf_ulps_fin w1 (small bx1 hb0) _).2, hd0, eq_comm, decide_eq_false_iff_not, mul_zero]
            exact fun h => mul_ne_zero hC0 hb0 h.1.symm
          · obtain ⟨w2, -⟩ := ratio hu.ne' dx2 dy2 hd0 (by omega) (by omega)
            show Flt.ulpsEq _ _ = _
            rw [slope_ulps G hB hb0 hd0 bx1 by1 bx2 by2 w1 w2]
            simp [hb0]
      rw [key]
      by_cases hk : A * d = C * b ∧ (b = 0 → d = 0 → 0 < A * C)
      · rw [decide_eq_true hk]
        simp only [Bool.not_true, if_neg Bool.false_ne_true, hSs, true_iff]
        exact ⟨Or.inr ⟨hA0, hC0, hk.1⟩, fun x y _ => hk.2 x y⟩
      · rw [decide_eq_false hk]
        simp only [Bool.not_false, if_true, Option.isSome_none, Bool.false_eq_true, false_iff]
        rintro ⟨h1 | h1, h2⟩
        · exact hA0 h1.1
        · exact hk ⟨h1.2.2, fun x y => h2 x y hA0⟩

/-! ## short line strings -/

theorem getElem?_exactR (line : List (V2 (Flt f))) (i : Nat) (x : V2 (Flt f)) (h : getElem? line i = some x) :
    getElem? (line.map exactR) i = some (exactR x) := by
  rw [List.getElem?_map, h]; rfl

/-- C83: two segments of the line string that are not neighbours and that have exactly one common
point, not an end of both, are always noticed in floating point. -/
theorem C83_detects_crossings {s B : ℤ} (G : GoodGrid f s B) (hs : 0 ≤ s) (hsm : 1024 * B ^ 4 ≤ 2 ^ f.prec)
    {line : List (V2 (Flt f))} (hg : ∀ v ∈ line, OnGrid s B v) (hl : line.length < 10) {i j : Nat} {a b c d : V2 (Flt f)}
    (hij : i + 1 < j) (ha : getElem? line i = some a) (hb : getElem? line (i + 1) = some b) (hc : getElem? line j = some c) (hd : getElem? line (j + 1) = some d)
    {x : V2 ℝ} (hx : ∀ q, (OnSegment2 (exactR a) (exactR b) q ∧ OnSegment2 (exactR c) (exactR d) q) ↔ q = x)
    (hend : ¬ ((x = exactR a ∨ x = exactR b) ∧ (x = exactR c ∨ x = exactR d))) :
    isSelfIntersectingShort line = some true := by
  have h3 : 2 < line.length := by
    by_contra hcon
    rw [List.getElem?_eq_none (by omega)] at hd
    cases hd
  rw [Intersect.selfShort_iff line h3 hl]
  right
  refine ⟨i, j, a, b, c, d, hij, ha, hb, hc, hd, ?_⟩
  have m : ∀ {k : Nat} {v : V2 (Flt f)}, getElem? line k = some v → OnGrid s B v := fun h => hg _ (List.mem_of_getElem? h)
  rw [hit_exact G hs hsm (m ha) (m hb) (m hc) (m hd)]
  unfold nonAdjacentHit
  have hden := Proofs.Intersect.intersectionPoint_denotes (⟨exactR a, exactR b⟩ : Line2 ℝ) ⟨exactR c, exactR d⟩
  revert hden
  generalize (Line2.mk (exactR a) (exactR b)).intersectionPoint ⟨exactR c, exactR d⟩ = r
  intro hden
  cases r with
  | none => exact absurd ((hden x).2 ((hx x).2 rfl)) (by simp [Denotes])
  | some r =>
    have hr : r.single = x := by
      apply (hx _).1
      apply (hden _).1
      cases r with
      | point q => rfl
      | overlap o => exact Proofs.Intersect.onSeg_start _ _
    simp only
    rw [hr, Bool.not_eq_true', Bool.eq_false_iff]
    intro hh
    apply hend
    rw [Bool.and_eq_true, Bool.or_eq_true, Bool.or_eq_true] at hh
    simpa only [Proofs.Intersect.v2_ulps] using hh

/-- C83: the answer "true" has a reason: three consecutive points for which the three point test is met, or
two segments that are not neighbours with a common point that is not an end of both. -/
theorem C83_true_has_reason {s B : ℤ} (G : GoodGrid f s B) (hs : 0 ≤ s) (hsm : 1024 * B ^ 4 ≤ 2 ^ f.prec)
    {line : List (V2 (Flt f))} (hg : ∀ v ∈ line, OnGrid s B v) (hz : ∀ v ∈ line, v.y ≠ .zero true)
    (h : isSelfIntersectingShort line = some true) :
    (∃ i a b c, getElem? line i = some a ∧ getElem? line (i + 1) = some b ∧ getElem? line (i + 2) = some c ∧ ThreePointFloat (exact a) (exact b) (exact c)) ∨
    ∃ i j a b c d x, i + 1 < j ∧ getElem? line i = some a ∧ getElem? line (i + 1) = some b ∧ getElem? line j = some c ∧ getElem? line (j + 1) = some d ∧
      OnSegment2 (exactR a) (exactR b) x ∧ OnSegment2 (exactR c) (exactR d) x ∧
      ¬ ((x = exactR a ∨ x = exactR b) ∧ (x = exactR c ∨ x = exactR d)) := by
  have h3 : 2 < line.length ∧ line.length < 10 := by
    unfold isSelfIntersectingShort at h
    split_ifs at h with h1 h2
    · cases h
    · exact ⟨by omega, h2⟩
  have m : ∀ {k : Nat} {v : V2 (Flt f)}, getElem? line k = some v → v ∈ line := fun h => List.mem_of_getElem? h
  rw [Intersect.selfShort_iff line h3.1 h3.2] at h
  rcases h with ⟨i, a, b, c, ha, hb, hc, hh⟩ | ⟨i, j, a, b, c, d, hij, ha, hb, hc, hd, hh⟩
  · exact Or.inl ⟨i, a, b, c, ha, hb, hc,
      (C83_three_point_test G (hg _ (m ha)) (hg _ (m hb)) (hg _ (m hc)) (hz _ (m hb))).1 hh⟩
  · right
    rw [hit_exact G hs hsm (hg _ (m ha)) (hg _ (m hb)) (hg _ (m hc)) (hg _ (m hd))] at hh
    unfold nonAdjacentHit at hh
    have hden := Proofs.Intersect.intersectionPoint_denotes (⟨exactR a, exactR b⟩ : Line2 ℝ) ⟨exactR c, exactR d⟩
    revert hden hh
    generalize (Line2.mk (exactR a) (exactR b)).intersectionPoint ⟨exactR c, exactR d⟩ = r
    intro hh hden
    cases r with
    | none => cases hh
    | some r =>
      have hr : OnSegment2 (exactR a) (exactR b) r.single ∧ OnSegment2 (exactR c) (exactR d) r.single := by
        apply (hden _).1
        cases r with
        | point q => rfl
        | overlap o => exact Proofs.Intersect.onSeg_start _ _
      refine ⟨i, j, a, b, c, d, r.single, hij, ha, hb, hc, hd, hr.1, hr.2, ?_⟩
      simp only at hh
      rw [Bool.not_eq_true', Bool.eq_false_iff] at hh
      intro hcon
      apply hh
      rw [Bool.and_eq_true, Bool.or_eq_true, Bool.or_eq_true]
      simpa only [Proofs.Intersect.v2_ulps] using hcon

/-- C83: on a small grid the answer is the answer for the exact points, if no slope of the three point
test has a zero denominator. -/
theorem C83_same_as_real {s B : ℤ} (G : GoodGrid f s B) (hs : 0 ≤ s) (hsm : 1024 * B ^ 4 ≤ 2 ^ f.prec)
    {line : List (V2 (Flt f))} (hg : ∀ v ∈ line, OnGrid s B v) (hz : ∀ v ∈ line, v.y ≠ .zero true)
    (hsl : ∀ i a b c, getElem? line i = some a → getElem? line (i + 1) = some b → getElem? line (i + 2) = some c →
      (exact b).y ≠ (exact a).x ∧ (exact b).y ≠ (exact c).y) :
    isSelfIntersectingShort line = isSelfIntersectingShort (line.map exactR) := by
  by_cases h3 : line.length ≤ 2
  · unfold isSelfIntersectingShort
    rw [List.length_map, if_pos h3, if_pos h3]
  by_cases h10 : line.length < 10
  · have m : ∀ {k : Nat} {v : V2 (Flt f)}, getElem? line k = some v → v ∈ line := fun h => List.mem_of_getElem? h
    have hget : ∀ {k : Nat} {w : V2 ℝ}, getElem? (line.map exactR) k = some w → ∃ v, getElem? line k = some v ∧ exactR v = w := by
      intro k w h
      rw [List.getElem?_map, Option.map_eq_some_iff] at h
      exact h
    have hthree : ∀ {i : Nat} {a b c : V2 (Flt f)}, getElem? line i = some a → getElem? line (i + 1) = some b → getElem? line (i + 2) = some c →
        ((intersectionPoint3 a b c).isSome = true ↔ (intersectionPoint3 (exactR a) (exactR b) (exactR c)).isSome = true) := by
      intro i a b c ha hb hc
      obtain ⟨n1, n2⟩ := hsl i a b c ha hb hc
      rw [C83_three_point_test G (hg _ (m ha)) (hg _ (m hb)) (hg _ (m hc)) (hz _ (m hb)),
        Intersect.C24_three_point_test _ _ _ (fun h => n1 (Rat.cast_injective h)) (fun h => n2 (Rat.cast_injective h))]
      unfold ThreePointFloat ThreePoint
      have e : ∀ u v w z : ℚ, ((u : ℝ) - v) * (w - z) = (((u - v) * (w - z) : ℚ) : ℝ) := by intros; push_cast; ring
      simp only [exactR, e, Rat.cast_inj, Rat.cast_lt, Rat.cast_le, ne_eq]
      simp only [exact] at n1 n2 ⊢
      tauto
    have hiff : isSelfIntersectingShort line = some true ↔ isSelfIntersectingShort (line.map exactR) = some true := by
      rw [Intersect.selfShort_iff line (by omega) h10,
        Intersect.selfShort_iff (line.map exactR) (by rw [List.length_map]; omega) (by rw [List.length_map]; omega)]
      constructor
      · rintro (⟨i, a, b, c, ha, hb, hc, hh⟩ | ⟨i, j, a, b, c, d, hij, ha, hb, hc, hd, hh⟩)
        · exact Or.inl ⟨i, _, _, _, getElem?_exactR _ _ _ ha, getElem?_exactR _ _ _ hb, getElem?_exactR _ _ _ hc,
            (hthree ha hb hc).1 hh⟩
        · refine Or.inr ⟨i, j, _, _, _, _, hij, getElem?_exactR _ _ _ ha, getElem?_exactR _ _ _ hb, getElem?_exactR _ _ _ hc,
            getElem?_exactR _ _ _ hd, ?_⟩
          rw [← hit_exact G hs hsm (hg _ (m ha)) (hg _ (m hb)) (hg _ (m hc)) (hg _ (m hd))]
          exact hh
      · rintro (⟨i, a, b, c, ha, hb, hc, hh⟩ | ⟨i, j, a, b, c, d, hij, ha, hb, hc, hd, hh⟩)
        · obtain ⟨a, ka, rfl⟩ := hget ha
          obtain ⟨b, kb, rfl⟩ := hget hb
          obtain ⟨c, kc, rfl⟩ := hget hc
          exact Or.inl ⟨i, a, b, c, ka, kb, kc, (hthree ka kb kc).2 hh⟩
        · obtain ⟨a, ka, rfl⟩ := hget ha
          obtain ⟨b, kb, rfl⟩ := hget hb
          obtain ⟨c, kc, rfl⟩ := hget hc
          obtain ⟨d, kd, rfl⟩ := hget hd
          refine Or.inr ⟨i, j, a, b, c, d, hij, ka, kb, kc, kd, ?_⟩
          rw [hit_exact G hs hsm (hg _ (m ka)) (hg _ (m kb)) (hg _ (m kc)) (hg _ (m kd))]
          exact hh
    have s1 : (isSelfIntersectingShort line).isSome := by
      unfold isSelfIntersectingShort; rw [if_neg h3, if_pos h10]; rfl
    have s2 : (isSelfIntersectingShort (line.map exactR)).isSome := by
      unfold isSelfIntersectingShort; rw [List.length_map, if_neg h3, if_pos h10]; rfl
    revert hiff s1 s2
    generalize isSelfIntersectingShort line = u
    generalize isSelfIntersectingShort (line.map exactR) = v
    intro hiff s1 s2
    match u, v, s1, s2 with
    | some u, some v, _, _ =>
      cases u <;> cases v <;> simp at hiff ⊢
  · unfold isSelfIntersectingShort
    rw [List.length_map, if_neg h3, if_neg h3, if_neg h10, if_neg h10]

/-- C83: the hypotheses are met by integer coordinates up to 1000 (`f64`), and the answer can be true for a
crossing and false. -/
theorem C83_grid64 : GoodGrid b64 0 1000 ∧ 1024 * (1000 : ℤ) ^ 4 ≤ 2 ^ b64.prec :=
  ⟨⟨by norm_num [b64], by norm_num [b64], by norm_num [b64]⟩, by norm_num [b64]⟩

end

/-- C83: a crossing is found in `f64` … -/
theorem C83_crossing64 : (let _ : Libm b64 := ⟨fun _ _ => .nan⟩
    isSelfIntersectingShort [(ipt b64 0 0), ipt b64 4 1, ipt b64 4 3, ipt b64 1 (-1)]) = some true := by decide +kernel
/-- … and a line that does not meet itself is accepted. -/
theorem C83_simple64 : (let _ : Libm b64 := ⟨fun _ _ => .nan⟩
    isSelfIntersectingShort [(ipt b64 0 0), ipt b64 4 1, ipt b64 4 3, ipt b64 1 5]) = some false := by decide +kernel
/-- C83, what does *not* hold: the negative zero matters.  The vertical line (0,1), (0,0), (0,−1) is
accepted or not depending on the sign of the zero of the middle point. -/
theorem C83_negative_zero : (let _ : Libm b64 := ⟨fun _ _ => .nan⟩
    ((isSelfIntersectingShort [(ipt b64 0 1), ipt b64 0 0, ipt b64 0 (-1)]) = some true ∧
     (isSelfIntersectingShort [(ipt b64 0 1), ⟨.zero false, .zero true⟩, ipt b64 0 (-1)]) = some false)) := by decide +kernel

end Verif.Props
