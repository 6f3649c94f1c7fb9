import Verif.Proofs.FloatSimplify
import Verif.Props.Dist
import Verif.Props.FloatRdp
/-!
# C86: distances of points from segments and lines, in floating point
-/
set_option linter.unusedSectionVars false
set_option linter.unusedVariables false
namespace Verif.Props
open Verif Verif.Spec Verif.Model Fl Flt Verif.Proofs.FloatHull Verif.Proofs.FloatIntersect Verif.Proofs.FloatSimplify
variable {f : Fmt} [Libm f]

theorem zero_iff_of_rel {c v e : ℚ} (h : Proofs.FloatSimplify.Rel f c v e) (hc : c ≤ 8) : v = 0 ↔ e = 0 := by
  unfold Proofs.FloatSimplify.Rel at h
  have hp := f.hprec
  have h1 : pow2 (-f.prec) ≤ pow2 (-5) := pow2_le (by omega)
  have h2 : pow2 (-5) = 1 / 32 := by rw [pow2_eq]; norm_num
  rw [h2] at h1
  have h3 := pow2_pos (-f.prec)
  constructor
  · rintro rfl
    by_contra he
    have : 0 < |e| := abs_pos.2 he
    rw [zero_sub, abs_neg] at h
    have h4 : c * pow2 (-f.prec) ≤ 1 / 4 := by nlinarith
    nlinarith
  · rintro rfl
    simp at h
    exact h

theorem onSeg_of_min_zero {K : Type} [Field K] [LinearOrder K] [IsStrictOrderedRing K] {a b p : V2 K} {d : K}
    (h : IsMinSqDist sqDist2 p (OnSegment2 a b) d) : d = 0 ↔ OnSegment2 a b p := by
  obtain ⟨⟨q, hq, e⟩, hm⟩ := h
  have hs : ∀ q : V2 K, sqDist2 p q = 0 → q = p := by
    intro q h
    unfold sqDist2 at h
    have h1 := sq_nonneg (p.x - q.x)
    have h2 := sq_nonneg (p.y - q.y)
    have g1 : (p.x - q.x) ^ 2 = 0 := by nlinarith
    have g2 : (p.y - q.y) ^ 2 = 0 := by nlinarith
    have g1 := pow_eq_zero_iff (two_ne_zero) |>.1 g1
    have g2 := pow_eq_zero_iff (two_ne_zero) |>.1 g2
    cases p; cases q
    simp only [V2.mk.injEq]
    exact ⟨(sub_eq_zero.1 g1).symm, (sub_eq_zero.1 g2).symm⟩
  constructor
  · intro h
    rw [← hs q (by rw [← e, h])]
    exact hq
  · intro h
    have h1 := hm p h
    have h2 : sqDist2 p p = 0 := by simp [sqDist2]
    have h3 : 0 ≤ d := by rw [e]; unfold sqDist2; positivity
    linarith

theorem onLine_of_min_zero {K : Type} [Field K] [LinearOrder K] [IsStrictOrderedRing K] {a b p : V3 K} {d : K}
    (h : IsMinSqDist sqDist3 p (OnLine3 a b) d) : d = 0 ↔ OnLine3 a b p := by
  obtain ⟨⟨q, hq, e⟩, hm⟩ := h
  have hs : ∀ q : V3 K, sqDist3 p q = 0 → q = p := by
    intro q h
    unfold sqDist3 at h
    have h1 := sq_nonneg (p.x - q.x)
    have h2 := sq_nonneg (p.y - q.y)
    have h3 := sq_nonneg (p.z - q.z)
    have g1 : (p.x - q.x) ^ 2 = 0 := by nlinarith
    have g2 : (p.y - q.y) ^ 2 = 0 := by nlinarith
    have g3 : (p.z - q.z) ^ 2 = 0 := by nlinarith
    have g1 := pow_eq_zero_iff (two_ne_zero) |>.1 g1
    have g2 := pow_eq_zero_iff (two_ne_zero) |>.1 g2
    have g3 := pow_eq_zero_iff (two_ne_zero) |>.1 g3
    cases p; cases q
    simp only [V3.mk.injEq]
    exact ⟨(sub_eq_zero.1 g1).symm, (sub_eq_zero.1 g2).symm, (sub_eq_zero.1 g3).symm⟩
  constructor
  · intro h
    rw [← hs q (by rw [← e, h])]
    exact hq
  · intro h
    have h1 := hm p h
    have h2 : sqDist3 p p = 0 := by simp [sqDist3]
    have h3 : 0 ≤ d := by rw [e]; unfold sqDist3; positivity
    linarith

/-- C86: the computed squared distance of a point from a segment (which may be a point) has a relative error of
at most three half units in the last place, and is zero exactly if the point is on the segment. -/
theorem C86_distance2_safe {s B : ℤ} (G : SquareGrid f s B) (hB : 1 ≤ B) (a b p : V2 (Flt f)) (ha : OnGrid s B a)
    (hb : OnGrid s B b) (hp : OnGrid s B p) :
    ∃ d : ℚ, IsMinSqDist sqDist2 (exact p) (OnSegment2 (exact a) (exact b)) d ∧
      (distToLineSqSafe2 a b p).isFin = true ∧
      |(distToLineSqSafe2 a b p).val - d| ≤ 3 * (2 : ℚ) ^ (-(f.prec : ℤ)) * d ∧
      ((distToLineSqSafe2 a b p).val = 0 ↔ OnSegment2 (exact a) (exact b) (exact p)) := by
  obtain ⟨v, h1, h2, -⟩ := dist2_rel G hB ha hb hp
  have hm := Dist.C16_dist2_safe_is_min (exact a) (exact b) (exact p)
  refine ⟨_, hm, h1.1, ?_, ?_⟩
  · have h0 : 0 ≤ distToLineSqSafe2 (exact a) (exact b) (exact p) := by
      obtain ⟨⟨q, -, e⟩, -⟩ := hm
      rw [e]; unfold sqDist2; positivity
    have := h2
    unfold Proofs.FloatSimplify.Rel at this
    rw [abs_of_nonneg h0, pow2_eq] at this
    rw [h1.2]
    exact this
  · rw [h1.2, zero_iff_of_rel h2 (by norm_num)]
    exact onSeg_of_min_zero hm

/-- C86: the same for `distance_to_line_squared`, if the end points differ. -/
theorem C86_distance2 {s B : ℤ} (G : SquareGrid f s B) (hB : 1 ≤ B) (a b p : V2 (Flt f)) (ha : OnGrid s B a)
    (hb : OnGrid s B b) (hp : OnGrid s B p) (hab : exact a ≠ exact b) :
    ∃ d : ℚ, IsMinSqDist sqDist2 (exact p) (OnSegment2 (exact a) (exact b)) d ∧
      (distToLineSq2 a b p).isFin = true ∧
      |(distToLineSq2 a b p).val - d| ≤ 3 * (2 : ℚ) ^ (-(f.prec : ℤ)) * d ∧
      ((distToLineSq2 a b p).val = 0 ↔ OnSegment2 (exact a) (exact b) (exact p)) := by
  have e : distToLineSqSafe2 a b p = distToLineSq2 a b p := by
    unfold distToLineSqSafe2
    rw [grid_point_ulps G.toGoodGrid ha hb, decide_eq_false hab, if_neg Bool.false_ne_true]
  rw [← e]
  exact C86_distance2_safe G hB a b p ha hb hp

/-- C86: in space the distance is to the line through the two points (or to the point, if they are equal), with a
relative error of at most five half units in the last place. -/
theorem C86_distance3_safe {s B : ℤ} (G : SquareGrid f s B) (hB : 1 ≤ B) (a b p : V3 (Flt f)) (ha : OnGrid3 s B a)
    (hb : OnGrid3 s B b) (hp : OnGrid3 s B p) :
    ∃ d : ℚ, IsMinSqDist sqDist3 (exact3 p) (OnLine3 (exact3 a) (exact3 b)) d ∧
      (distToLineSqSafe3 a b p).isFin = true ∧
      |(distToLineSqSafe3 a b p).val - d| ≤ 5 * (2 : ℚ) ^ (-(f.prec : ℤ)) * d ∧
      ((distToLineSqSafe3 a b p).val = 0 ↔ OnLine3 (exact3 a) (exact3 b) (exact3 p)) := by
  obtain ⟨v, h1, h2, -⟩ := dist3_rel G hB ha hb hp
  have hm := Dist.C17_dist3_safe_is_min (exact3 a) (exact3 b) (exact3 p)
  refine ⟨_, hm, h1.1, ?_, ?_⟩
  · have h0 : 0 ≤ distToLineSqSafe3 (exact3 a) (exact3 b) (exact3 p) := by
      obtain ⟨⟨q, -, e⟩, -⟩ := hm
      rw [e]; unfold sqDist3; positivity
    have := h2
    unfold Proofs.FloatSimplify.Rel at this
    rw [abs_of_nonneg h0, pow2_eq] at this
    rw [h1.2]
    exact this
  · rw [h1.2, zero_iff_of_rel h2 (by norm_num)]
    exact onLine_of_min_zero hm

/-! ### All floats -/

/-- NaN, or the sign bit is clear -/
def SignClear (x : Flt f) : Prop := x = .nan ∨ x.sign = false

theorem signClear_ofQ {s : Bool} {q : ℚ} (hs : s = false) (hq : 0 ≤ q) : SignClear (Flt.ofQ s q : Flt f) := by
  right
  unfold Flt.ofQ
  split
  · split
    · exact hs
    · have := roundQ_nonneg (f := f) hq
      simp [Flt.sign, this]
  · simp [Flt.sign, hq]

theorem val_nonneg {x : Flt f} (h : x.sign = false) : 0 ≤ x.val := by
  cases x with
  | nan => simp [Flt.val]
  | inf s => simp [Flt.val]
  | zero s => simp [Flt.val]
  | fin q hq => simpa [Flt.sign, Flt.val] using h

theorem SignClear.add {x y : Flt f} (hx : SignClear x) (hy : SignClear y) : SignClear (Flt.add x y) := by
  rcases hx with rfl | hx
  · exact Or.inl rfl
  rcases hy with rfl | hy
  · left; cases x <;> rfl
  have h1 := val_nonneg hx
  have h2 := val_nonneg hy
  match x, y, hx, hy, h1, h2 with
  | .nan, _, _, _, _, _ => exact Or.inl rfl
  | .inf _, .nan, _, _, _, _ => exact Or.inl rfl
  | .zero _, .nan, _, _, _, _ => exact Or.inl rfl
  | .fin _ _, .nan, _, _, _, _ => exact Or.inl rfl
  | .inf false, .inf false, _, _, _, _ => exact Or.inr rfl
  | .inf false, .zero _, _, _, _, _ => exact Or.inr rfl
  | .inf false, .fin _ _, _, _, _, _ => exact Or.inr rfl
  | .zero _, .inf false, _, _, _, _ => exact Or.inr rfl
  | .fin _ _, .inf false, _, _, _, _ => exact Or.inr rfl
  | .zero false, .zero false, _, _, _, _ => exact Or.inr rfl
  | .zero _, .fin q h, _, _, h1, h2 => exact signClear_ofQ rfl (add_nonneg h1 h2)
  | .fin q h, .zero _, _, _, h1, h2 => exact signClear_ofQ rfl (add_nonneg h1 h2)
  | .fin q h, .fin q' h', _, _, h1, h2 => exact signClear_ofQ rfl (add_nonneg h1 h2)

theorem signClear_sq (x : Flt f) : SignClear (Flt.mul x x) := by
  cases x with
  | nan => exact Or.inl rfl
  | inf s => right; cases s <;> rfl
  | zero s => exact signClear_ofQ (by cases s <;> rfl) (mul_self_nonneg _)
  | fin q h => exact signClear_ofQ (by simp) (mul_self_nonneg _)

theorem SignClear.div {x y : Flt f} (hx : SignClear x) (hy : SignClear y) : SignClear (Flt.div x y) := by
  rcases hx with rfl | hx
  · exact Or.inl rfl
  rcases hy with rfl | hy
  · left; cases x <;> rfl
  have h1 := val_nonneg hx
  have h2 := val_nonneg hy
  have hs : (x.sign != y.sign) = false := by rw [hx, hy]; rfl
  match x, y, hx, hy, h1, h2, hs with
  | .nan, _, _, _, _, _, _ => exact Or.inl rfl
  | .inf _, .nan, _, _, _, _, _ => exact Or.inl rfl
  | .zero _, .nan, _, _, _, _, _ => exact Or.inl rfl
  | .fin _ _, .nan, _, _, _, _, _ => exact Or.inl rfl
  | .inf _, .inf _, _, _, _, _, _ => exact Or.inl rfl
  | .zero _, .zero _, _, _, _, _, _ => exact Or.inl rfl
  | .inf _, .zero _, _, _, _, _, hs => exact Or.inr hs
  | .inf _, .fin _ _, _, _, _, _, hs => exact Or.inr hs
  | .zero _, .inf _, _, _, _, _, hs => exact Or.inr hs
  | .fin _ _, .inf _, _, _, _, _, hs => exact Or.inr hs
  | .fin q h, .zero _, _, _, _, _, hs => exact Or.inr hs
  | .zero _, .fin q h, _, _, h1, h2, hs => exact signClear_ofQ hs (div_nonneg h1 h2)
  | .fin q h, .fin q' h', _, _, h1, h2, hs => exact signClear_ofQ hs (div_nonneg h1 h2)

theorem SignClear.not_neg {x : Flt f} (h : SignClear x) : Scalar.lt x Scalar.zero = false := by
  rcases h with rfl | h
  · rfl
  · cases x with
    | nan => rfl
    | inf s => simp only [Flt.sign] at h; subst h; rfl
    | zero s => cases s <;> rfl
    | fin q hq =>
      have : 0 ≤ q := by simpa [Flt.sign] using h
      show decide (q < 0) = false
      rw [decide_eq_false (_root_.not_lt.2 this)]

/-- C86: whatever the coordinates are (also infinite or NaN), no computed squared distance is negative. -/
theorem C86_never_negative (a b p : V2 (Flt f)) (a' b' p' : V3 (Flt f)) :
    Scalar.lt (distToLineSq2 a b p) Scalar.zero = false ∧ Scalar.lt (distToLineSqSafe2 a b p) Scalar.zero = false ∧
    Scalar.lt (distToLineSq3 a' b' p') Scalar.zero = false ∧
    Scalar.lt (distToLineSqSafe3 a' b' p') Scalar.zero = false := by
  have m2 : ∀ v : V2 (Flt f), SignClear v.magSq := fun v => (signClear_sq v.x).add (signClear_sq v.y)
  have d2 : ∀ v w : V2 (Flt f), SignClear (v.distSq w) := fun v w => m2 _
  have s3 : ∀ x y z : Flt f, SignClear (Flt.add (Flt.add (Flt.mul x x) (Flt.mul y y)) (Flt.mul z z)) :=
    fun x y z => ((signClear_sq x).add (signClear_sq y)).add (signClear_sq z)
  have d3 : ∀ v w : V3 (Flt f), SignClear (v.distSq w) := fun v w => s3 _ _ _
  have h2 : SignClear (distToLineSq2 a b p) := by
    unfold distToLineSq2
    simp only
    split
    · exact m2 _
    · split
      · exact m2 _
      · exact (signClear_sq _).div (m2 _)
  have h3 : SignClear (distToLineSq3 a' b' p') := (s3 _ _ _).div (s3 _ _ _)
  refine ⟨h2.not_neg, ?_, h3.not_neg, ?_⟩
  · unfold distToLineSqSafe2
    split
    · exact (d2 _ _).not_neg
    · exact h2.not_neg
  · unfold distToLineSqSafe3
    split
    · exact (d3 _ _).not_neg
    · exact h3.not_neg

/-- NaN or a zero -/
def ZeroNan (x : Flt f) : Prop := x = .nan ∨ ∃ s, x = .zero s

theorem is_zero_form {x : Flt f} (h : Is x 0) : ∃ s, x = .zero s := by
  obtain ⟨h1, h2⟩ := h
  cases x with
  | nan => cases h1
  | inf s => cases h1
  | zero s => exact ⟨s, rfl⟩
  | fin q hq => exact absurd h2 hq.1

theorem zeroNan_ofQ (t : Bool) : ZeroNan (Flt.ofQ t (0 : ℚ) : Flt f) := by
  have := is_ofQ (f := f) t (q := 0) (by rw [roundQ_zero]; simpa using pow2_pos _)
  rw [roundQ_zero] at this
  exact Or.inr (is_zero_form this)

theorem zeroNan_mul (x : Flt f) (s : Bool) : ZeroNan (Flt.mul x (.zero s)) := by
  cases x with
  | nan => exact Or.inl rfl
  | inf s => exact Or.inl rfl
  | zero t =>
    have : Flt.mul (.zero t) (.zero s) = (Flt.ofQ (t != s) (0 * 0) : Flt f) := rfl
    rw [this, mul_zero]; exact zeroNan_ofQ _
  | fin q h =>
    have : Flt.mul (.fin q h) (.zero s) = (Flt.ofQ (decide (q < 0) != s) (q * 0) : Flt f) := rfl
    rw [this, mul_zero]; exact zeroNan_ofQ _

theorem ZeroNan.add {x y : Flt f} (hx : ZeroNan x) (hy : ZeroNan y) : ZeroNan (Flt.add x y) := by
  rcases hx with rfl | ⟨s, rfl⟩
  · exact Or.inl rfl
  · rcases hy with rfl | ⟨t, rfl⟩
    · exact Or.inl rfl
    · exact Or.inr ⟨_, rfl⟩

theorem ZeroNan.sub {x y : Flt f} (hx : ZeroNan x) (hy : ZeroNan y) : ZeroNan (Flt.sub x y) := by
  refine hx.add ?_
  rcases hy with rfl | ⟨t, rfl⟩
  · exact Or.inl rfl
  · exact Or.inr ⟨_, rfl⟩

theorem ZeroNan.sq {x : Flt f} (hx : ZeroNan x) : ZeroNan (Flt.mul x x) := by
  rcases hx with rfl | ⟨s, rfl⟩
  · exact Or.inl rfl
  · exact zeroNan_mul _ _

theorem ZeroNan.div {x y : Flt f} (hx : ZeroNan x) (hy : ZeroNan y) : Flt.div x y = .nan := by
  rcases hx with rfl | ⟨s, rfl⟩
  · rfl
  · rcases hy with rfl | ⟨t, rfl⟩ <;> rfl

theorem sub_equal {x y : Flt f} (hx : x.isFin = true) (hy : y.isFin = true) (h : x.val = y.val) :
    ∃ s, Flt.sub x y = .zero s := by
  have := is_sub (is_self hx) (is_self hy) (by rw [h, sub_self, roundQ_zero]; simpa using pow2_pos _)
  rw [h, sub_self, roundQ_zero] at this
  exact is_zero_form this

theorem mul_zero_left (x : Flt f) (s : Bool) : ZeroNan (Flt.mul (.zero s) x) := by
  cases x with
  | nan => exact Or.inl rfl
  | inf s => exact Or.inl rfl
  | zero t =>
    have : Flt.mul (.zero s) (.zero t) = (Flt.ofQ (s != t) (0 * 0) : Flt f) := rfl
    rw [this, mul_zero]; exact zeroNan_ofQ _
  | fin q h =>
    have : Flt.mul (.zero s) (.fin q h) = (Flt.ofQ (s != decide (q < 0)) (0 * q) : Flt f) := rfl
    rw [this, zero_mul]; exact zeroNan_ofQ _

/-- C86: if the end points are equal, `distance_to_line_squared` is NaN, for every point (2D and 3D). -/
theorem C86_equal_ends_nan (a b p : V2 (Flt f)) (a' b' p' : V3 (Flt f))
    (ha : a.x.isFin = true ∧ a.y.isFin = true) (hb : b.x.isFin = true ∧ b.y.isFin = true) (hab : exact a = exact b)
    (ha' : a'.x.isFin = true ∧ a'.y.isFin = true ∧ a'.z.isFin = true)
    (hb' : b'.x.isFin = true ∧ b'.y.isFin = true ∧ b'.z.isFin = true) (hab' : exact3 a' = exact3 b') :
    distToLineSq2 a b p = .nan ∧ distToLineSq3 a' b' p' = .nan := by
  constructor
  · unfold exact at hab
    rw [V2.mk.injEq] at hab
    obtain ⟨s, hs⟩ := sub_equal ha.1 hb.1 hab.1
    obtain ⟨t, ht⟩ := sub_equal ha.2 hb.2 hab.2
    have e : a.sub b = ⟨.zero s, .zero t⟩ := congrArg₂ V2.mk hs ht
    unfold distToLineSq2
    simp only
    rw [e]
    have hm : ZeroNan (V2.magSq (⟨.zero s, .zero t⟩ : V2 (Flt f))) := (zeroNan_mul _ _).add (zeroNan_mul _ _)
    have hd : ZeroNan ((a.sub p).dot (⟨.zero s, .zero t⟩ : V2 (Flt f))) := (zeroNan_mul _ _).add (zeroNan_mul _ _)
    have hn : Scalar.div ((a.sub p).dot (⟨.zero s, .zero t⟩ : V2 (Flt f))) (V2.magSq (⟨.zero s, .zero t⟩ : V2 (Flt f))) = .nan :=
      hd.div hm
    rw [hn, if_neg (show ¬ Scalar.lt (Flt.nan : Flt f) Scalar.zero = true from Bool.false_ne_true),
      if_neg (show ¬ Scalar.gt (Flt.nan : Flt f) Scalar.one = true by
        have : Scalar.gt (Flt.nan : Flt f) Scalar.one = false := by
          show Flt.lt Scalar.one (Flt.nan : Flt f) = false
          generalize (Scalar.one : Flt f) = o
          cases o <;> rfl
        rw [this]; exact Bool.false_ne_true)]
    have hc : ZeroNan ((a.sub p).perpDot (⟨.zero s, .zero t⟩ : V2 (Flt f))) := (zeroNan_mul _ _).sub (zeroNan_mul _ _)
    exact hc.sq.div hm
  · unfold exact3 at hab'
    rw [V3.mk.injEq] at hab'
    obtain ⟨s, hs⟩ := sub_equal ha'.1 hb'.1 hab'.1
    obtain ⟨t, ht⟩ := sub_equal ha'.2.1 hb'.2.1 hab'.2.1
    obtain ⟨u, hu⟩ := sub_equal ha'.2.2 hb'.2.2 hab'.2.2
    have e : a'.sub b' = ⟨.zero s, .zero t, .zero u⟩ := by
      show V3.mk _ _ _ = _
      rw [V3.mk.injEq]; exact ⟨hs, ht, hu⟩
    unfold distToLineSq3
    simp only
    rw [e]
    have hc : ZeroNan (crossAbsSq (a'.sub p') (⟨.zero s, .zero t, .zero u⟩ : V3 (Flt f))) :=
      (((zeroNan_mul _ _).sub (zeroNan_mul _ _)).sq.add ((zeroNan_mul _ _).sub (zeroNan_mul _ _)).sq).add
        ((zeroNan_mul _ _).sub (zeroNan_mul _ _)).sq
    exact hc.div (((zeroNan_mul _ _).add (zeroNan_mul _ _)).add (zeroNan_mul _ _))

/-! ### The hypotheses can be met -/

/-- a point beside a segment, in `f64` -/
example (L : Libm b64) : ∃ d : ℚ, IsMinSqDist sqDist2 (⟨3, 4⟩ : V2 ℚ) (OnSegment2 ⟨0, 0⟩ ⟨7, 1⟩) d ∧
    |(distToLineSqSafe2 (ipt b64 0 0) (ipt b64 7 1) (ipt b64 3 4)).val - d| ≤ 3 * (2 : ℚ) ^ (-(b64.prec : ℤ)) * d := by
  obtain ⟨a1, a2⟩ := onGrid_ipt goodGrid64 (k := 0) (l := 0) (by norm_num) (by norm_num)
  obtain ⟨b1, b2⟩ := onGrid_ipt goodGrid64 (k := 7) (l := 1) (by norm_num) (by norm_num)
  obtain ⟨c1, c2⟩ := onGrid_ipt goodGrid64 (k := 3) (l := 4) (by norm_num) (by norm_num)
  obtain ⟨d, h1, h2, h3, h4⟩ := C86_distance2 squareGrid64 (by norm_num) _ _ _ a1 b1 c1 (by rw [a2, b2]; simp)
  obtain ⟨d', h1', h2', h3', h4'⟩ := C86_distance2_safe squareGrid64 (by norm_num) _ _ _ a1 b1 c1
  rw [a2, b2, c2] at h1'
  exact ⟨d', by simpa using h1', h3'⟩

example (L : Libm b64) : (distToLineSqSafe3 (ipt3 b64 0 0 0) (ipt3 b64 7 1 2) (ipt3 b64 14 2 4)).val = 0 := by
  obtain ⟨a1, a2⟩ := onGrid3_ipt goodGrid64 (k := 0) (l := 0) (m := 0) (by norm_num) (by norm_num) (by norm_num)
  obtain ⟨b1, b2⟩ := onGrid3_ipt goodGrid64 (k := 7) (l := 1) (m := 2) (by norm_num) (by norm_num) (by norm_num)
  obtain ⟨c1, c2⟩ := onGrid3_ipt goodGrid64 (k := 14) (l := 2) (m := 4) (by norm_num) (by norm_num) (by norm_num)
  obtain ⟨d, h1, h2, h3, h4⟩ := C86_distance3_safe squareGrid64 (by norm_num) _ _ _ a1 b1 c1
  refine h4.2 ?_
  rw [a2, b2, c2]
  refine ⟨2, ?_⟩
  norm_num [lerp3]

/-- equal end points in `f64`, one of them with a negative zero -/
example (L : Libm b64) : distToLineSq2 (⟨.zero true, .zero false⟩ : V2 F64) ⟨.zero false, .zero false⟩ ⟨.inf true, .zero true⟩ = .nan :=
  (C86_equal_ends_nan (⟨.zero true, .zero false⟩ : V2 F64) ⟨.zero false, .zero false⟩ ⟨.inf true, .zero true⟩
    ⟨.zero true, .zero false, .zero true⟩ ⟨.zero true, .zero false, .zero true⟩ ⟨.zero true, .zero false, .zero true⟩
    ⟨rfl, rfl⟩ ⟨rfl, rfl⟩ rfl ⟨rfl, rfl, rfl⟩ ⟨rfl, rfl, rfl⟩ rfl).1

end Verif.Props
