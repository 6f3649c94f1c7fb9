import Verif.Model.Dist
import Verif.Spec.Geom
import Verif.Spec.Laws
import Verif.Spec.Instances
/-!
# C16, C17: distance functions
-/
namespace Verif.Props.Dist
open Verif Verif.Model Verif.Spec
variable {K : Type} [Scalar K] [Field K] [LinearOrder K] [ExactScalar K]

theorem sq_pos_of_ne2 (a b : V2 K) (h : a ≠ b) :
    0 < (a.x - b.x) * (a.x - b.x) + (a.y - b.y) * (a.y - b.y) := by
  have : a.x - b.x ≠ 0 ∨ a.y - b.y ≠ 0 := by
    by_contra hc
    push Not at hc
    apply h
    cases a; cases b; simp only [V2.mk.injEq]
    exact ⟨sub_eq_zero.1 hc.1, sub_eq_zero.1 hc.2⟩
  rcases this with h | h
  · have := mul_self_pos.2 h; have := mul_self_nonneg (a.y - b.y); linarith
  · have := mul_self_pos.2 h; have := mul_self_nonneg (a.x - b.x); linarith

theorem sq_pos_of_ne3 (a b : V3 K) (h : a ≠ b) :
    0 < (a.x - b.x) * (a.x - b.x) + (a.y - b.y) * (a.y - b.y) + (a.z - b.z) * (a.z - b.z) := by
  have : a.x - b.x ≠ 0 ∨ a.y - b.y ≠ 0 ∨ a.z - b.z ≠ 0 := by
    by_contra hc
    push Not at hc
    apply h
    cases a; cases b; simp only [V3.mk.injEq]
    exact ⟨sub_eq_zero.1 hc.1, sub_eq_zero.1 hc.2.1, sub_eq_zero.1 hc.2.2⟩
  have h1 := mul_self_nonneg (a.x - b.x)
  have h2 := mul_self_nonneg (a.y - b.y)
  have h3 := mul_self_nonneg (a.z - b.z)
  rcases this with h | h | h
  · have := mul_self_pos.2 h; linarith
  · have := mul_self_pos.2 h; linarith
  · have := mul_self_pos.2 h; linarith

theorem ulps_iff2 (a b : V2 K) : V2.ulpsEq a b = true ↔ a = b := by
  cases a; cases b; simp [exact_simp]
theorem ulps_iff3 (a b : V3 K) : V3.ulpsEq a b = true ↔ a = b := by
  cases a; cases b; simp [exact_simp, and_assoc]

/-- C16: the 2D `distance_to_line_squared` of different end points is the minimum of the squared
distances to the points of the segment. -/
theorem C16_dist2_is_min (a b p : V2 K) (h : a ≠ b) :
    IsMinSqDist sqDist2 p (OnSegment2 a b) (distToLineSq2 a b p) := by
  have hm := sq_pos_of_ne2 a b h
  obtain ⟨m, hmdef⟩ : ∃ m, m = (a.x - b.x) * (a.x - b.x) + (a.y - b.y) * (a.y - b.y) := ⟨_, rfl⟩
  obtain ⟨s, hs⟩ : ∃ s, s = (a.x - p.x) * (a.x - b.x) + (a.y - p.y) * (a.y - b.y) := ⟨_, rfl⟩
  rw [← hmdef] at hm
  have key : ∀ t : K, sqDist2 p (lerp2 a b t) * m = ((a.x - p.x) * (a.y - b.y) - (a.y - p.y) * (a.x - b.x))^2
      + (s - t * m)^2 := by
    intro t; simp only [sqDist2, lerp2, hmdef, hs]; ring
  have hd : distToLineSq2 a b p = if s / m < 0 then (a.x - p.x) * (a.x - p.x) + (a.y - p.y) * (a.y - p.y)
      else if 1 < s / m then (b.x - p.x) * (b.x - p.x) + (b.y - p.y) * (b.y - p.y) else
      ((a.x - p.x) * (a.y - b.y) - (a.y - p.y) * (a.x - b.x)) *
      ((a.x - p.x) * (a.y - b.y) - (a.y - p.y) * (a.x - b.x)) / m := by
    simp only [distToLineSq2, exact_simp, hmdef, hs]
  have lem : ∀ (t v : K), v * m ≤ sqDist2 p (lerp2 a b t) * m → v ≤ sqDist2 p (lerp2 a b t) :=
    fun t v h => le_of_mul_le_mul_right h hm
  rw [hd]
  split_ifs with h1 h2
  · have hs0 : s < 0 := by rwa [div_lt_iff₀ hm, zero_mul] at h1
    refine ⟨⟨a, ⟨0, le_rfl, zero_le_one, by cases a; simp [lerp2]⟩, by simp only [sqDist2]; ring⟩, ?_⟩
    rintro q ⟨t, ht0, ht1, rfl⟩
    apply lem
    rw [key]
    have e : ((a.x - p.x) * (a.x - p.x) + (a.y - p.y) * (a.y - p.y)) * m =
      ((a.x - p.x) * (a.y - b.y) - (a.y - p.y) * (a.x - b.x))^2 + s^2 := by rw [hmdef, hs]; ring
    rw [e]
    have h3 : 0 ≤ t * m := mul_nonneg ht0 hm.le
    have h4 : (s - t * m)^2 - s^2 = (t * m) * (t * m - 2 * s) := by ring
    have h5 : 0 ≤ (t * m) * (t * m - 2 * s) := mul_nonneg h3 (by linarith)
    linarith
  · have hs0 : m < s := by rwa [lt_div_iff₀ hm, one_mul] at h2
    refine ⟨⟨b, ⟨1, zero_le_one, le_rfl, by cases a; cases b; simp [lerp2]⟩, by simp only [sqDist2]; ring⟩, ?_⟩
    rintro q ⟨t, ht0, ht1, rfl⟩
    apply lem
    rw [key]
    have e : ((b.x - p.x) * (b.x - p.x) + (b.y - p.y) * (b.y - p.y)) * m =
      ((a.x - p.x) * (a.y - b.y) - (a.y - p.y) * (a.x - b.x))^2 + (s - m)^2 := by rw [hmdef, hs]; ring
    rw [e]
    have h3 : 0 ≤ (1 - t) * m := mul_nonneg (by linarith) hm.le
    have h4 : (s - t * m)^2 - (s - m)^2 = ((1 - t) * m) * (2 * (s - m) + (1 - t) * m) := by ring
    have h5 : 0 ≤ ((1 - t) * m) * (2 * (s - m) + (1 - t) * m) :=
      mul_nonneg h3 (by linarith)
    linarith
  · push Not at h1 h2
    refine ⟨⟨lerp2 a b (s / m), ⟨s / m, h1, h2, rfl⟩, ?_⟩, ?_⟩
    · have := key (s / m)
      rw [div_mul_cancel₀ _ hm.ne', sub_self] at this
      rw [div_eq_iff hm.ne', this]; ring
    · rintro q ⟨t, ht0, ht1, rfl⟩
      apply lem
      rw [key, div_mul_cancel₀ _ hm.ne']
      have := sq_nonneg (s - t * m)
      rw [sq] at this ⊢; linarith

/-- C16: the safe version is the minimum of the squared distances for all end points. -/
theorem C16_dist2_safe_is_min (a b p : V2 K) :
    IsMinSqDist sqDist2 p (OnSegment2 a b) (distToLineSqSafe2 a b p) := by
  unfold distToLineSqSafe2
  split_ifs with h
  · rw [ulps_iff2] at h
    subst h
    have e : V2.distSq a p = sqDist2 p a := by simp only [exact_simp, sqDist2]; ring
    rw [e]
    refine ⟨⟨a, ⟨0, le_rfl, zero_le_one, by cases a; simp [lerp2]⟩, rfl⟩, ?_⟩
    rintro q ⟨t, -, -, rfl⟩
    simp [lerp2, sqDist2]
  · rw [ulps_iff2] at h
    exact C16_dist2_is_min a b p h

/-- C16: both versions agree if the end points differ. -/
theorem C16_safe_agrees (a b p : V2 K) (h : a ≠ b) :
    distToLineSqSafe2 a b p = distToLineSq2 a b p := by
  unfold distToLineSqSafe2
  rw [if_neg (by rw [ulps_iff2]; exact h)]

omit [Scalar K] [Field K] [ExactScalar K] in
theorem isMin_unique {P : Type} {sq : P → P → K} {p : P} {S : P → Prop} {v w : K}
    (hv : IsMinSqDist sq p S v) (hw : IsMinSqDist sq p S w) : v = w := by
  obtain ⟨⟨q, hq, e⟩, hv⟩ := hv
  obtain ⟨⟨r, hr, f⟩, hw⟩ := hw
  exact le_antisymm (f ▸ hv r hr) (e ▸ hw q hq)

omit [Scalar K] [ExactScalar K] in
theorem onSegment2_symm [IsStrictOrderedRing K] (a b q : V2 K) :
    OnSegment2 a b q ↔ OnSegment2 b a q := by
  have : ∀ a b : V2 K, OnSegment2 a b q → OnSegment2 b a q := by
    rintro a b ⟨t, h0, h1, rfl⟩
    refine ⟨1 - t, by linarith, by linarith, ?_⟩
    simp only [lerp2, V2.mk.injEq]
    constructor <;> ring
  exact ⟨this a b, this b a⟩

/-- C16: the distance does not depend on the direction of the line. -/
theorem C16_dist2_symm (a b p : V2 K) : distToLineSqSafe2 a b p = distToLineSqSafe2 b a p := by
  apply isMin_unique (C16_dist2_safe_is_min a b p)
  have := C16_dist2_safe_is_min b a p
  have e : OnSegment2 b a = OnSegment2 a b := by
    funext q; exact propext (onSegment2_symm b a q)
  rwa [e] at this

/-- C17: in 3D the distance is to the infinite line. -/
theorem C17_dist3_is_min (a b p : V3 K) (h : a ≠ b) :
    IsMinSqDist sqDist3 p (OnLine3 a b) (distToLineSq3 a b p) := by
  have hm := sq_pos_of_ne3 a b h
  obtain ⟨m, hmdef⟩ : ∃ m, m =
    (a.x - b.x) * (a.x - b.x) + (a.y - b.y) * (a.y - b.y) + (a.z - b.z) * (a.z - b.z) := ⟨_, rfl⟩
  obtain ⟨s, hs⟩ : ∃ s, s =
    (a.x - p.x) * (a.x - b.x) + (a.y - p.y) * (a.y - b.y) + (a.z - p.z) * (a.z - b.z) := ⟨_, rfl⟩
  rw [← hmdef] at hm
  have hd : distToLineSq3 a b p * m = sqDist3 p (lerp3 a b (s / m)) * m := by
    have e : s / m * m = s := div_mul_cancel₀ _ hm.ne'
    have k : ∀ t : K, sqDist3 p (lerp3 a b t) * m =
        sqDist3 p a * m - s^2 + (s - t * m)^2 := by
      intro t; simp only [sqDist3, lerp3, hmdef, hs]; ring
    rw [k, e]
    simp only [distToLineSq3, crossAbsSq, exact_simp]
    rw [← hmdef, div_mul_cancel₀ _ hm.ne']
    simp only [sqDist3, hmdef, hs]; ring
  refine ⟨⟨_, ⟨s / m, rfl⟩, mul_right_cancel₀ hm.ne' hd⟩, ?_⟩
  rintro q ⟨t, rfl⟩
  refine le_of_mul_le_mul_right ?_ hm
  rw [hd]
  have k : ∀ t : K, sqDist3 p (lerp3 a b t) * m =
      sqDist3 p a * m - s^2 + (s - t * m)^2 := by
    intro t; simp only [sqDist3, lerp3, hmdef, hs]; ring
  rw [k, k, div_mul_cancel₀ _ hm.ne']
  have := sq_nonneg (s - t * m)
  rw [sub_self]; linarith

/-- C17: the safe version for all end points. -/
theorem C17_dist3_safe_is_min (a b p : V3 K) :
    IsMinSqDist sqDist3 p (OnLine3 a b) (distToLineSqSafe3 a b p) := by
  unfold distToLineSqSafe3
  split_ifs with h
  · rw [ulps_iff3] at h
    subst h
    have e : V3.distSq a p = sqDist3 p a := by simp only [exact_simp, sqDist3]; ring
    rw [e]
    refine ⟨⟨a, ⟨0, by cases a; simp [lerp3]⟩, rfl⟩, ?_⟩
    rintro q ⟨t, rfl⟩
    simp [lerp3, sqDist3]
  · rw [ulps_iff3] at h
    exact C17_dist3_is_min a b p h

/-- The documentation of the 3D function speaks of “the line a->b”: unlike the 2D function it does
not measure the distance to the segment.  Witness: the point (5,0,0) has 3D distance 0 to the line
through (0,0,0) and (1,0,0), and the same configuration has 2D distance² 16. -/
theorem C17_3d_is_not_segment_distance :
    distToLineSqSafe3 (⟨0, 0, 0⟩ : V3 ℚ) ⟨1, 0, 0⟩ ⟨5, 0, 0⟩ = 0 ∧
    distToLineSqSafe2 (⟨0, 0⟩ : V2 ℚ) ⟨1, 0⟩ ⟨5, 0⟩ = 16 := by
  constructor <;> decide +kernel

/-- the hypothesis `a ≠ b` of C16/C17 is met by a non trivial case -/
example : (⟨0, 0⟩ : V2 ℚ) ≠ ⟨3, 1⟩ ∧ distToLineSq2 (⟨0, 0⟩ : V2 ℚ) ⟨3, 1⟩ ⟨1, 2⟩ = 5 / 2 := by
  constructor <;> decide +kernel

end Verif.Props.Dist
