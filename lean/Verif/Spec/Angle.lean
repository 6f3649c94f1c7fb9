import Verif.Spec.Instances
/-!
# The law for `atan2`

The angle is only used to sort directions that point to the right (or straight up), see
`src/linestring_2d/convex_hull.rs` 641-659.
-/
namespace Verif

/-- `atan2` orders the directions of the right half plane (without straight down) counter clockwise. -/
class ExactAtan2 (K : Type) [Scalar K] [Field K] [LinearOrder K] : Prop where
  atan2_lt : ∀ x y x' y' : K, (0 < x ∨ x = 0 ∧ 0 < y) → (0 < x' ∨ x' = 0 ∧ 0 < y') →
    (Scalar.atan2 y x < Scalar.atan2 y' x' ↔ 0 < x * y' - y * x')

instance : ExactAtan2 ℚ where
  atan2_lt := by
    intro x y x' y' h h'
    show diamondAngle y x < diamondAngle y' x' ↔ _
    have key : ∀ x y : ℚ, (0 < x ∨ x = 0 ∧ 0 < y) → 0 ≤ x ∧ 0 < x + |y| ∧ diamondAngle y x = y / (x + |y|) := by
      intro x y h
      have hx : 0 ≤ x := by rcases h with h | ⟨h, -⟩ <;> linarith
      have hp : 0 < x + |y| := by
        rcases h with h | ⟨h, h'⟩
        · have := abs_nonneg y; linarith
        · have := abs_pos.2 h'.ne'; linarith
      refine ⟨hx, hp, ?_⟩
      have hne : ¬ (x = 0 ∧ y = 0) := by
        rintro ⟨rfl, rfl⟩
        simp at hp
      simp only [diamondAngle]
      rw [if_neg hne, if_pos hx, abs_of_nonneg hx]
    obtain ⟨hx, hd, e⟩ := key x y h
    obtain ⟨hx', hd', e'⟩ := key x' y' h'
    rw [e, e', div_lt_div_iff₀ hd hd']
    have hs : y * |y'| - y' * |y| = 0 ∨ (0 ≤ y ∧ y' ≤ 0) ∨ (y ≤ 0 ∧ 0 ≤ y') := by
      rcases le_total 0 y with a | a <;> rcases le_total 0 y' with b | b
      · left; rw [abs_of_nonneg a, abs_of_nonneg b]; ring
      · exact Or.inr (Or.inl ⟨a, b⟩)
      · exact Or.inr (Or.inr ⟨a, b⟩)
      · left; rw [abs_of_nonpos a, abs_of_nonpos b]; ring
    rcases hs with hs | ⟨a, b⟩ | ⟨a, b⟩
    · constructor <;> intro hh <;> nlinarith
    · rw [abs_of_nonneg a, abs_of_nonpos b]
      have h1 : 0 ≤ y * x' := mul_nonneg a hx'
      have h2 : y' * x ≤ 0 := mul_nonpos_of_nonpos_of_nonneg b hx
      have h3 : 0 ≤ y * -y' := mul_nonneg a (by linarith)
      constructor <;> intro hh <;> nlinarith
    · rw [abs_of_nonpos a, abs_of_nonneg b]
      have h1 : y * x' ≤ 0 := mul_nonpos_of_nonpos_of_nonneg a hx'
      have h2 : 0 ≤ y' * x := mul_nonneg b hx
      have h3 : y * y' ≤ 0 := mul_nonpos_of_nonpos_of_nonneg a b
      constructor
      · intro hh
        by_contra hcon
        have h4 : x * y' = 0 := by nlinarith
        have h5 : y * x' = 0 := by nlinarith
        rcases mul_eq_zero.1 h4 with e1 | e1
        · rcases h with h | ⟨-, h⟩ <;> linarith
        · rcases h' with h' | ⟨-, h'⟩
          · rcases mul_eq_zero.1 h5 with e2 | e2
            · rw [e1, e2] at hh; simp at hh
            · linarith
          · linarith
      · intro hh; nlinarith

open Complex in
instance : ExactAtan2 ℝ where
  atan2_lt := by
    intro x y x' y' h h'
    show Complex.arg ⟨x, y⟩ < Complex.arg ⟨x', y'⟩ ↔ _
    have key : ∀ x y : ℝ, (0 < x ∨ x = 0 ∧ 0 < y) → 0 < ‖(⟨x, y⟩ : ℂ)‖ ∧
        -(Real.pi / 2) < Complex.arg ⟨x, y⟩ ∧ Complex.arg ⟨x, y⟩ ≤ Real.pi / 2 := by
      intro x y h
      have hne : (⟨x, y⟩ : ℂ) ≠ 0 := by
        intro e
        have e1 := congrArg Complex.re e
        have e2 := congrArg Complex.im e
        simp only [Complex.zero_re, Complex.zero_im] at e1 e2
        rcases h with h | ⟨-, h⟩ <;> linarith
      refine ⟨norm_pos_iff.2 hne, ?_, ?_⟩
      · rcases h with h | ⟨rfl, h⟩
        · exact (abs_lt.1 (Complex.abs_arg_lt_pi_div_two_iff.2 (Or.inl h))).1
        · have : Complex.arg ⟨0, y⟩ = Real.pi / 2 := Complex.arg_eq_pi_div_two_iff.2 ⟨rfl, h⟩
          rw [this]
          have := Real.pi_pos
          linarith
      · refine (abs_le.1 (Complex.abs_arg_le_pi_div_two_iff.2 ?_)).2
        rcases h with h | ⟨h, -⟩
        · exact h.le
        · exact h.ge
    obtain ⟨hn, hl, hu⟩ := key x y h
    obtain ⟨hn', hl', hu'⟩ := key x' y' h'
    have hx : x = ‖(⟨x, y⟩ : ℂ)‖ * Real.cos (Complex.arg ⟨x, y⟩) := (Complex.norm_mul_cos_arg ⟨_, _⟩).symm
    have hy : y = ‖(⟨x, y⟩ : ℂ)‖ * Real.sin (Complex.arg ⟨x, y⟩) := (Complex.norm_mul_sin_arg ⟨_, _⟩).symm
    have hx' : x' = ‖(⟨x', y'⟩ : ℂ)‖ * Real.cos (Complex.arg ⟨x', y'⟩) := (Complex.norm_mul_cos_arg ⟨_, _⟩).symm
    have hy' : y' = ‖(⟨x', y'⟩ : ℂ)‖ * Real.sin (Complex.arg ⟨x', y'⟩) := (Complex.norm_mul_sin_arg ⟨_, _⟩).symm
    generalize ‖(⟨x, y⟩ : ℂ)‖ = r at *
    generalize ‖(⟨x', y'⟩ : ℂ)‖ = r' at *
    generalize Complex.arg ⟨x, y⟩ = A at *
    generalize Complex.arg ⟨x', y'⟩ = B at *
    have e : x * y' - y * x' = r * r' * Real.sin (B - A) := by
      rw [hx, hy, hx', hy', Real.sin_sub]; ring
    rw [e]
    have hpi := Real.pi_pos
    constructor
    · intro hab
      exact mul_pos (mul_pos hn hn') (Real.sin_pos_of_pos_of_lt_pi (by linarith) (by linarith))
    · intro hp
      have hs : 0 < Real.sin (B - A) := pos_of_mul_pos_right hp (mul_pos hn hn').le
      by_contra hcon
      have : Real.sin (B - A) ≤ 0 := by
        refine Real.sin_nonpos_of_nonpos_of_neg_pi_le (by linarith) (by linarith)
      linarith

end Verif
