import Verif.Model.Scalar
import Verif.Spec.Attr
import Mathlib.Algebra.Order.Field.Basic
import Mathlib.Algebra.Order.Floor.Defs
import Mathlib.Tactic.Linarith
import Mathlib.Tactic.Ring
import Mathlib.Tactic.LinearCombination
import Mathlib.Tactic.FieldSimp
import Mathlib.Tactic.Positivity

/-!
# Laws for scalars

The hypotheses under which the geometric theorems are stated.
-/

namespace Verif
open Scalar

/-- Layer 2: the comparisons, `min` and `max` come from a linear order and `ulps_eq` is reflexive.
This holds for IEEE floats as long as no NaN occurs (with `-0.0` and `0.0` identified). -/
class OrderedScalar (α : Type) [Scalar α] [LinearOrder α] : Prop where
  lt_iff : ∀ a b : α, Scalar.lt a b = true ↔ a < b
  le_iff : ∀ a b : α, Scalar.le a b = true ↔ a ≤ b
  beq_iff : ∀ a b : α, Scalar.beq a b = true ↔ a = b
  fmin_eq : ∀ a b : α, Scalar.fmin a b = min a b
  fmax_eq : ∀ a b : α, Scalar.fmax a b = max a b
  ulps_refl : ∀ a : α, Scalar.ulpsEq a a = true

/-- Layer 3, “exact arithmetic”: the operations are those of a linearly ordered field and
`ulps_eq` is equality. -/
class ExactScalar (K : Type) [Scalar K] [Field K] [LinearOrder K] : Prop
    extends OrderedScalar K, IsStrictOrderedRing K where
  zero_eq : (Scalar.zero : K) = 0
  one_eq : (Scalar.one : K) = 1
  two_eq : (Scalar.two : K) = 2
  add_eq : ∀ a b : K, Scalar.add a b = a + b
  sub_eq : ∀ a b : K, Scalar.sub a b = a - b
  mul_eq : ∀ a b : K, Scalar.mul a b = a * b
  div_eq : ∀ a b : K, Scalar.div a b = a / b
  neg_eq : ∀ a : K, Scalar.neg a = -a
  ulps_iff : ∀ a b : K, Scalar.ulpsEq a b = true ↔ a = b
  finite : ∀ a : K, Scalar.isFinite a = true
  signNeg_iff : ∀ a : K, Scalar.isSignNeg a = true ↔ a < 0
  ofUsize_eq : ∀ n : Nat, (Scalar.ofUsize n : K) = n
  /-- `ceil` is the least integer above, here stated for positive arguments -/
  ceil_eq : ∀ a : K, 0 < a → (Scalar.ceil a : K) = (Scalar.toUsize (Scalar.ceil a) : K)
  ceil_ge : ∀ a : K, 0 < a → a ≤ Scalar.ceil a
  ceil_lt : ∀ a : K, 0 < a → Scalar.ceil a < a + 1

/-- square root law: `sqrt a` is the non negative root of every `a ≥ 0`. -/
class ExactSqrt (K : Type) [Scalar K] [Field K] [LinearOrder K] : Prop where
  sqrt_nonneg : ∀ a : K, 0 ≤ Scalar.sqrt a
  sqrt_sq : ∀ a : K, 0 ≤ a → Scalar.sqrt a * Scalar.sqrt a = a

section
variable {α : Type} [Scalar α] [LinearOrder α] [OrderedScalar α]

theorem lt_false_iff (a b : α) : Scalar.lt a b = false ↔ b ≤ a := by
  rw [← Bool.not_eq_true, OrderedScalar.lt_iff, not_lt]
theorem le_false_iff (a b : α) : Scalar.le a b = false ↔ b < a := by
  rw [← Bool.not_eq_true, OrderedScalar.le_iff, not_le]
theorem lt_decide (a b : α) : Scalar.lt a b = decide (a < b) := by
  rw [Bool.eq_iff_iff, OrderedScalar.lt_iff, decide_eq_true_iff]
theorem le_decide (a b : α) : Scalar.le a b = decide (a ≤ b) := by
  rw [Bool.eq_iff_iff, OrderedScalar.le_iff, decide_eq_true_iff]
theorem gt_decide (a b : α) : Scalar.gt a b = decide (b < a) := lt_decide b a
theorem ge_decide (a b : α) : Scalar.ge a b = decide (b ≤ a) := le_decide b a
theorem beq_decide (a b : α) : Scalar.beq a b = decide (a = b) := by
  rw [Bool.eq_iff_iff, OrderedScalar.beq_iff, decide_eq_true_iff]
theorem pcmp_ordered (a b : α) : Scalar.pcmp a b = some (compare a b) := by
  unfold Scalar.pcmp
  rw [le_decide, ge_decide]
  rcases lt_trichotomy a b with h | h | h
  · simp [h.le, not_le.2 h, compare_lt_iff_lt.2 h]
  · subst h; simp
  · simp [h.le, not_le.2 h, compare_gt_iff_gt.2 h]
end

section
variable {K : Type} [Scalar K] [Field K] [LinearOrder K] [ExactScalar K]
theorem ulps_decide (a b : K) : Scalar.ulpsEq a b = decide (a = b) := by
  rw [Bool.eq_iff_iff, ExactScalar.ulps_iff, decide_eq_true_iff]
theorem finite_true (a : K) : Scalar.isFinite a = true := ExactScalar.finite a
theorem signNeg_decide (a : K) : Scalar.isSignNeg a = decide (a < 0) := by
  rw [Bool.eq_iff_iff, ExactScalar.signNeg_iff, decide_eq_true_iff]
end

attribute [ord_simp] lt_decide le_decide gt_decide ge_decide beq_decide pcmp_ordered
  OrderedScalar.fmin_eq OrderedScalar.fmax_eq OrderedScalar.ulps_refl Scalar.inRange
  decide_eq_true_eq decide_eq_false_iff_not Bool.and_eq_true Bool.or_eq_true not_lt not_le
  Bool.not_eq_true' Bool.false_eq_true if_false if_true
attribute [exact_simp] lt_decide le_decide gt_decide ge_decide beq_decide pcmp_ordered
  OrderedScalar.fmin_eq OrderedScalar.fmax_eq Scalar.inRange
  decide_eq_true_eq decide_eq_false_iff_not Bool.and_eq_true Bool.or_eq_true not_lt not_le
  Bool.not_eq_true' Bool.false_eq_true if_false if_true
  ExactScalar.zero_eq ExactScalar.one_eq ExactScalar.two_eq ExactScalar.add_eq ExactScalar.sub_eq
  ExactScalar.mul_eq ExactScalar.div_eq ExactScalar.neg_eq ulps_decide finite_true signNeg_decide
  ExactScalar.ofUsize_eq
  V2.add V2.sub V2.neg V2.smul V2.sdiv V2.dot V2.perpDot V2.magSq V2.distSq V2.beq V2.ulpsEq V2.zero
  V3.add V3.sub V3.smul V3.sdiv V3.dot V3.cross V3.magSq V3.distSq V3.beq V3.ulpsEq V3.zero

end Verif
