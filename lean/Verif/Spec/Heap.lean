import Verif.Model.Scalar
import Verif.Spec.Simplify
/-!
# Priority queues with floating point keys (specification)
-/
namespace Verif.Spec
open Verif

/-- `S` is a set of numbers on which the comparisons are those of a total preorder; for IEEE floats: all
numbers but NaN. -/
structure TotalOn {α : Type} [Scalar α] (S : α → Prop) : Prop where
  total : ∀ a b, S a → S b → Scalar.le a b = true ∨ Scalar.le b a = true
  trans : ∀ a b c, S a → S b → S c → Scalar.le a b = true → Scalar.le b c = true → Scalar.le a c = true
  beq_le : ∀ a b, S a → S b → Scalar.beq a b = true → Scalar.le a b = true ∧ Scalar.le b a = true
  beq_refl : ∀ a, S a → Scalar.beq a a = true

/-- a heap gives out an entry with a least key -/
def PopsLeast {α : Type} [Scalar α] (S : α → Prop) (pick : Nat → List (α × Nat) → Nat) : Prop :=
  ∀ (t : Nat) (heap : List (α × Nat)), heap ≠ [] → (∀ e ∈ heap, S e.1) →
    ∃ e, heap[pick t heap]? = some e ∧ ∀ f ∈ heap, Scalar.le e.1 f.1 = true

end Verif.Spec
