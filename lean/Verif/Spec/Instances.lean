import Verif.Spec.Laws
import Mathlib.Data.Rat.Sqrt
import Mathlib.Data.Rat.Floor
import Mathlib.Algebra.Order.Archimedean.Real.Basic
import Mathlib.Analysis.SpecialFunctions.Complex.Arg
import Mathlib.Analysis.Real.Sqrt

/-!
# Scalars satisfying the laws

* `ℚ` and `ℝ` are exact scalars (the latter with exact square roots).
* `FQ`, rationals with NaN and infinities, behaves like floats without rounding; it is used for
  witnesses about NaN.
-/

namespace Verif
open Scalar

/-- The scalar operations of a linearly ordered field with floor. -/
@[reducible] def fieldScalar (K : Type) [Field K] [LinearOrder K] [FloorRing K]
    (sqrt : K → K) (atan2 : K → K → K) : Scalar K where
  zero := 0
  one := 1
  two := 2
  inf := 0
  add a b := a + b
  sub a b := a - b
  mul a b := a * b
  div a b := a / b
  neg a := -a
  sqrt := sqrt
  ceil a := ⌈a⌉
  atan2 := atan2
  lt a b := decide (a < b)
  le a b := decide (a ≤ b)
  beq a b := decide (a = b)
  fmin a b := min a b
  fmax a b := max a b
  ulpsEq a b := decide (a = b)
  isFinite _ := true
  isSignNeg a := decide (a < 0)
  toUsize a := ⌊a⌋.toNat
  ofUsize n := n

theorem fieldScalar_exact (K : Type) [Field K] [LinearOrder K] [IsStrictOrderedRing K]
    [FloorRing K] (sqrt : K → K) (atan2 : K → K → K) :
    @ExactScalar K (fieldScalar K sqrt atan2) _ _ := by
  let _ := fieldScalar K sqrt atan2
  exact
    { lt_iff := fun a b => by simp [Scalar.lt]
      le_iff := fun a b => by simp [Scalar.le]
      beq_iff := fun a b => by simp [Scalar.beq]
      fmin_eq := fun _ _ => rfl
      fmax_eq := fun _ _ => rfl
      ulps_refl := fun a => by simp [Scalar.ulpsEq]
      zero_eq := rfl
      one_eq := rfl
      two_eq := rfl
      add_eq := fun _ _ => rfl
      sub_eq := fun _ _ => rfl
      mul_eq := fun _ _ => rfl
      div_eq := fun _ _ => rfl
      neg_eq := fun _ => rfl
      ulps_iff := fun a b => by simp [Scalar.ulpsEq]
      finite := fun _ => rfl
      signNeg_iff := fun a => by simp [Scalar.isSignNeg]
      ofUsize_eq := fun _ => rfl
      ceil_eq := fun a ha => by
        simp only [Scalar.ceil, Scalar.toUsize, Int.floor_intCast]
        have h : (0 : ℤ) ≤ ⌈a⌉ := Int.ceil_nonneg ha.le
        have h2 : ((⌈a⌉.toNat : ℤ) : K) = ((⌈a⌉ : ℤ) : K) := by rw [Int.toNat_of_nonneg h]
        exact h2.symm.trans (Int.cast_natCast _)
      ceil_ge := fun a _ => Int.le_ceil a
      ceil_lt := fun a _ => Int.ceil_lt_add_one a }

/-- A rational stand-in for `atan2`: the “diamond angle”, which orders directions in the same way
as the angle (it is *not* the angle; only its order is ever used). -/
def diamondAngle (y x : ℚ) : ℚ :=
  if x = 0 ∧ y = 0 then 0
  else
    let d := |x| + |y|
    if 0 ≤ x then y / d else if 0 ≤ y then 2 - y / d else -2 - y / d

instance ratScalar : Scalar ℚ := fieldScalar ℚ Rat.sqrt diamondAngle
instance : ExactScalar ℚ := fieldScalar_exact ℚ _ _

noncomputable instance realScalar : Scalar ℝ :=
  fieldScalar ℝ Real.sqrt (fun y x => Complex.arg ⟨x, y⟩)
instance : ExactScalar ℝ := fieldScalar_exact ℝ _ _
instance : ExactSqrt ℝ where
  sqrt_nonneg := Real.sqrt_nonneg
  sqrt_sq _ ha := Real.mul_self_sqrt ha

/-- Rationals with NaN and infinities: floats without rounding. -/
inductive FQ where
  | nan
  | ninf
  | fin (q : ℚ)
  | pinf
deriving DecidableEq

namespace FQ
/-- sign of a float: -1, 0, 1 -/
def sgn : FQ → Int
  | nan => 0
  | ninf => -1
  | pinf => 1
  | fin q => if q < 0 then -1 else if q = 0 then 0 else 1
/-- infinity of a sign, NaN for 0 -/
def infOf (s : Int) : FQ := if s < 0 then ninf else if s = 0 then nan else pinf
def add : FQ → FQ → FQ
  | fin a, fin b => fin (a + b)
  | nan, _ => nan
  | _, nan => nan
  | pinf, ninf => nan
  | ninf, pinf => nan
  | pinf, _ => pinf
  | _, pinf => pinf
  | ninf, _ => ninf
  | _, ninf => ninf
def neg : FQ → FQ
  | fin a => fin (-a)
  | nan => nan
  | pinf => ninf
  | ninf => pinf
def mul : FQ → FQ → FQ
  | fin a, fin b => fin (a * b)
  | nan, _ => nan
  | _, nan => nan
  | a, b => infOf (a.sgn * b.sgn)
def div : FQ → FQ → FQ
  | fin a, fin b => if b = 0 then infOf ((fin a).sgn) else fin (a / b)
  | nan, _ => nan
  | _, nan => nan
  | fin _, _ => fin 0
  | a, fin b => if b < 0 then neg a else a
  | _, _ => nan
def lt : FQ → FQ → Bool
  | nan, _ => false
  | _, nan => false
  | fin a, fin b => decide (a < b)
  | ninf, ninf => false
  | ninf, _ => true
  | _, ninf => false
  | pinf, _ => false
  | _, pinf => true
def beq : FQ → FQ → Bool
  | nan, _ => false
  | a, b => decide (a = b)
end FQ

instance fqScalar : Scalar FQ where
  zero := .fin 0
  one := .fin 1
  two := .fin 2
  inf := .pinf
  add := FQ.add
  sub a b := FQ.add a (FQ.neg b)
  mul := FQ.mul
  div := FQ.div
  neg := FQ.neg
  sqrt a := match a with
    | .fin q => if q < 0 then .nan else .fin (Rat.sqrt q)
    | .ninf => .nan
    | a => a
  ceil a := match a with
    | .fin q => .fin ⌈q⌉
    | a => a
  atan2 y x := match y, x with
    | .fin y, .fin x => .fin (diamondAngle y x)
    | _, _ => .nan
  lt := FQ.lt
  le a b := FQ.lt a b || FQ.beq a b
  beq := FQ.beq
  fmin a b := match a, b with
    | .nan, b => b
    | a, .nan => a
    | a, b => if FQ.lt b a then b else a
  fmax a b := match a, b with
    | .nan, b => b
    | a, .nan => a
    | a, b => if FQ.lt a b then b else a
  ulpsEq := FQ.beq
  isFinite a := match a with
    | .fin _ => true
    | _ => false
  isSignNeg a := match a with
    | .fin q => decide (q < 0)
    | .ninf => true
    | _ => false
  toUsize a := match a with
    | .fin q => ⌊q⌋.toNat
    | _ => 0
  ofUsize n := .fin n

end Verif
