/-!
# Scalars and vectors

`Scalar α` is a *lawless* interface to the floating point type `T::Scalar` (f32/f64, `GenericScalar`
of vector-traits 0.x).  Nothing at all is assumed about the operations here: laws are separate
classes (`Verif.Spec.Laws`).
-/

namespace Verif

/-- Models `GenericScalar` (`vector_traits::GenericScalar`, used as `T::Scalar` throughout
`/repo/src`): the f32/f64 operations used by the crate.  Lawless. -/
class Scalar (α : Type) where
  /-- `T::Scalar::ZERO`, `T::Scalar::zero()` -/
  zero : α
  /-- `T::Scalar::ONE`, `T::Scalar::one()` -/
  one : α
  /-- `T::Scalar::TWO` -/
  two : α
  /-- `T::Scalar::INFINITY` / `infinity()` -/
  inf : α
  /-- `+` -/
  add : α → α → α
  /-- `-` -/
  sub : α → α → α
  /-- `*` -/
  mul : α → α → α
  /-- `/` -/
  div : α → α → α
  /-- unary `-` -/
  neg : α → α
  /-- `.sqrt()` -/
  sqrt : α → α
  /-- `.ceil()` -/
  ceil : α → α
  /-- `y.atan2(x)` is `atan2 y x` -/
  atan2 : α → α → α
  /-- `<` -/
  lt : α → α → Bool
  /-- `<=` -/
  le : α → α → Bool
  /-- `==` -/
  beq : α → α → Bool
  /-- `.min()` -/
  fmin : α → α → α
  /-- `.max()` -/
  fmax : α → α → α
  /-- `ulps_eq!(a, b)` with default epsilon and default max_ulps -/
  ulpsEq : α → α → Bool
  /-- `.is_finite()` -/
  isFinite : α → Bool
  /-- `.is_sign_negative()` -/
  isSignNeg : α → Bool
  /-- `as usize` of a float (`AsPrimitive<usize>`, saturating) -/
  toUsize : α → Nat
  /-- `as f32`/`as f64` of a usize -/
  ofUsize : Nat → α

namespace Scalar
scoped infixl:65 " +. " => Scalar.add
scoped infixl:65 " -. " => Scalar.sub
scoped infixl:70 " *. " => Scalar.mul
scoped infixl:70 " /. " => Scalar.div
scoped prefix:75 "-." => Scalar.neg
scoped infix:50 " <. " => Scalar.lt
scoped infix:50 " <=. " => Scalar.le
scoped infix:50 " ==. " => Scalar.beq

variable {α : Type} [Scalar α]

/-- `a > b` on floats is `b < a`. -/
def gt (a b : α) : Bool := lt b a
/-- `a >= b` on floats is `b <= a`. -/
def ge (a b : α) : Bool := le b a
scoped infix:50 " >. " => Scalar.gt
scoped infix:50 " >=. " => Scalar.ge

/-- `f64::partial_cmp` (core::cmp): `match (self <= other, self >= other)`. -/
def pcmp (a b : α) : Option Ordering :=
  match le a b, ge a b with
  | false, false => none
  | false, true => some .gt
  | true, false => some .lt
  | true, true => some .eq

/-- `(lo..=hi).contains(&x)` on floats. -/
def inRange (lo hi x : α) : Bool := le lo x && le x hi

end Scalar
open Scalar

/-- A 2D vector; models any `GenericVector2` implementation (glam::Vec2, DVec2, cgmath). -/
structure V2 (α : Type) where
  x : α
  y : α
deriving DecidableEq, Repr

/-- A 3D vector; models any `GenericVector3` implementation. -/
structure V3 (α : Type) where
  x : α
  y : α
  z : α
deriving DecidableEq, Repr

variable {α : Type} [Scalar α]

namespace V2
/-- vector `+`, componentwise (vector-traits) -/
def add (a b : V2 α) : V2 α := ⟨a.x +. b.x, a.y +. b.y⟩
/-- vector `-` and `.sub()`, componentwise (vector-traits) -/
def sub (a b : V2 α) : V2 α := ⟨a.x -. b.x, a.y -. b.y⟩
/-- unary `-` on a vector (vector-traits) -/
def neg (a : V2 α) : V2 α := ⟨-. a.x, -. a.y⟩
/-- `v * s` (vector-traits) -/
def smul (a : V2 α) (s : α) : V2 α := ⟨a.x *. s, a.y *. s⟩
/-- `v / s` (vector-traits) -/
def sdiv (a : V2 α) (s : α) : V2 α := ⟨a.x /. s, a.y /. s⟩
/-- `.dot()` (vector-traits) -/
def dot (a b : V2 α) : α := (a.x *. b.x) +. (a.y *. b.y)
/-- `.perp_dot()` (vector-traits): `x1*y2 - y1*x2` -/
def perpDot (a b : V2 α) : α := (a.x *. b.y) -. (a.y *. b.x)
/-- `.magnitude_sq()` (vector-traits) -/
def magSq (a : V2 α) : α := dot a a
/-- `.magnitude()` (vector-traits) -/
def mag (a : V2 α) : α := Scalar.sqrt (magSq a)
/-- `.distance_sq()` (vector-traits) -/
def distSq (a b : V2 α) : α := magSq (sub a b)
/-- `PartialEq` of vectors: componentwise `==` -/
def beq (a b : V2 α) : Bool := a.x ==. b.x && a.y ==. b.y
/-- `.is_ulps_eq(b, default_epsilon, default_max_ulps)`: componentwise -/
def ulpsEq (a b : V2 α) : Bool := Scalar.ulpsEq a.x b.x && Scalar.ulpsEq a.y b.y
/-- the zero vector -/
def zero : V2 α := ⟨Scalar.zero, Scalar.zero⟩
end V2

namespace V3
/-- vector `+`, componentwise (vector-traits) -/
def add (a b : V3 α) : V3 α := ⟨a.x +. b.x, a.y +. b.y, a.z +. b.z⟩
/-- vector `-` (vector-traits) -/
def sub (a b : V3 α) : V3 α := ⟨a.x -. b.x, a.y -. b.y, a.z -. b.z⟩
/-- `v * s` (vector-traits) -/
def smul (a : V3 α) (s : α) : V3 α := ⟨a.x *. s, a.y *. s, a.z *. s⟩
/-- `v / s` (vector-traits) -/
def sdiv (a : V3 α) (s : α) : V3 α := ⟨a.x /. s, a.y /. s, a.z /. s⟩
/-- `.dot()` (vector-traits) -/
def dot (a b : V3 α) : α := ((a.x *. b.x) +. (a.y *. b.y)) +. (a.z *. b.z)
/-- `.cross()` (vector-traits) -/
def cross (a b : V3 α) : V3 α :=
  ⟨(a.y *. b.z) -. (b.y *. a.z), (a.z *. b.x) -. (b.z *. a.x), (a.x *. b.y) -. (b.x *. a.y)⟩
/-- `.magnitude_sq()` (vector-traits) -/
def magSq (a : V3 α) : α := dot a a
/-- `.magnitude()` (vector-traits) -/
def mag (a : V3 α) : α := Scalar.sqrt (magSq a)
/-- `.distance_sq()` (vector-traits) -/
def distSq (a b : V3 α) : α := magSq (sub a b)
/-- `PartialEq` of vectors -/
def beq (a b : V3 α) : Bool := a.x ==. b.x && a.y ==. b.y && a.z ==. b.z
/-- `.is_ulps_eq(b, default_epsilon, default_max_ulps)`: componentwise -/
def ulpsEq (a b : V3 α) : Bool :=
  Scalar.ulpsEq a.x b.x && Scalar.ulpsEq a.y b.y && Scalar.ulpsEq a.z b.z
/-- the zero vector -/
def zero : V3 α := ⟨Scalar.zero, Scalar.zero, Scalar.zero⟩
end V3

end Verif
