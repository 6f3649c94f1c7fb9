import Verif.Model.Scalar
/-!
# Point to line distances
-/
namespace Verif.Model
open Verif Scalar
variable {α : Type} [Scalar α]

/-- `src/linestring_2d.rs` 1415-1431 `distance_to_line_squared` -/
def distToLineSq2 (l0 l1 p : V2 α) : α :=
  let l0l1 := l0.sub l1
  let mag := l0l1.magSq
  let l0p := l0.sub p
  let dot := l0p.dot l0l1 /. mag
  if dot <. zero then l0p.magSq
  else if dot >. one then (l1.sub p).magSq
  else
    let c := l0p.perpDot l0l1
    c *. c /. mag

/-- `src/linestring_2d.rs` 1436-1447 `distance_to_line_squared_safe` -/
def distToLineSqSafe2 (l0 l1 p : V2 α) : α :=
  if l0.ulpsEq l1 then l0.distSq p else distToLineSq2 l0 l1 p

/-- `src/linestring_3d.rs` 613-618 `cross_abs_squared` -/
def crossAbsSq (a b : V3 α) : α :=
  let x := (a.y *. b.z) -. (a.z *. b.y)
  let y := (a.z *. b.x) -. (a.x *. b.z)
  let z := (a.x *. b.y) -. (a.y *. b.x)
  ((x *. x) +. (y *. y)) +. (z *. z)

/-- `src/linestring_3d.rs` 626-633 `distance_to_line_squared` -/
def distToLineSq3 (l0 l1 p : V3 α) : α :=
  let l0l1 := l0.sub l1
  let l0p := l0.sub p
  crossAbsSq l0p l0l1 /.
    (((l0l1.x *. l0l1.x) +. (l0l1.y *. l0l1.y)) +. (l0l1.z *. l0l1.z))

/-- `src/linestring_3d.rs` 637-654 `distance_to_line_squared_safe` (the body of
`distance_to_line_squared` is repeated there verbatim) -/
def distToLineSqSafe3 (l0 l1 p : V3 α) : α :=
  if l0.ulpsEq l1 then l0.distSq p else distToLineSq3 l0 l1 p

end Verif.Model
