import Verif.Model.Line2
/-!
# Axis aligned bounding boxes, planes, axis copies and `SimpleAffine`
-/
namespace Verif.Model
open Verif Scalar
variable {α : Type} [Scalar α]

/-- `src/linestring_3d.rs` 155-158 `Line3` -/
structure Line3 (α : Type) where
  start : V3 α
  «end» : V3 α
deriving DecidableEq, Repr

/-- `src/linestring_2d.rs` 1163-1168 `Aabb2`; `none` if nothing has been assigned yet -/
structure Aabb2 (α : Type) where
  minMax : Option (V2 α × V2 α)
deriving DecidableEq, Repr

/-- `src/linestring_3d.rs` 203-205 `Aabb3` -/
structure Aabb3 (α : Type) where
  minMax : Option (V3 α × V3 α)
deriving DecidableEq, Repr

namespace Aabb2

/-- `src/linestring_2d/impls.rs` `Default for Aabb2` -/
def default : Aabb2 α := ⟨none⟩

/-- `src/linestring_2d.rs` 1172-1176 `Aabb2::new` -/
def new (point : V2 α) : Aabb2 α := ⟨some (point, point)⟩

/-- the four `set_x`/`set_y` lines of `src/linestring_2d.rs` 1202-1205 and 1219-1222 -/
def step (b : V2 α × V2 α) (p : V2 α) : V2 α × V2 α :=
  (⟨fmin b.1.x p.x, fmin b.1.y p.y⟩, ⟨fmax b.2.x p.x, fmax b.2.y p.y⟩)

/-- `src/linestring_2d.rs` 1196-1207 `update_with_point` -/
def updateWithPoint (b : Aabb2 α) (p : V2 α) : Aabb2 α :=
  match b.minMax with
  | none => ⟨some (p, p)⟩
  | some mm => ⟨some (step mm p)⟩

/-- `src/linestring_2d.rs` 1210-1225 `update_with_points` -/
def updateWithPoints (b : Aabb2 α) (points : List (V2 α)) : Aabb2 α :=
  match points with
  | [] => b
  | p :: _ =>
    let b := if b.minMax.isNone then b.updateWithPoint p else b
    match b.minMax with
    | none => b
    | some mm => ⟨some (points.foldl step mm)⟩

/-- `src/linestring_2d.rs` 1179-1185 `with_points` -/
def withPoints (points : List (V2 α)) : Aabb2 α :=
  if points.isEmpty then ⟨none⟩ else updateWithPoints ⟨none⟩ points

/-- `src/linestring_2d.rs` 1188-1193 `update_with_aabb` -/
def updateWithAabb (b other : Aabb2 α) : Aabb2 α :=
  match other.minMax with
  | none => b
  | some (mi, ma) => (b.updateWithPoint mi).updateWithPoint ma

/-- `src/linestring_2d/impls.rs` 260-268 `From<IntoIterator<Item = &T>> for Aabb2` -/
def fromIter (points : List (V2 α)) : Aabb2 α := points.foldl updateWithPoint default

/-- `src/linestring_2d.rs` 1228-1233 `high` -/
def high (b : Aabb2 α) : Option (V2 α) := b.minMax.map (·.2)
/-- `src/linestring_2d.rs` 1236-1241 `low` -/
def low (b : Aabb2 α) : Option (V2 α) := b.minMax.map (·.1)

/-- `src/linestring_2d.rs` 1244-1252 `extents` -/
def extents (b : Aabb2 α) : Option (V2 α × V2 α × V2 α) :=
  b.minMax.map (fun (l, h) => (l, h, ⟨h.x -. l.x, h.y -. l.y⟩))

/-- `src/linestring_2d.rs` 1260-1268 `center` -/
def center (b : Aabb2 α) : Option (V2 α) :=
  b.minMax.map (fun (l, h) => ⟨(l.x +. h.x) /. two, (l.y +. h.y) /. two⟩)

/-- `src/linestring_2d.rs` 1303-1308 `contains_point_inclusive_` -/
def containsPoint_ (b : V2 α × V2 α) (p : V2 α) : Bool :=
  (b.1.x <. p.x || ulpsEq b.1.x p.x) && (b.1.y <. p.y || ulpsEq b.1.y p.y)
    && (b.2.x >. p.x || ulpsEq b.2.x p.x) && (b.2.y >. p.y || ulpsEq b.2.y p.y)

/-- `src/linestring_2d.rs` 1294-1299 `contains_point_inclusive` -/
def containsPoint (b : Aabb2 α) (p : V2 α) : Bool :=
  match b.minMax with
  | some mm => containsPoint_ mm p
  | none => false

/-- `src/linestring_2d.rs` 1272-1280 `contains_aabb_inclusive` -/
def containsAabb (b other : Aabb2 α) : Bool :=
  match b.minMax, other.minMax with
  | some mm, some o => containsPoint_ mm o.1 && containsPoint_ mm o.2
  | _, _ => false

/-- `src/linestring_2d.rs` 1284-1290 `contains_line_inclusive` -/
def containsLine (b : Aabb2 α) (l : Line2 α) : Bool :=
  match b.minMax with
  | some mm => containsPoint_ mm l.start && containsPoint_ mm l.end
  | none => false

/-- `src/linestring_2d.rs` 1314-1329 `convex_hull` -/
def convexHull (b : Aabb2 α) : Option (List (V2 α)) :=
  b.minMax.map (fun (mi, ma) =>
    [⟨mi.x, mi.y⟩, ⟨ma.x, mi.y⟩, ⟨ma.x, ma.y⟩, ⟨mi.x, ma.y⟩, ⟨mi.x, mi.y⟩])

/-- `src/linestring_2d/impls.rs` 102-117 `From<Aabb2<T>> for Vec<T>` -/
def toVec (b : Aabb2 α) : List (V2 α) :=
  match b.minMax with
  | some (mi, ma) => [mi, ⟨ma.x, mi.y⟩, ma, ⟨mi.x, ma.y⟩, mi]
  | none => []

/-- `src/linestring_2d.rs` 1332-1339 `apply` -/
def apply (b : Aabb2 α) (f : V2 α → V2 α) : Aabb2 α := ⟨b.minMax.map (fun (l, h) => (f l, f h))⟩

/-- `src/linestring_2d/impls.rs` 119-131 `PartialEq for Aabb2` -/
def eq (a b : Aabb2 α) : Bool :=
  match a.minMax, b.minMax with
  | some s, some o => ulpsEq s.1.x o.1.x && ulpsEq s.2.x o.2.x && ulpsEq s.1.y o.1.y
      && ulpsEq s.2.y o.2.y
  | none, none => true
  | _, _ => false

end Aabb2

namespace Aabb3

/-- `src/linestring_3d/impls.rs` 51-55 `Default for Aabb3` -/
def default : Aabb3 α := ⟨none⟩

/-- the `set_*` lines of `src/linestring_3d.rs` 226-231 (used by `update_with_points`) -/
def step (b : V3 α × V3 α) (p : V3 α) : V3 α × V3 α :=
  (⟨fmin b.1.x p.x, fmin b.1.y p.y, fmin b.1.z p.z⟩,
   ⟨fmax b.2.x p.x, fmax b.2.y p.y, fmax b.2.z p.z⟩)

/-- the `if` statements of `src/linestring_3d.rs` 310-327 (used by `update_with_point`) -/
def stepIf (b : V3 α × V3 α) (p : V3 α) : V3 α × V3 α :=
  (⟨if p.x <. b.1.x then p.x else b.1.x, if p.y <. b.1.y then p.y else b.1.y,
    if p.z <. b.1.z then p.z else b.1.z⟩,
   ⟨if p.x >. b.2.x then p.x else b.2.x, if p.y >. b.2.y then p.y else b.2.y,
    if p.z >. b.2.z then p.z else b.2.z⟩)

/-- `src/linestring_3d.rs` 301-327 `update_with_point` -/
def updateWithPoint (b : Aabb3 α) (p : V3 α) : Aabb3 α :=
  match b.minMax with
  | none => ⟨some (p, p)⟩
  | some mm => ⟨some (stepIf mm p)⟩

/-- `src/linestring_3d.rs` 218-235 `update_with_points` -/
def updateWithPoints (b : Aabb3 α) (points : List (V3 α)) : Aabb3 α :=
  match points with
  | [] => b
  | p :: _ =>
    let b := if b.minMax.isNone then b.updateWithPoint p else b
    match b.minMax with
    | none => b
    | some mm => ⟨some (points.foldl step mm)⟩

/-- `src/linestring_3d.rs` 209-215 `with_points` -/
def withPoints (points : List (V3 α)) : Aabb3 α :=
  if points.isEmpty then ⟨none⟩ else updateWithPoints ⟨none⟩ points

/-- `src/linestring_3d.rs` 294-299 `update_with_aabb` -/
def updateWithAabb (b other : Aabb3 α) : Aabb3 α :=
  match other.minMax with
  | none => b
  | some (mi, ma) => (b.updateWithPoint mi).updateWithPoint ma

/-- `src/linestring_3d.rs` 329-334 `get_high` -/
def high (b : Aabb3 α) : Option (V3 α) := b.minMax.map (·.2)
/-- `src/linestring_3d.rs` 336-341 `get_low` -/
def low (b : Aabb3 α) : Option (V3 α) := b.minMax.map (·.1)

/-- `src/linestring_3d.rs` 344-353 `extents` -/
def extents (b : Aabb3 α) : Option (V3 α × V3 α × V3 α) :=
  b.minMax.map (fun (l, h) => (l, h, ⟨h.x -. l.x, h.y -. l.y, h.z -. l.z⟩))

/-- `src/linestring_3d.rs` 238-243 `center` -/
def center (b : Aabb3 α) : Option (V3 α) := b.minMax.map (fun (l, h) => (l.add h).sdiv two)

/-- `src/linestring_3d.rs` 278-285 `contains_point_inclusive_` -/
def containsPoint_ (b : V3 α × V3 α) (p : V3 α) : Bool :=
  (b.1.x <. p.x || ulpsEq b.1.x p.x) && (b.1.y <. p.y || ulpsEq b.1.y p.y)
    && (b.1.z <. p.z || ulpsEq b.1.z p.z)
    && (b.2.x >. p.x || ulpsEq b.2.x p.x) && (b.2.y >. p.y || ulpsEq b.2.y p.y)
    && (b.2.z >. p.z || ulpsEq b.2.z p.z)

/-- `src/linestring_3d.rs` 247-253 `contains_point_inclusive` -/
def containsPoint (b : Aabb3 α) (p : V3 α) : Bool :=
  match b.minMax with
  | some mm => containsPoint_ mm p
  | none => false

/-- `src/linestring_3d.rs` 257-265 `contains_aabb_inclusive` -/
def containsAabb (b other : Aabb3 α) : Bool :=
  match b.minMax, other.minMax with
  | some mm, some o => containsPoint_ mm o.1 && containsPoint_ mm o.2
  | _, _ => false

/-- `src/linestring_3d.rs` 269-275 `contains_line_inclusive` -/
def containsLine (b : Aabb3 α) (l : Line3 α) : Bool :=
  match b.minMax with
  | some mm => containsPoint_ mm l.start && containsPoint_ mm l.end
  | none => false

/-- `src/linestring_3d.rs` 288-292 `apply` -/
def apply (b : Aabb3 α) (f : V3 α → V3 α) : Aabb3 α := ⟨b.minMax.map (fun (l, h) => (f l, f h))⟩

end Aabb3

/-! ### planes -/

/-- `src/linestring_3d.rs` 60-66 `Plane` -/
inductive Plane where
  | xy | xz | yz
deriving DecidableEq, Repr

namespace Plane

/-- `src/linestring_3d.rs` 92-120 `get_plane_relaxed`; `flat d` is
`ZERO.ulps_eq(&d, epsilon, max_ulps)` for the given tolerances -/
def getPlaneRelaxed (flat : α → Bool) (b : Aabb3 α) : Option Plane :=
  match b.low, b.high with
  | some lo, some hi =>
    let dx := hi.x -. lo.x
    let dy := hi.y -. lo.y
    let dz := hi.z -. lo.z
    let maxDelta := fmax (fmax dx dy) dz
    let fx := flat (dx /. maxDelta)
    let fy := flat (dy /. maxDelta)
    let fz := flat (dz /. maxDelta)
    if fx && !fy && !fz then some .yz
    else if fy && !fx && !fz then some .xz
    else if fz && !fx && !fy then some .xy
    else none
  | _, _ => none

/-- `src/linestring_3d.rs` 77-83 `get_plane` -/
def getPlane (b : Aabb3 α) : Option Plane := getPlaneRelaxed (fun d => ulpsEq zero d) b

/-- `src/linestring_3d.rs` 129-135 `point_to_3d` -/
def pointTo3d (pl : Plane) (p : V2 α) : V3 α :=
  match pl with
  | .xy => ⟨p.x, p.y, zero⟩
  | .xz => ⟨p.x, zero, p.y⟩
  | .yz => ⟨zero, p.x, p.y⟩

/-- `src/linestring_3d.rs` 144-150 `point_to_2d` -/
def pointTo2d (pl : Plane) (p : V3 α) : V2 α :=
  match pl with
  | .xy => ⟨p.x, p.y⟩
  | .xz => ⟨p.x, p.z⟩
  | .yz => ⟨p.y, p.z⟩

end Plane

/-- `src/linestring_3d.rs` 192-197 `Line3::copy_to_2d` -/
def Line3.copyTo2d (l : Line3 α) (pl : Plane) : Line2 α := ⟨pl.pointTo2d l.start, pl.pointTo2d l.end⟩

/-- `src/linestring_2d.rs` 391-396 `Line2::copy_to_3d` -/
def Line2.copyTo3d (l : Line2 α) (pl : Plane) : Line3 α := ⟨pl.pointTo3d l.start, pl.pointTo3d l.end⟩

/-- `src/linestring_3d.rs` 453-468 `LineString3::copy_to_2d` (note the order `z, y` for `YZ`) -/
def copyTo2d (line : List (V3 α)) (pl : Plane) : List (V2 α) :=
  match pl with
  | .xy => line.map (fun p => ⟨p.x, p.y⟩)
  | .xz => line.map (fun p => ⟨p.x, p.z⟩)
  | .yz => line.map (fun p => ⟨p.z, p.y⟩)

/-- `src/linestring_2d.rs` 895-910 `LineString2::copy_to_3d` (note `0, y, x` for `YZ`) -/
def copyTo3d (line : List (V2 α)) (pl : Plane) : List (V3 α) :=
  match pl with
  | .xy => line.map (fun p => ⟨p.x, p.y, zero⟩)
  | .xz => line.map (fun p => ⟨p.x, zero, p.y⟩)
  | .yz => line.map (fun p => ⟨zero, p.y, p.x⟩)

/-! ### affine -/

/-- `src/linestring_2d.rs` 1453-1462 `SimpleAffine` (arrays of two scalars as vectors) -/
structure SimpleAffine (α : Type) where
  aOffset : V2 α
  scale : V2 α
  bOffset : V2 α
deriving DecidableEq, Repr

namespace SimpleAffine

/-- `src/linestring_2d.rs` 1465-1507 `new`; `none` for the error -/
def new (a b : Aabb2 α) : Option (SimpleAffine α) :=
  match a.low, a.high, b.low, b.high with
  | some sl, some sh, some dl, some dh =>
    let srcCenter : V2 α := ⟨-. (sl.x +. sh.x) /. two, -. (sl.y +. sh.y) /. two⟩
    let srcSize : V2 α := ⟨fmax (sh.x -. sl.x) one, fmax (sh.y -. sl.y) one⟩
    let dstCenter : V2 α := ⟨(dl.x +. dh.x) /. two, (dl.y +. dh.y) /. two⟩
    let dstSize : V2 α := ⟨fmax (dh.x -. dl.x) one, fmax (dh.y -. dl.y) one⟩
    let s := fmax srcSize.x srcSize.y
    let d := fmin dstSize.x dstSize.y
    let scale := d /. s
    some ⟨srcCenter, ⟨scale, scale⟩, dstCenter⟩
  | _, _, _, _ => none

/-- `src/linestring_2d.rs` 1512-1522 `transform_ba`; `none` for the error -/
def transformBa (t : SimpleAffine α) (p : V2 α) : Option (V2 α) :=
  let x := ((p.x -. t.bOffset.x) /. t.scale.x) -. t.aOffset.x
  let y := ((p.y -. t.bOffset.y) /. t.scale.y) -. t.aOffset.y
  if isFinite x && isFinite y then some ⟨x, y⟩ else none

/-- `src/linestring_2d.rs` 1527-1537 `transform_ab`; `none` for the error -/
def transformAb (t : SimpleAffine α) (p : V2 α) : Option (V2 α) :=
  let x := ((p.x +. t.aOffset.x) *. t.scale.x) +. t.bOffset.x
  let y := ((p.y +. t.aOffset.y) *. t.scale.y) +. t.bOffset.y
  if isFinite x && isFinite y then some ⟨x, y⟩ else none

/-- `src/linestring_2d.rs` 1541-1556 `transform_ba_a`; the four-value array is a pair of points -/
def transformBaA (t : SimpleAffine α) (p : V2 α × V2 α) : Option (V2 α × V2 α) :=
  let x1 := ((p.1.x -. t.bOffset.x) /. t.scale.x) -. t.aOffset.x
  let y1 := ((p.1.y -. t.bOffset.y) /. t.scale.y) -. t.aOffset.y
  let x2 := ((p.2.x -. t.bOffset.x) /. t.scale.x) -. t.aOffset.x
  let y2 := ((p.2.y -. t.bOffset.y) /. t.scale.y) -. t.aOffset.y
  if isFinite x1 && isFinite y1 && isFinite x2 && isFinite y2 then some (⟨x1, y1⟩, ⟨x2, y2⟩)
  else none

/-- `src/linestring_2d.rs` 1560-1576 `transform_ab_a` -/
def transformAbA (t : SimpleAffine α) (p : V2 α × V2 α) : Option (V2 α × V2 α) :=
  let x1 := ((p.1.x +. t.aOffset.x) *. t.scale.x) +. t.bOffset.x
  let y1 := ((p.1.y +. t.aOffset.y) *. t.scale.y) +. t.bOffset.y
  let x2 := ((p.2.x +. t.aOffset.x) *. t.scale.x) +. t.bOffset.x
  let y2 := ((p.2.y +. t.aOffset.y) *. t.scale.y) +. t.bOffset.y
  if isFinite x1 && isFinite y1 && isFinite x2 && isFinite y2 then some (⟨x1, y1⟩, ⟨x2, y2⟩)
  else none

end SimpleAffine

end Verif.Model
