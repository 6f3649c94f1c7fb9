import Verif.Model.Float
import Verif.Model.Line2
import Verif.Model.Aabb
import Verif.Model.Hull
/-!
# The `Debug` texts

`impl Debug` for `Line2`, `Line3`, `Aabb2`, `Intersection`, `VertexIndex`, `SiteEventKey`, and `format_float`.  The texts of numbers
that the standard library makes (`{}` and `{:.1}`) and the text of a single vector (`Debug` of the vector type, which
belongs to another crate) are parameters.  Formatter options (`{:#?}`, width) are not modelled.
-/
namespace Verif.Model
open Verif

/-- the standard library's `format!("{}", x)` and `format!("{:.1}", x)` -/
structure NumText (f : Fmt) where
  plain : Flt f → String
  one : Flt f → String

variable {f : Fmt}

/-- `.trunc()` of a float: towards zero (standard library) -/
def fltTrunc : Flt f → Flt f
  | .fin q _ => Flt.ofQ (decide (q < 0)) ((if q < 0 then q.ceil else q.floor : ℤ) : ℚ)
  | x => x

/-- `.fract()` of a float, `self - self.trunc()` (standard library) -/
def fltFract (x : Flt f) : Flt f := Flt.sub x (fltTrunc x)

/-- `src/lib.rs` 120-129 `format_float` -/
def formatFloat (T : NumText f) (x : Flt f) : String :=
  if Flt.beq (fltFract x) (.zero false) then T.one x else T.plain x

/-- `src/linestring_2d/impls.rs` 183-194 `Debug for Line2` -/
def debugLine2 (T : NumText f) (l : Line2 (Flt f)) : String :=
  "(" ++ formatFloat T l.start.x ++ "," ++ formatFloat T l.start.y ++ ")-(" ++
    formatFloat T l.end.x ++ "," ++ formatFloat T l.end.y ++ ")"

/-- `src/linestring_3d/impls.rs` 88-101 `Debug for Line3` -/
def debugLine3 (T : NumText f) (l : Line3 (Flt f)) : String :=
  "(" ++ formatFloat T l.start.x ++ "," ++ formatFloat T l.start.y ++ "," ++ formatFloat T l.start.z ++ ")-(" ++
    formatFloat T l.end.x ++ "," ++ formatFloat T l.end.y ++ "," ++ formatFloat T l.end.z ++ ")"

/-- `src/linestring_2d/impls.rs` 244-259 `Debug for Aabb2` -/
def debugAabb2 (T : NumText f) (b : Aabb2 (Flt f)) : String :=
  match b.minMax with
  | some (lo, hi) =>
    "Aabb2[(" ++ formatFloat T lo.x ++ "," ++ formatFloat T lo.y ++ ")-(" ++
      formatFloat T hi.x ++ "," ++ formatFloat T hi.y ++ ")]"
  | none => "Aabb2[None]"

/-- `src/linestring_2d/impls.rs` 135-142 `Debug for Intersection`; `vec` is the `Debug` text of the vector type -/
def debugIntersection (T : NumText f) (vec : V2 (Flt f) → String) : Intersection (Flt f) → String
  | .overlap l => debugLine2 T l
  | .point p => vec p

/-- `src/linestring_2d/convex_hull/impls.rs` 48-55 `Debug for VertexIndex` -/
def debugVertexIndex (v : VertexIndex) : String :=
  if v.fromA then toString v.index ++ "A" ++ toString v.indexIndex else toString v.index ++ "B" ++ toString v.indexIndex

/-- `src/linestring_2d/indexed_intersection.rs` 59-67 `Debug for SiteEventKey`; `num` is the `Debug` text of a number -/
def debugSiteEventKey (num : Flt f → String) (p : V2 (Flt f)) (index : Option Nat) : String :=
  "(" ++ num p.x ++ ", " ++ num p.y ++ ", " ++
    (match index with | some i => "Some(" ++ toString i ++ ")" | none => "None") ++ ")"

end Verif.Model
