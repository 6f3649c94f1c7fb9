import Verif.Spec.Float
/-!
# The map between two boxes, and grids for it

`SimpleAffine` (`src/linestring_2d.rs` 1453-1576) maps the centre of a source box to the centre of a destination box
and scales both axes by the same factor.
-/
namespace Verif.Spec
open Verif Verif.Model Fl Flt

/-- the larger side of the source box, at least 1 -/
def sourceSize (sl sh : V2 ℚ) : ℚ := max (max (sh.x - sl.x) 1) (max (sh.y - sl.y) 1)

/-- the smaller side of the destination box, where each side counts at least 1 -/
def destinationSize (dl dh : V2 ℚ) : ℚ := min (max (dh.x - dl.x) 1) (max (dh.y - dl.y) 1)

/-- the centre of a box -/
def centreOf (lo hi : V2 ℚ) : V2 ℚ := ⟨(lo.x + hi.x) / 2, (lo.y + hi.y) / 2⟩

/-- the image of `p`: scaled about the centre of the source box, and moved to the centre of the destination box -/
def affineImage (sl sh dl dh p : V2 ℚ) : V2 ℚ :=
  ⟨(centreOf dl dh).x + (p.x - (centreOf sl sh).x) * (destinationSize dl dh / sourceSize sl sh),
   (centreOf dl dh).y + (p.y - (centreOf sl sh).y) * (destinationSize dl dh / sourceSize sl sh)⟩

/-- the point with the image `q` -/
def affinePreimage (sl sh dl dh q : V2 ℚ) : V2 ℚ :=
  ⟨(centreOf sl sh).x + (q.x - (centreOf dl dh).x) * (sourceSize sl sh / destinationSize dl dh),
   (centreOf sl sh).y + (q.y - (centreOf dl dh).y) * (sourceSize sl sh / destinationSize dl dh)⟩

/-- A good grid on which the quotient of two sizes is not subnormal. -/
structure AffineGrid (f : Fmt) (s B : ℤ) : Prop extends GoodGrid f s B where
  wide : f.emin + 2 * f.prec + s ≤ 0
  half : f.emin + 1 ≤ s

/-- `f64`: integers up to 2^23 -/
theorem affineGrid64 : AffineGrid b64 0 (2 ^ 23) := ⟨goodGrid64, by norm_num [b64], by norm_num [b64]⟩
/-- `f64`: multiples of 2^-20 up to 8 -/
theorem affineGrid64_fine : AffineGrid b64 (-20) (2 ^ 23) := ⟨goodGrid64_fine, by norm_num [b64], by norm_num [b64]⟩
/-- `f32`: integers up to 511 -/
theorem affineGrid32 : AffineGrid b32 0 511 := ⟨goodGrid32, by norm_num [b32], by norm_num [b32]⟩

/-- an upper bound of the sizes of all boxes on the grid -/
def extent (s B : ℤ) : ℚ := max 1 (2 * B * (2 : ℚ) ^ s)

end Verif.Spec
