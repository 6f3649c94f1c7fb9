import Verif.Model.Float
import Verif.Model.Line2
import Verif.Spec.Instances
import Verif.Spec.Intersect
/-!
# Floats and the points they stand for (specification)
-/
namespace Verif.Spec
open Verif
variable {f : Fmt}

/-- the point of the plane that a finite float point stands for -/
def exact (p : V2 (Flt f)) : V2 ℚ := ⟨p.x.val, p.y.val⟩

/-- the same in the real plane -/
noncomputable def exactR (p : V2 (Flt f)) : V2 ℝ := ⟨(p.x.val : ℝ), (p.y.val : ℝ)⟩

/-- `p` lies on the square grid with spacing `2^s`, within `B` steps of the origin.  (For `s = 0`: the
coordinates are integers of absolute value at most `B`.) -/
def OnGrid (s B : ℤ) (p : V2 (Flt f)) : Prop :=
  p.x.isFin = true ∧ p.y.isFin = true ∧
    ∃ k l : ℤ, p.x.val = k * (2 : ℚ) ^ s ∧ p.y.val = l * (2 : ℚ) ^ s ∧ |k| ≤ B ∧ |l| ≤ B

/-- A grid that is not too large (`8 * B^2` has three bits less than the precision), not too fine
(`2^(2s)` is above the absolute tolerance of `ulps_eq`) and does not overflow. -/
structure GoodGrid (f : Fmt) (s B : ℤ) : Prop where
  small : 8 * (B * B) < 2 ^ (f.prec - 3)
  coarse : 2 - (f.prec : ℤ) ≤ 2 * s
  fits : f.prec + 2 * s < f.emax

/-- `f64`: integers up to 2^23 -/
theorem goodGrid64 : GoodGrid b64 0 (2 ^ 23) := ⟨by norm_num [b64], by norm_num [b64], by norm_num [b64]⟩
/-- `f64`: multiples of 2^-20 up to 8 -/
theorem goodGrid64_fine : GoodGrid b64 (-20) (2 ^ 23) := ⟨by norm_num [b64], by norm_num [b64], by norm_num [b64]⟩
/-- `f32`: integers up to 511 -/
theorem goodGrid32 : GoodGrid b32 0 511 := ⟨by norm_num [b32], by norm_num [b32], by norm_num [b32]⟩

/-- the point of space that a finite float point stands for -/
def exact3 (p : V3 (Flt f)) : V3 ℚ := ⟨p.x.val, p.y.val, p.z.val⟩

/-- the same in space -/
def OnGrid3 (s B : ℤ) (p : V3 (Flt f)) : Prop :=
  p.x.isFin = true ∧ p.y.isFin = true ∧ p.z.isFin = true ∧
    ∃ k l m : ℤ, p.x.val = k * (2 : ℚ) ^ s ∧ p.y.val = l * (2 : ℚ) ^ s ∧ p.z.val = m * (2 : ℚ) ^ s ∧
      |k| ≤ B ∧ |l| ≤ B ∧ |m| ≤ B

/-- A good grid on which the squares of areas neither overflow nor become subnormal, not even when they are
divided by a squared length. -/
structure SquareGrid (f : Fmt) (s B : ℤ) : Prop extends GoodGrid f s B where
  high : 2 * f.prec + 4 * s ≤ f.emax
  high2 : 2 * f.prec + 2 * s ≤ f.emax
  low : f.emin + 2 * f.prec ≤ 2 * s

/-- `f64`: integers up to 2^23 -/
theorem squareGrid64 : SquareGrid b64 0 (2 ^ 23) := ⟨goodGrid64, by norm_num [b64], by norm_num [b64], by norm_num [b64]⟩
/-- `f64`: multiples of 2^-20 up to 8 -/
theorem squareGrid64_fine : SquareGrid b64 (-20) (2 ^ 23) := ⟨goodGrid64_fine, by norm_num [b64], by norm_num [b64], by norm_num [b64]⟩
/-- `f32`: integers up to 511 -/
theorem squareGrid32 : SquareGrid b32 0 511 := ⟨goodGrid32, by norm_num [b32], by norm_num [b32], by norm_num [b32]⟩

/-- the float point `p` is finite and its coordinates are within `δ` of those of `q` -/
def Within (δ : ℝ) (p : V2 (Flt f)) (q : V2 ℝ) : Prop :=
  p.x.isFin = true ∧ p.y.isFin = true ∧ |(exactR p).x - q.x| ≤ δ ∧ |(exactR p).y - q.y| ≤ δ

/-- The error bound of computed intersections: 32 times the largest coordinate times `2^-prec`.  (For integers
up to 2^23 in `f64` that is 2^-25, for integers up to 511 in `f32` it is less than 0.001.) -/
noncomputable def gridError (f : Fmt) (s B : ℤ) : ℝ := 32 * (B * 2 ^ s) * 2 ^ (-(f.prec : ℤ))

/-- `r` reports the points with the property `common` up to an error of `δ`: nothing if there is none, a point if
there is one, and the two ends if they form a segment -/
def ReportsWithin (δ : ℝ) (common : V2 ℝ → Prop) : Option (Model.Intersection (Flt f)) → Prop
  | none => ∀ x, ¬ common x
  | some (.point p) => ∃ q, Within δ p q ∧ ∀ x, common x ↔ x = q
  | some (.overlap o) => ∃ q0 q1, q0 ≠ q1 ∧ Within δ o.start q0 ∧ Within δ o.end q1 ∧ ∀ x, common x ↔ OnSegment2 q0 q1 x

/-- The line string and the segment lie on a small grid of unit at least one, or neither the segment nor an edge of
the line string is a point. -/
def SmallOrProper (s B : ℤ) (line : List (V2 (Flt f))) (c d : V2 (Flt f)) : Prop :=
  (0 ≤ s ∧ 1024 * B ^ 4 ≤ 2 ^ f.prec) ∨
    (exact c ≠ exact d ∧ ∀ i a b, line[i]? = some a → line[i + 1]? = some b → exact a ≠ exact b)

/-- `a` is left of `b` or straight below it (or the same point) -/
def LeftOrBelow (a b : V2 ℚ) : Prop := a.x < b.x ∨ a.x = b.x ∧ a.y ≤ b.y

/-- The computed angles are good enough for a grid: seen from a point of the grid, the computed
directions of two other points (not further left) compare like the true angles, and the computed
direction of a point from itself is not NaN. -/
structure AtanOk (f : Fmt) [Libm f] (s B : ℤ) : Prop where
  order : ∀ o p q : V2 (Flt f), OnGrid s B o → OnGrid s B p → OnGrid s B q →
    LeftOrBelow (exact o) (exact p) → LeftOrBelow (exact o) (exact q) → exact p ≠ exact o → exact q ≠ exact o →
    Scalar.pcmp (Scalar.atan2 (p.sub o).y (p.sub o).x) (Scalar.atan2 (q.sub o).y (q.sub o).x) =
      some (compare (Complex.arg ⟨((exact p).x - (exact o).x : ℚ), ((exact p).y - (exact o).y : ℚ)⟩)
        (Complex.arg ⟨((exact q).x - (exact o).x : ℚ), ((exact q).y - (exact o).y : ℚ)⟩))
  self : ∀ o p : V2 (Flt f), OnGrid s B o → OnGrid s B p → exact p = exact o →
    Scalar.atan2 (p.sub o).y (p.sub o).x ≠ Flt.nan

/-- An `atan2` with a small error that returns the same angle for parallel directions.  (For `f64` the
error may be `2^-51`, that is two units in the last place for angles between 1 and 2.) -/
structure GoodAtan (f : Fmt) [Libm f] : Prop where
  close : ∀ y x : Flt f, y.isFin = true → x.isFin = true → (0 < x.val ∨ x.val = 0 ∧ 0 < y.val) →
    (Libm.atan2 y x).isFin = true ∧
      |((Libm.atan2 y x).val : ℝ) - Complex.arg ⟨x.val, y.val⟩| ≤ (2 : ℝ) ^ (2 - (f.prec : ℤ))
  parallel : ∀ y x y' x' : Flt f, y.isFin = true → x.isFin = true → y'.isFin = true → x'.isFin = true →
    (0 < x.val ∨ x.val = 0 ∧ 0 < y.val) → (0 < x'.val ∨ x'.val = 0 ∧ 0 < y'.val) → x.val * y'.val = x'.val * y.val →
    (Libm.atan2 y x).val = (Libm.atan2 y' x').val
  self : ∀ a b : Bool, Libm.atan2 (.zero a) (.zero b) ≠ (Flt.nan : Flt f)

/-- the position of a float that is not NaN on the extended number line -/
def ekey {f : Fmt} : Flt f → WithBot (WithTop ℚ)
  | .inf true => ⊥
  | .inf false => ((⊤ : WithTop ℚ) : WithBot (WithTop ℚ))
  | a => ((a.val : WithTop ℚ) : WithBot (WithTop ℚ))

/-- `lo` and `hi` are the least and the greatest of the numbers in `xs`, not counting NaN; both are NaN if
there is nothing else.  (`xs` is not empty.) -/
def FloatRange (lo hi : Flt f) (xs : List (Flt f)) : Prop :=
  (xs ≠ [] ∧ lo = .nan ∧ hi = .nan ∧ ∀ x ∈ xs, x = .nan) ∨
  (lo ∈ xs ∧ hi ∈ xs ∧ lo ≠ .nan ∧ hi ≠ .nan ∧ ∀ x ∈ xs, x ≠ .nan → ekey lo ≤ ekey x ∧ ekey x ≤ ekey hi)

/-- The three point test of `is_self_intersecting` on floats (`Spec.ThreePoint`, the typo
`middle.y − start.x` included).  The slopes are `x / y`, so if both denominators are zero they are
infinities, which agree if they have the same sign. -/
def ThreePointFloat (s m e : V2 ℚ) : Prop :=
  ThreePoint s m e ∧ (m.y = s.x → m.y = e.y → m.x ≠ s.x → 0 < (m.x - s.x) * (m.x - e.x))

/-! ## discretize -/

/-- A grid and a distance for which `discretize` works as intended: the distance is not so small that a segment gets
more steps than the format or a `usize` can count, and neither the steps nor the quotient length/distance underflow. -/
structure StepGrid (f : Fmt) (s B : ℤ) (d : ℚ) : Prop extends GoodGrid f s B where
  low : f.emin + 2 * f.prec ≤ s
  pos : 0 < d
  few : 4 * B * (2 : ℚ) ^ s ≤ d * 2 ^ (min (f.prec - 2) 62)
  large : d ≤ (2 : ℚ) ^ (s - f.emin - f.prec)

/-- `n` is the least positive number with `length ≤ n·d`, up to the relative error `e` of the length -/
def StepCountWithin (e len d : ℝ) (n : ℕ) : Prop :=
  1 ≤ n ∧ (1 - e) * len ≤ n * d ∧ (n = 1 ∨ (n - 1) * d < (1 + e) * len)

/-- `DividedNear near count pts out`: `out` lists, for every segment `ab` of `pts`, a number `n` admissible for the
segment of points `x` with `near a b i n x` for `0 ≤ i < n`, and at the end the last point of `pts`. -/
inductive DividedNear {P : Type} (near : P → P → ℕ → ℕ → P → Prop) (count : P → P → ℕ → Prop) : List P → List P → Prop
  | last (p : P) : DividedNear near count [p] [p]
  | seg (a b : P) (rest xs out : List P) (hn : count a b xs.length)
      (hx : ∀ (i : ℕ) (x : P), xs[i]? = some x → near a b i xs.length x)
      (h : DividedNear near count (b :: rest) out) : DividedNear near count (a :: b :: rest) (xs ++ out)

/-- `exact3` in the real numbers -/
noncomputable def exactR3 (p : V3 (Flt f)) : V3 ℝ := ⟨p.x.val, p.y.val, p.z.val⟩

/-- the float point `p` is finite and its coordinates are within `δ` of those of `q` -/
def Within3 (δ : ℝ) (p : V3 (Flt f)) (q : V3 ℝ) : Prop :=
  (p.x.isFin = true ∧ p.y.isFin = true ∧ p.z.isFin = true) ∧
    |(exactR3 p).x - q.x| ≤ δ ∧ |(exactR3 p).y - q.y| ≤ δ ∧ |(exactR3 p).z - q.z| ≤ δ

/-- the error bound of the points of `discretize`: 6 times the largest coordinate times `2^-prec` -/
noncomputable def stepError (f : Fmt) (s B : ℤ) : ℝ := 6 * (B * 2 ^ s) * 2 ^ (-(f.prec : ℤ))

end Verif.Spec
