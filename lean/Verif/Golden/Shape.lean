import Verif.Model.Shape

/-!
# The project's own tests of `divide_into_shapes`, run on the model

`/repo/src/shape/tests.rs` 3-133: the model gives the results the Rust tests assert (all ten of them).
These are checks of the model against the code, not proofs of properties.
-/

namespace Verif.Golden
open Verif.Shape

/-- the shapes of a result -/
def shapes (r : Except Err (List (List Nat) × List Bool)) : Option (List (List Nat)) :=
  match r with
  | .ok (s, _) => some s
  | .error _ => none

/-- tests.rs 3-24 -/
example : shapes (divideIntoShapes [0, 1, 1, 2, 2, 3, 3, 4, 4, 5, 5, 6, 6, 7, 7, 8, 8, 9, 9, 10, 10, 11, 11, 12, 12, 13, 13,
      14, 14, 15, 16, 17, 17, 18, 18, 19, 19, 20, 20, 21, 21, 22, 22, 23, 23, 24, 24, 25, 25, 26,
      26, 27, 27, 28, 28, 29, 29, 30, 30, 31, 31, 32, 32, 16, 15, 0]) =
    some [[0, 1, 2, 3, 4, 5, 6, 7, 8, 9, 10, 11, 12, 13, 14, 15, 0],
      [16, 17, 18, 19, 20, 21, 22, 23, 24, 25, 26, 27, 28, 29, 30, 31, 32, 16]] := by decide +kernel

/-- tests.rs 26-35 -/
example : shapes (divideIntoShapes [1, 2, 2, 5, 0, 2, 5, 4, 4, 3, 0, 3, 1, 6, 6, 7, 7, 3]) =
    some [[3, 7, 6, 1, 2], [3, 0, 2], [3, 4, 5, 2]] := by decide +kernel

/-- tests.rs 37-49 -/
example : shapes (divideIntoShapes [1, 2, 2, 5, 0, 2, 5, 4, 4, 3, 0, 3, 1, 6, 6, 7, 7, 3, 10, 11, 11, 12]) =
    some [[12, 11, 10], [3, 7, 6, 1, 2], [3, 0, 2], [3, 4, 5, 2]] := by decide +kernel

/-- tests.rs 51-63 -/
example : shapes (divideIntoShapes [1, 2, 2, 5, 0, 2, 5, 4, 4, 3, 0, 3, 1, 6, 6, 7, 7, 3, 10, 11, 11, 12, 12, 10]) =
    some [[3, 7, 6, 1, 2], [3, 0, 2], [3, 4, 5, 2], [10, 11, 12, 10]] := by decide +kernel

/-- tests.rs 65-73 -/
example : shapes (divideIntoShapes [1, 2, 2, 4, 1, 0, 0, 3, 4, 1, 1, 3]) =
    some [[1, 3, 0, 1], [1, 4, 2, 1]] := by decide +kernel

/-- tests.rs 75-84 -/
example : shapes (divideIntoShapes [1, 2, 2, 4, 1, 0, 0, 3, 4, 1, 1, 3, 11, 12, 12, 13]) =
    some [[13, 12, 11], [1, 3, 0, 1], [1, 4, 2, 1]] := by decide +kernel

/-- tests.rs 86-97 -/
example : shapes (divideIntoShapes [0, 1, 3, 5, 1, 3, 3, 4, 1, 2]) =
    some [[3, 4], [3, 5], [1, 2], [1, 3], [0, 1]] := by decide +kernel

/-- tests.rs 99-108 -/
example : shapes (divideIntoShapes [0, 1, 2, 3, 1, 4, 4, 5, 6, 7]) =
    some [[6, 7], [5, 4, 1, 0], [2, 3]] := by decide +kernel

/-- tests.rs 110-121 -/
example : shapes (divideIntoShapes [3, 0, 0, 1, 1, 2, 2, 3, 2, 0, 1, 4, 0, 4]) =
    some [[2, 3, 0], [1, 4, 0], [1, 2], [0, 2], [0, 1]] := by decide +kernel

/-- tests.rs 123-133: a duplicate edge -/
example : shapes (divideIntoShapes [3, 0, 0, 1, 0, 1, 1, 2, 2, 3, 2, 0, 1, 4, 0, 4]) =
    some [[2, 3, 0], [1, 4, 0], [1, 2], [0, 2], [0, 1]] := by decide +kernel

end Verif.Golden
