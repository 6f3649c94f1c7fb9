import Verif.Model.Vw
import Verif.Model.Rdp
import Verif.Model.Dist
import Verif.Spec.Instances
import Verif.Props.Vw

/-!
# The project's own tests of the simplifications, run on the model

`/repo/tests/tests.rs`, with exact rational arithmetic instead of floats.  These are checks of the model against the code,
not proofs of properties.
-/

namespace Verif.Golden
open Verif Model Props

/-- number of points of a result -/
def count {A : Type} (r : Except Err (List A)) : Option Nat :=
  match r with
  | .ok l => some l.length
  | .error _ => none

/-- Visvalingam–Whyatt, least area popped first -/
def vw2 (l : List (V2 ℚ)) (n : Nat) : Except Err (List (V2 ℚ)) := simplifyVw2 (fun _ heap => leastPos heap) 100 l n
def vw3 (l : List (V3 ℚ)) (n : Nat) : Except Err (List (V3 ℚ)) := simplifyVw3 (fun _ heap => leastPos heap) 100 l n

/-- the closed line of tests.rs 346-354 and others -/
def loop7 : List (V2 ℚ) := [⟨77, 613⟩, ⟨689, 650⟩, ⟨710, 467⟩, ⟨220, 200⟩, ⟨120, 300⟩, ⟨100, 100⟩, ⟨77, 613⟩]
def loop7' : List (V3 ℚ) := loop7.map (fun p => ⟨p.x, p.y, 0⟩)

/-- tests.rs 324-345, `simplify_1` (number of points instead of number of segments) -/
example : count (simplifyRdp2 ([⟨10, 10⟩, ⟨13, 11⟩, ⟨20, 10⟩] : List (V2 ℚ)) 10) = some 2 ∧
    count (simplifyRdp2 ([⟨10, 10⟩, ⟨13, 11⟩, ⟨20, 10⟩] : List (V2 ℚ)) (1 / 10)) = some 3 ∧
    count (simplifyRdp2 ([⟨10, 10⟩, ⟨20, 10⟩] : List (V2 ℚ)) (1 / 10)) = some 2 ∧
    count (simplifyRdp2 ([⟨10, 10⟩, ⟨15, 12⟩, ⟨17, 13⟩, ⟨20, 10⟩] : List (V2 ℚ)) (11 / 10)) = some 3 := by decide +kernel

/-- tests.rs 346-375, `simplify_1` and `simplify_2`: 6 segments, 6 different points -/
example : count (simplifyRdp2 loop7 1) = some 7 ∧
    (simplifyRdp2 loop7 1).toOption.map pointCount2 = some 6 := by decide +kernel

/-- tests.rs 377-390, `simplify_3` -/
example : count (simplifyRdp3 loop7' 1) = some 7 ∧ count (vw3 loop7' 1) = some 5 := by decide +kernel

/-- tests.rs 392-409, `simplify_4` -/
example : count (indexedSimplifyRdp2 ([⟨0, 3⟩, ⟨1, 2⟩, ⟨4, 1⟩, ⟨0, 0⟩] : List (V2 ℚ)) [0, 1, 2, 3] 1) = some 3 ∧
    count (simplifyRdp2 ([⟨0, 3⟩, ⟨1, 2⟩, ⟨4, 1⟩, ⟨0, 0⟩] : List (V2 ℚ)) 1) = some 3 ∧
    count (vw2 [⟨0, 3⟩, ⟨1, 2⟩, ⟨4, 1⟩, ⟨0, 0⟩] 1) = some 4 := by decide +kernel

/-- tests.rs 411-429, `simplify_5` -/
example : count (indexedSimplifyRdp3 ([⟨0, 3, 0⟩, ⟨1, 2, 0⟩, ⟨4, 1, 0⟩, ⟨0, 0, 0⟩] : List (V3 ℚ)) [0, 1, 2, 3] 1) = some 3 ∧
    count (simplifyRdp3 ([⟨0, 3, 0⟩, ⟨1, 2, 0⟩, ⟨4, 1, 0⟩, ⟨0, 0, 0⟩] : List (V3 ℚ)) 1) = some 3 ∧
    count (vw3 [⟨0, 3, 0⟩, ⟨1, 2, 0⟩, ⟨4, 1, 0⟩, ⟨0, 0, 0⟩] 1) = some 2 := by decide +kernel

/-- tests.rs 431-439, `simplify_7` -/
example : count (indexedSimplifyRdp3 ([⟨0, 3, 0⟩, ⟨1, 2, 0⟩] : List (V3 ℚ)) [0, 1] 1000) = some 2 ∧
    count (simplifyRdp3 ([⟨0, 3, 0⟩, ⟨1, 2, 0⟩] : List (V3 ℚ)) 1000) = some 2 ∧
    count (vw3 [⟨0, 3, 0⟩, ⟨1, 2, 0⟩] 1000) = some 2 := by decide +kernel

/-- tests.rs `simplify_vw_1`, `simplify_vw_2`, `simplify_vw_3`, `simplify_6` -/
example : count (vw2 loop7 4) = some 3 ∧
    count (vw2 [⟨0, 0⟩, ⟨100, 0⟩, ⟨99, 99⟩, ⟨100, 100⟩, ⟨101, 101⟩, ⟨0, 100⟩, ⟨0, 0⟩] 2) = some 5 ∧
    count (vw2 [⟨0, 0⟩, ⟨100, 0⟩, ⟨100, 100⟩, ⟨0, 100⟩, ⟨10, 11⟩, ⟨1, 12⟩, ⟨3, 1⟩, ⟨0, 0⟩] 5) = some 3 ∧
    count (vw2 [⟨0, 0⟩, ⟨100, 0⟩] 5) = some 2 ∧
    count (simplifyRdp2 ([⟨0, 0⟩, ⟨100, 0⟩] : List (V2 ℚ)) 5) = some 2 := by decide +kernel

/-- tests.rs `distance_to_line_squared_01` -/
example : distToLineSq2 (⟨0, 0⟩ : V2 ℚ) ⟨1, 0⟩ ⟨-2, 0⟩ = 4 ∧ distToLineSq2 (⟨0, 0⟩ : V2 ℚ) ⟨1, 0⟩ ⟨4, 0⟩ = 9 ∧
    distToLineSq2 (⟨0, 0⟩ : V2 ℚ) ⟨1, 0⟩ ⟨1 / 2, 2⟩ = 4 ∧ distToLineSq2 (⟨0, 0⟩ : V2 ℚ) ⟨1, 0⟩ ⟨1 / 2, -2⟩ = 4 := by
  decide +kernel

end Verif.Golden
