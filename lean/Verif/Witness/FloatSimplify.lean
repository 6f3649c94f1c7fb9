import Verif.Props.SimplifyCurveFloat
import Verif.Props.Nested
import Verif.Props.FloatVw
import Verif.Props.ReverseMore
/-!
# The hypotheses of the theorems about simplification in floating point are met

Every theorem is applied to lines of doubles with small integer coordinates.
-/
namespace Verif.Witness
open Verif Verif.Spec Verif.Model Verif.Props Fl Flt Verif.Proofs.FloatHull Verif.Proofs.FloatIntersect Verif.Proofs.FloatSimplify

def fSpace : List (V3 F64) := [ipt3 b64 0 0 0, ipt3 b64 1 0 0, ipt3 b64 2 0 5, ipt3 b64 3 3 3, ipt3 b64 4 3 3]
theorem fSpace_grid : ∀ p ∈ fSpace, OnGrid3 0 (2 ^ 23) p := by
  intro p hp
  simp only [fSpace, List.mem_cons, List.not_mem_nil, or_false] at hp
  rcases hp with rfl | rfl | rfl | rfl | rfl <;> exact (onGrid3_ipt goodGrid64 (by norm_num) (by norm_num) (by norm_num)).1
def fClosed : List (V2 F64) := [ipt b64 0 0, ipt b64 4 0, ipt b64 5 1, ipt b64 4 4, ipt b64 0 4, ipt b64 0 0]
theorem fClosed_grid : ∀ p ∈ fClosed, OnGrid 0 (2 ^ 23) p := by
  intro p hp
  simp only [fClosed, List.mem_cons, List.not_mem_nil, or_false] at hp
  rcases hp with rfl | rfl | rfl | rfl | rfl | rfl <;> exact (onGrid_ipt goodGrid64 (by norm_num) (by norm_num)).1
theorem fClosed_closed : ∃ a b, fClosed.head? = some a ∧ fClosed.getLast? = some b ∧ exact a = exact b := ⟨_, _, rfl, rfl, rfl⟩
theorem vwLine64_open : ∀ a b, vwLine64.head? = some a → vwLine64.getLast? = some b → exact a ≠ exact b := by
  intro a b h1 h2
  simp only [vwLine64, List.head?_cons, Option.some.injEq] at h1
  simp only [vwLine64, List.getLast?_cons_cons, List.getLast?_singleton, Option.some.injEq] at h2
  subst h1 h2
  decide +kernel
theorem vwLine64_upto : ∀ p ∈ vwLine64, Upto2 (f := b64) 3 p := by
  have : ∀ p ∈ vwLine64, (p.x.isFin = true ∧ p.x.val ^ 2 ≤ 64) ∧ (p.y.isFin = true ∧ p.y.val ^ 2 ≤ 64) := by decide +kernel
  intro p hp
  obtain ⟨⟨h1, h2⟩, h3, h4⟩ := this p hp
  exact ⟨⟨h1, by rw [show (2 : ℚ) ^ (3 : ℤ) = 8 by norm_num]; exact abs_le_of_sq_le_sq (by linarith) (by norm_num)⟩,
    h3, by rw [show (2 : ℚ) ^ (3 : ℤ) = 8 by norm_num]; exact abs_le_of_sq_le_sq (by linarith) (by norm_num)⟩
theorem fClosed_upto : ∀ p ∈ fClosed, Upto2 (f := b64) 3 p := by
  have : ∀ p ∈ fClosed, (p.x.isFin = true ∧ p.x.val ^ 2 ≤ 64) ∧ (p.y.isFin = true ∧ p.y.val ^ 2 ≤ 64) := by decide +kernel
  intro p hp
  obtain ⟨⟨h1, h2⟩, h3, h4⟩ := this p hp
  exact ⟨⟨h1, by rw [show (2 : ℚ) ^ (3 : ℤ) = 8 by norm_num]; exact abs_le_of_sq_le_sq (by linarith) (by norm_num)⟩,
    h3, by rw [show (2 : ℚ) ^ (3 : ℤ) = 8 by norm_num]; exact abs_le_of_sq_le_sq (by linarith) (by norm_num)⟩
theorem fSpace_upto : ∀ p ∈ fSpace, Upto3 (f := b64) 3 p := by
  have : ∀ p ∈ fSpace, (p.x.isFin = true ∧ p.x.val ^ 2 ≤ 64) ∧ (p.y.isFin = true ∧ p.y.val ^ 2 ≤ 64) ∧
    (p.z.isFin = true ∧ p.z.val ^ 2 ≤ 64) := by decide +kernel
  intro p hp
  obtain ⟨⟨h1, h2⟩, ⟨h3, h4⟩, h5, h6⟩ := this p hp
  exact ⟨⟨h1, by rw [show (2 : ℚ) ^ (3 : ℤ) = 8 by norm_num]; exact abs_le_of_sq_le_sq (by linarith) (by norm_num)⟩,
    ⟨h3, by rw [show (2 : ℚ) ^ (3 : ℤ) = 8 by norm_num]; exact abs_le_of_sq_le_sq (by linarith) (by norm_num)⟩,
    h5, by rw [show (2 : ℚ) ^ (3 : ℤ) = 8 by norm_num]; exact abs_le_of_sq_le_sq (by linarith) (by norm_num)⟩

section
variable [Libm b64]
abbrev fLeast : Nat → List (F64 × Nat) → Nat := fun _ heap => leastPos heap
theorem fLeast_pops : PopsLeast (α := F64) NotNan fLeast := leastPos_pops (C81_floats_total b64)
example := C80_rdp2_is_textbook squareGrid64 (by norm_num) (ipt b64 0 3) [ipt b64 1 2, ipt b64 4 1] (ipt b64 0 0) rdpLine64_grid
  (Flt.ofQ false 1) (by decide +kernel)
example := C80_rdp3_is_textbook squareGrid64 (by norm_num) (ipt3 b64 0 0 0) [ipt3 b64 1 0 0, ipt3 b64 2 0 5, ipt3 b64 3 3 3] (ipt3 b64 4 3 3)
  fSpace_grid (Flt.ofQ false 1) (by decide +kernel)
example := C80_rdp3_error_bound squareGrid64 (by norm_num) fSpace (by simp [fSpace]) fSpace_grid (Flt.ofQ false 1) (by decide +kernel)
example := SimplifyCurve.C103_rdp2_curves_are_near_float squareGrid64 (by norm_num) rdpLine64 (by simp [rdpLine64]) rdpLine64_grid
  (Flt.ofQ false 1) (by decide +kernel)
example := SimplifyCurve.C103_rdp3_curves_are_near_float squareGrid64 (by norm_num) fSpace (by simp [fSpace]) fSpace_grid
  (Flt.ofQ false 1) (by decide +kernel)
example := C81_vw2_subsequence (m := 3) (by norm_num) (by decide) fLeast fLeast_pops vwLine64 vwLine64_upto 1 100 (by decide)
example := C81_vw2_open (m := 3) (by norm_num) (by decide) fLeast fLeast_pops vwLine64 vwLine64_upto (by decide) vwLine64_open 1 100 (by decide)
example := C81_vw2_closed (m := 3) (by norm_num) (by decide) fLeast fLeast_pops fClosed fClosed_upto (by decide) fClosed_closed 2 100 (by decide)
example := C81_vw3 (m := 3) (by norm_num) (by decide) fLeast fLeast_pops fSpace fSpace_upto (by decide) 2 100 (by decide)
example := C81_vw2_open_greedy squareGrid64 fLeast fLeast_pops vwLine64 vwLine64_grid (by decide) vwLine64_open 1 100 (by decide)
example := C81_vw2_closed_greedy squareGrid64 fLeast fLeast_pops fClosed fClosed_grid (by decide) fClosed_closed 2 100 (by decide)
example := C81_vw3_greedy squareGrid64 (by norm_num) fLeast fLeast_pops fSpace fSpace_grid (by decide) 2 100 (by decide)
theorem rdpLine64_dist : ∀ a ∈ rdpLine64, ∀ b ∈ rdpLine64, ∀ p ∈ rdpLine64, distToLineSqSafe2 a b p ≠ .nan := by
  intro a ha b hb p hp h
  obtain ⟨v, h1, -⟩ := Proofs.FloatSimplify.dist2_rel squareGrid64 (by norm_num) (rdpLine64_grid a ha)
    (rdpLine64_grid b hb) (rdpLine64_grid p hp)
  rw [h] at h1
  exact absurd h1.1 (by decide)
theorem fSpace_dist : ∀ a ∈ fSpace, ∀ b ∈ fSpace, ∀ p ∈ fSpace, distToLineSqSafe3 a b p ≠ .nan := by
  intro a ha b hb p hp h
  obtain ⟨v, h1, -⟩ := Proofs.FloatSimplify.dist3_rel squareGrid64 (by norm_num) (fSpace_grid a ha)
    (fSpace_grid b hb) (fSpace_grid p hp)
  rw [h] at h1
  exact absurd h1.1 (by decide)
end
section
local instance libmSimplify : Libm b64 := noAtan b64
theorem fTol : Scalar.le (Flt.abs (Flt.ofQ false 1 : F64)) (Flt.abs (Flt.ofQ false (-5))) = true := by decide +kernel
theorem fRdp1 : simplifyRdp2 rdpLine64 (Flt.ofQ false 1) = .ok [ipt b64 0 3, ipt b64 4 1, ipt b64 0 0] := by decide +kernel
theorem fRdp2 : simplifyRdp2 rdpLine64 (Flt.ofQ false (-5)) = .ok [ipt b64 0 3, ipt b64 0 0] := by decide +kernel
theorem fRdp3 : simplifyRdp3 fSpace (Flt.ofQ false 3) = .ok [ipt3 b64 0 0 0, ipt3 b64 2 0 5, ipt3 b64 4 3 3] := by decide +kernel
example := C80_rdp2_idempotent squareGrid64 (by norm_num) rdpLine64 _ rdpLine64_grid _ fRdp1
example := C80_rdp3_idempotent squareGrid64 (by norm_num) fSpace _ fSpace_grid _ fRdp3
example := (C90_rdp_nested_on_floats _ _ fTol).1 _ _ _ fRdp1 fRdp2
example := C90_rdp2_stages_on_floats _ _ fTol rdpLine64 _ rdpLine64_dist fRdp1
example := C90_rdp3_stages_on_floats (Flt.ofQ false 3) (Flt.ofQ false 5) (by decide +kernel) fSpace _ fSpace_dist fRdp3
end
end Verif.Witness
