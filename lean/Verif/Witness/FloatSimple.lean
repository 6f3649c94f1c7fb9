import Verif.Props.FloatSimple
/-!
# The hypotheses of C113 on floats are met
-/
namespace Verif.Witness
open Verif Verif.Spec Verif.Model Verif.Props Fl Flt Verif.Proofs.FloatHull

section
local instance noAtan2 : Libm b64 := ⟨fun _ _ => .nan⟩

def aheadFloats : List (V2 (Flt b64)) := [ipt b64 0 0, ipt b64 4 1, ipt b64 (-7) 3, ipt b64 1 5]

theorem aheadFloats_grid : ∀ v ∈ aheadFloats, OnGrid 0 1000 v := by
  intro v hv
  simp only [aheadFloats, List.mem_cons, List.not_mem_nil, or_false] at hv
  rcases hv with rfl | rfl | rfl | rfl <;> refine (onGrid_ipt C83_grid64.1 ?_ ?_).1 <;> norm_num

theorem aheadFloats_zero : ∀ v ∈ aheadFloats, v.y ≠ .zero true := by decide +kernel

theorem aheadFloats_exact : aheadFloats.map exact = [⟨0, 0⟩, ⟨4, 1⟩, ⟨-7, 3⟩, ⟨1, 5⟩] := by decide +kernel

theorem aheadFloats_ahead : Simple.MovesAhead ⟨0, 1⟩ (aheadFloats.map exact) := by
  rw [aheadFloats_exact]
  rintro (_ | _ | _ | i) p q hp hq <;> simp at hp hq <;> subst hp <;> subst hq <;> norm_num

/-- the theorem decides what the function returns: no three points meet the test -/
example : isSelfIntersectingShort aheadFloats ≠ some true := by
  rw [Ne, Simple.C113_short_line_strings_that_move_ahead_on_floats C83_grid64.1 (by norm_num) C83_grid64.2 aheadFloats_grid
    aheadFloats_zero (by decide) ⟨0, 1⟩ aheadFloats_ahead]
  rintro ⟨i, a, b, c, ha, hb, hc, h, -⟩
  have get : ∀ {k : Nat} {v : V2 (Flt b64)}, getElem? aheadFloats k = some v → getElem? (aheadFloats.map exact) k = some (exact v) := by
    intro k v hv; rw [List.getElem?_map, hv]; rfl
  replace ha := get ha
  replace hb := get hb
  replace hc := get hc
  rw [aheadFloats_exact] at ha hb hc
  revert ha hb hc h
  generalize exact a = a
  generalize exact b = b
  generalize exact c = c
  intro h ha hb hc
  rcases i with _ | _ | i <;> simp at ha hb hc <;> subst ha <;> subst hb <;> subst hc <;> norm_num [ThreePoint] at h

example := Simple.C113_short_line_strings_on_floats C83_grid64.1 (by norm_num) C83_grid64.2 aheadFloats_grid aheadFloats_zero (by decide)
  (by rw [Simple.exactR_cast]; exact (Simple.ahead_cast aheadFloats_ahead).endsOnly)

def boxFloats : List (V2 (Flt b64)) := [ipt b64 0 0, ipt b64 4 0, ipt b64 4 3, ipt b64 0 3, ipt b64 0 0]
theorem boxFloats_exact : boxFloats.map exact = BoxHull.rect ⟨0, 0⟩ ⟨4, 3⟩ := by decide +kernel
theorem boxFloats_grid : ∀ v ∈ boxFloats, OnGrid 0 1000 v := by
  intro v hv
  simp only [boxFloats, List.mem_cons, List.not_mem_nil, or_false] at hv
  rcases hv with rfl | rfl | rfl | rfl | rfl <;> refine (onGrid_ipt C83_grid64.1 ?_ ?_).1 <;> norm_num
example := Simple.C113_short_hulls_on_floats C83_grid64.1 (by norm_num) C83_grid64.2 boxFloats_grid (by decide +kernel) (by decide)
  _ (by rw [boxFloats_exact]; exact (BoxHull.rect_loop (⟨0, 0⟩ : V2 ℚ) ⟨4, 3⟩ (by norm_num) (by norm_num)).1) (by decide)
example := Simple.C113_box_on_floats C83_grid64.1 (by norm_num) C83_grid64.2 ⟨some (ipt b64 0 0, ipt b64 4 3)⟩ _ _ rfl
  (onGrid_ipt C83_grid64.1 (by norm_num) (by norm_num)).1 (onGrid_ipt C83_grid64.1 (by norm_num) (by norm_num)).1 (by decide +kernel) (by decide +kernel)
  (by decide +kernel) (by decide +kernel)
end

end Verif.Witness
