import Verif.Props.VwRefineClosed
import Verif.Witness.FloatVwRefine
/-!
# The hypotheses of C115 for closed line strings are met
-/
namespace Verif.Witness
open Verif Verif.Spec Verif.Model Verif.Props Verif.Props.VwRefine Verif.Props.Discretize Fl Flt Verif.Proofs.FloatHull
  Verif.Proofs.FloatIntersect Verif.Proofs.FloatSimplify

def kite : List (V2 ℚ) := [⟨0, 0⟩, ⟨4, 0⟩, ⟨4, 4⟩, ⟨0, 2⟩, ⟨0, 0⟩]
def kiteFine : List (V2 ℚ) := [⟨0, 0⟩, ⟨2, 0⟩, ⟨4, 0⟩, ⟨4, 4⟩, ⟨2, 3⟩, ⟨0, 2⟩, ⟨0, 0⟩]
theorem kite_inserted : Inserted lerp2 kiteFine kite := by
  refine ⟨⟨0, 0⟩, ⟨4, 0⟩, _, _, rfl, rfl, ?_⟩
  have h3 : Onward lerp2 (⟨0, 2⟩ : V2 ℚ) ⟨0, 0⟩ 0 [⟨0, 0⟩] [] := .last _ _ _ (by norm_num)
  have h2 := Onward.inside (lerp := lerp2) (⟨4, 4⟩ : V2 ℚ) ⟨0, 2⟩ 0 (1 / 2) _ _ (by norm_num) (by norm_num) (.corner _ _ _ _ _ _ (by norm_num) h3)
  have h1 := Onward.inside (lerp := lerp2) (⟨0, 0⟩ : V2 ℚ) ⟨4, 0⟩ 0 (1 / 2) _ _ (by norm_num) (by norm_num)
    (.corner _ _ _ _ _ _ (by norm_num) (.corner _ _ _ _ _ _ (by norm_num) h2))
  simp only [lerp2] at h1
  norm_num at h1
  exact h1
theorem kite_turns : Turns orient 0 kite := by
  rintro (_ | _ | _ | i) a b c ha hb hc <;> simp [kite] at ha hb hc <;> subst ha <;> subst hb <;> subst hc <;>
    simp only [orient] <;> norm_num

example : simplifyVw2 (fun _ heap => leastPos heap) 100 kiteFine 3 = .ok [⟨0, 0⟩, ⟨4, 0⟩, ⟨4, 4⟩, ⟨0, 2⟩] :=
  C115_vw2_closed_undoes_insertion _ (leastPos_pops exact_total) kiteFine kite kite_inserted kite_turns (by decide) (by decide) 100 (by decide)
example := C115_vw2_closed_inserted_points_go_first _ (leastPos_pops exact_total) kiteFine kite kite_inserted kite_turns (by decide) 2 100
  (by decide) (by decide) (by decide)

def kiteR : List (V2 ℝ) := [⟨0, 0⟩, ⟨4, 0⟩, ⟨4, 4⟩, ⟨0, 2⟩, ⟨0, 0⟩]
example : ∃ out, Collects (discNext ops2) (discNew ops2 kiteR (1 / 2)) out ∧
    simplifyVw2 (fun _ heap => leastPos heap) (4 * out.length + 1) out (out.length + 1 - 5) = .ok [⟨0, 0⟩, ⟨4, 0⟩, ⟨4, 4⟩, ⟨0, 2⟩] := by
  obtain ⟨out, h, -⟩ := C26_always_ends (o := ops2) kiteR (1 / 2 : ℝ)
  refine ⟨out, h, C115_vw2_closed_undoes_discretize _ (leastPos_pops exact_total) kiteR out (1 / 2) (by norm_num) h ?_ rfl (by simp [kiteR]) _
    (by omega)⟩
  rintro (_ | _ | _ | i) a b c ha hb hc <;> simp [kiteR] at ha hb hc <;> subst ha <;> subst hb <;> subst hc <;>
    simp only [orient] <;> norm_num

def kite64 : List (V2 F64) := [ipt b64 0 0, ipt b64 2 0, ipt b64 4 0, ipt b64 4 4, ipt b64 2 3, ipt b64 0 2, ipt b64 0 0]
theorem kite64_grid : ∀ p ∈ kite64, OnGrid 0 (2 ^ 23) p := by
  intro p hp
  simp only [kite64, List.mem_cons, List.not_mem_nil, or_false] at hp
  rcases hp with rfl | rfl | rfl | rfl | rfl | rfl | rfl <;> exact (onGrid_ipt goodGrid64 (by norm_num) (by norm_num)).1
theorem kite64_exact : kite64.map exact = kiteFine := by
  have e : ∀ k l : ℤ, |k| ≤ 2 ^ 23 → |l| ≤ 2 ^ 23 → exact (ipt b64 k l) = ⟨(k : ℚ), (l : ℚ)⟩ := fun k l hk hl => by
    have := (onGrid_ipt goodGrid64 hk hl).2
    simpa using this
  simp only [kite64, kiteFine, List.map_cons, List.map_nil]
  rw [e, e, e, e, e, e] <;> norm_num
section
variable [Libm b64]
example := C115_vw2_closed_inserted_points_go_first_on_floats squareGrid64 fLeast fLeast_pops kite64 kite64_grid kite
  (kite64_exact ▸ kite_inserted) kite_turns (by decide) 2 100 (by decide) (by decide) (by decide)
example : ∃ out, simplifyVw2 fLeast 100 kite64 3 = .ok out ∧ out.map exact = [⟨0, 0⟩, ⟨4, 0⟩, ⟨4, 4⟩, ⟨0, 2⟩] :=
  C115_vw2_closed_undoes_insertion_on_floats squareGrid64 fLeast fLeast_pops kite64 kite64_grid kite
    (kite64_exact ▸ kite_inserted) kite_turns (by decide) (by decide) 100 (by decide)
end
end Verif.Witness
