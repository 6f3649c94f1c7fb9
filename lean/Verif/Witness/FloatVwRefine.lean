import Verif.Props.FloatVwRefine
import Verif.Witness.VwRefine
import Verif.Witness.FloatSimplify
/-!
# The hypotheses of C115 in floating point are met
-/
namespace Verif.Witness
open Verif Verif.Spec Verif.Model Verif.Props Verif.Props.VwRefine Fl Flt Verif.Proofs.FloatHull Verif.Proofs.FloatIntersect
  Verif.Proofs.FloatSimplify

/-- `bendsFine` in doubles -/
def bendsFine64 : List (V2 F64) := [ipt b64 0 0, ipt b64 1 0, ipt b64 3 0, ipt b64 4 0, ipt b64 4 1, ipt b64 4 2, ipt b64 0 4]
theorem bendsFine64_grid : ∀ p ∈ bendsFine64, OnGrid 0 (2 ^ 23) p := by
  intro p hp
  simp only [bendsFine64, List.mem_cons, List.not_mem_nil, or_false] at hp
  rcases hp with rfl | rfl | rfl | rfl | rfl | rfl | rfl <;> exact (onGrid_ipt goodGrid64 (by norm_num) (by norm_num)).1
theorem bendsFine64_exact : bendsFine64.map exact = bendsFine := by
  have e : ∀ k l : ℤ, |k| ≤ 2 ^ 23 → |l| ≤ 2 ^ 23 → exact (ipt b64 k l) = ⟨(k : ℚ), (l : ℚ)⟩ := fun k l hk hl => by
    have := (onGrid_ipt goodGrid64 hk hl).2
    simpa using this
  simp only [bendsFine64, bendsFine, List.map_cons, List.map_nil]
  rw [e, e, e, e, e, e, e] <;> norm_num

/-- in space -/
def bendsI3 : List (V3 ℚ) := [⟨0, 0, 0⟩, ⟨4, 0, 2⟩, ⟨4, 2, 0⟩]
def bendsFine3F : List (V3 F64) := [ipt3 b64 0 0 0, ipt3 b64 2 0 1, ipt3 b64 4 0 2, ipt3 b64 4 1 1, ipt3 b64 4 2 0]
theorem bendsFine3F_grid : ∀ p ∈ bendsFine3F, OnGrid3 0 (2 ^ 23) p := by
  intro p hp
  simp only [bendsFine3F, List.mem_cons, List.not_mem_nil, or_false] at hp
  rcases hp with rfl | rfl | rfl | rfl | rfl <;> exact (onGrid3_ipt goodGrid64 (by norm_num) (by norm_num) (by norm_num)).1
theorem bendsFine3F_exact : bendsFine3F.map exact3 = [⟨0, 0, 0⟩, ⟨2, 0, 1⟩, ⟨4, 0, 2⟩, ⟨4, 1, 1⟩, ⟨4, 2, 0⟩] := by
  have e : ∀ k l m : ℤ, |k| ≤ 2 ^ 23 → |l| ≤ 2 ^ 23 → |m| ≤ 2 ^ 23 → exact3 (ipt3 b64 k l m) = ⟨(k : ℚ), (l : ℚ), (m : ℚ)⟩ :=
    fun k l m hk hl hm => by
      have := (onGrid3_ipt goodGrid64 hk hl hm).2
      simpa using this
  simp only [bendsFine3F, List.map_cons, List.map_nil]
  rw [e, e, e, e, e] <;> norm_num
theorem bendsI3_inserted : Inserted lerp3 (bendsFine3F.map exact3) bendsI3 := by
  rw [bendsFine3F_exact]
  refine ⟨⟨0, 0, 0⟩, ⟨4, 0, 2⟩, _, _, rfl, rfl, ?_⟩
  have h2 := Onward.inside (lerp := lerp3) (⟨4, 0, 2⟩ : V3 ℚ) ⟨4, 2, 0⟩ 0 (1 / 2) _ _ (by norm_num) (by norm_num) (.last _ _ _ (by norm_num))
  have h1 := Onward.inside (lerp := lerp3) (⟨0, 0, 0⟩ : V3 ℚ) ⟨4, 0, 2⟩ 0 (1 / 2) _ _ (by norm_num) (by norm_num)
    (.corner _ _ _ _ _ _ (by norm_num) h2)
  simp only [lerp3] at h1
  norm_num at h1
  simpa using h1
theorem bendsI3_turns : Turns heron 0 bendsI3 := by
  rintro (_ | i) a b c ha hb hc <;> simp [bendsI3] at ha hb hc <;> subst ha <;> subst hb <;> subst hc <;>
    simp only [heron, sqDist3] <;> norm_num

section
variable [Libm b64]
example := C115_vw2_inserted_points_go_first_on_floats squareGrid64 fLeast fLeast_pops bendsFine64 bendsFine64_grid bends
  (bendsFine64_exact ▸ bends_inserted) bends_turns (by decide) 2 100 (by decide) (by decide) (by decide)
example : ∃ out, simplifyVw2 fLeast 100 bendsFine64 3 = .ok out ∧ out.map exact = bends :=
  C115_vw2_undoes_insertion_on_floats squareGrid64 fLeast fLeast_pops bendsFine64 bendsFine64_grid bends
    (bendsFine64_exact ▸ bends_inserted) bends_turns (by decide) (by decide) 100 (by decide)
example := C115_vw3_inserted_points_go_first_on_floats squareGrid64 (by norm_num) fLeast fLeast_pops bendsFine3F bendsFine3F_grid bendsI3
  bendsI3_inserted bendsI3_turns (by decide) 1 100 (by decide) (by decide)
example : ∃ out, simplifyVw3 fLeast 100 bendsFine3F 2 = .ok out ∧ out.map exact3 = [⟨0, 0, 0⟩, ⟨4, 0, 2⟩] :=
  C115_vw3_undoes_insertion_on_floats squareGrid64 (by norm_num) fLeast fLeast_pops bendsFine3F bendsFine3F_grid bendsI3
    bendsI3_inserted bendsI3_turns (by decide) 100 (by decide)
end
end Verif.Witness
