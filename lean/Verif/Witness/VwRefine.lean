import Verif.Props.VwRefine
/-!
# The hypotheses of C115 are met, and what it excludes does happen
-/
namespace Verif.Witness
open Verif Verif.Spec Verif.Model Verif.Props Verif.Props.VwRefine Verif.Props.Discretize

/-- a line string with four corners -/
def bends : List (V2 ℚ) := [⟨0, 0⟩, ⟨4, 0⟩, ⟨4, 2⟩, ⟨0, 4⟩]
/-- three points inserted -/
def bendsFine : List (V2 ℚ) := [⟨0, 0⟩, ⟨1, 0⟩, ⟨3, 0⟩, ⟨4, 0⟩, ⟨4, 1⟩, ⟨4, 2⟩, ⟨0, 4⟩]

theorem bends_inserted : Inserted lerp2 bendsFine bends := by
  refine ⟨⟨0, 0⟩, ⟨4, 0⟩, _, _, rfl, rfl, ?_⟩
  have h3 : Onward lerp2 (⟨4, 2⟩ : V2 ℚ) ⟨0, 4⟩ 0 [⟨0, 4⟩] [] := .last _ _ _ (by norm_num)
  have h2 := Onward.inside (lerp := lerp2) (⟨4, 0⟩ : V2 ℚ) ⟨4, 2⟩ 0 (1 / 2) _ _ (by norm_num) (by norm_num) (.corner _ _ _ _ _ _ (by norm_num) h3)
  have h1 := Onward.inside (lerp := lerp2) (⟨0, 0⟩ : V2 ℚ) ⟨4, 0⟩ 0 (1 / 4) _ _ (by norm_num) (by norm_num)
    (.inside _ _ _ (3 / 4) _ _ (by norm_num) (by norm_num) (.corner _ _ _ _ _ _ (by norm_num) h2))
  simp only [lerp2] at h1
  norm_num at h1
  exact h1

theorem bends_turns : Turns orient 0 bends := by
  rintro (_ | _ | i) a b c ha hb hc <;> simp [bends] at ha hb hc <;> subst ha <;> subst hb <;> subst hc <;>
    simp only [orient] <;> norm_num

example : simplifyVw2 (fun _ heap => leastPos heap) 100 bendsFine 3 = .ok bends :=
  C115_vw2_undoes_insertion _ (leastPos_pops exact_total) bendsFine bends bends_inserted bends_turns (by decide) (by decide) 100 (by decide)
example := C115_vw2_inserted_points_go_first _ (leastPos_pops exact_total) bendsFine bends bends_inserted bends_turns (by decide) 2 100
  (by decide) (by decide) (by decide)

/-- discretized and back, in the real plane -/
def bendsR : List (V2 ℝ) := [⟨0, 0⟩, ⟨4, 0⟩, ⟨4, 2⟩, ⟨0, 4⟩]
example : ∃ out, Collects (discNext ops2) (discNew ops2 bendsR (1 / 2)) out ∧
    simplifyVw2 (fun _ heap => leastPos heap) (4 * out.length + 1) out (out.length - 4) = .ok bendsR := by
  obtain ⟨out, h, -⟩ := C26_always_ends (o := ops2) bendsR (1 / 2 : ℝ)
  refine ⟨out, h, C115_vw2_undoes_discretize _ (leastPos_pops exact_total) bendsR out (1 / 2) (by norm_num) h ?_ ?_ (by simp [bendsR]) _ (by omega)⟩
  · rintro (_ | _ | i) a b c ha hb hc <;> simp [bendsR] at ha hb hc <;> subst ha <;> subst hb <;> subst hc <;>
      simp only [orient] <;> norm_num
  · simp [bendsR]

/-- in space -/
def bends3 : List (V3 ℚ) := [⟨0, 0, 0⟩, ⟨4, 0, 1⟩, ⟨4, 2, 0⟩]
def bendsFine3 : List (V3 ℚ) := [⟨0, 0, 0⟩, ⟨2, 0, 1 / 2⟩, ⟨4, 0, 1⟩, ⟨4, 1, 1 / 2⟩, ⟨4, 2, 0⟩]
theorem bends3_inserted : Inserted lerp3 bendsFine3 bends3 := by
  refine ⟨⟨0, 0, 0⟩, ⟨4, 0, 1⟩, _, _, rfl, rfl, ?_⟩
  have h2 := Onward.inside (lerp := lerp3) (⟨4, 0, 1⟩ : V3 ℚ) ⟨4, 2, 0⟩ 0 (1 / 2) _ _ (by norm_num) (by norm_num) (.last _ _ _ (by norm_num))
  have h1 := Onward.inside (lerp := lerp3) (⟨0, 0, 0⟩ : V3 ℚ) ⟨4, 0, 1⟩ 0 (1 / 2) _ _ (by norm_num) (by norm_num)
    (.corner _ _ _ _ _ _ (by norm_num) h2)
  simp only [lerp3] at h1
  norm_num at h1
  simpa using h1
theorem bends3_turns : Turns heron 0 bends3 := by
  rintro (_ | i) a b c ha hb hc <;> simp [bends3] at ha hb hc <;> subst ha <;> subst hb <;> subst hc <;>
    simp only [heron, sqDist3] <;> norm_num
example : simplifyVw3 (fun _ heap => leastPos heap) 100 bendsFine3 2 = .ok [⟨0, 0, 0⟩, ⟨4, 0, 1⟩] :=
  C115_vw3_undoes_insertion _ (leastPos_pops exact_total) bendsFine3 bends3 bends3_inserted bends3_turns (by decide) 100 (by decide)
example := C115_vw3_inserted_points_go_first _ (leastPos_pops exact_total) bendsFine3 bends3 bends3_inserted bends3_turns (by decide) 1 100
  (by decide) (by decide)
def bendsR3 : List (V3 ℝ) := [⟨0, 0, 0⟩, ⟨4, 0, 1⟩, ⟨4, 2, 0⟩]
example : ∃ out, Collects (discNext ops3) (discNew ops3 bendsR3 (1 / 2)) out ∧
    simplifyVw3 (fun _ heap => leastPos heap) (4 * out.length + 1) out (out.length - 3) = .ok [⟨0, 0, 0⟩, ⟨4, 0, 1⟩] := by
  obtain ⟨out, h, -⟩ := C26_always_ends (o := ops3) bendsR3 (1 / 2 : ℝ)
  refine ⟨out, h, C115_vw3_undoes_discretize _ (leastPos_pops exact_total) bendsR3 out (1 / 2) (by norm_num) h ?_ (by simp [bendsR3]) _ (by omega)⟩
  rintro (_ | i) a b c ha hb hc <;> simp [bendsR3] at ha hb hc <;> subst ha <;> subst hb <;> subst hc <;>
    simp only [heron, sqDist3] <;> norm_num
end Verif.Witness
