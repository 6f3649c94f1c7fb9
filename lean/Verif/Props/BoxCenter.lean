import Verif.Props.BoxMore
/-!
# C65: the centre of a 3D box
-/
set_option linter.unusedSectionVars false
namespace Verif.Props.Aabb
open Verif Verif.Spec Verif.Model

variable {K : Type} [Scalar K] [Field K] [LinearOrder K] [ExactScalar K]

/-- a 3D box built from points has a low corner below its high corner -/
theorem proper_of_hist3 (h : Hist3 K) (hne : h.fed ≠ []) :
    ∃ lo hi, h.run.minMax = some (lo, hi) ∧ lo.x ≤ hi.x ∧ lo.y ≤ hi.y ∧ lo.z ≤ hi.z := by
  have hr := Verif.Props.Aabb.C30_box3_is_bounding_box h
  obtain ⟨⟨mm⟩, hmm⟩ : ∃ b, b = h.run := ⟨_, rfl⟩
  rw [← hmm] at hr ⊢
  cases mm with
  | none => exact absurd hr hne
  | some mm => exact ⟨mm.1, mm.2, rfl, (hr.1.2.2 _ hr.1.1).2, (hr.2.1.2.2 _ hr.2.1.1).2, (hr.2.2.2.2 _ hr.2.2.1).2⟩

/-- C65: the centre of a box built from points is inside the box (3D). -/
theorem C65_center_inside3 (h : Hist3 K) (c : V3 K) (e : h.run.center = some c) :
    h.run.containsPoint c = true := by
  have := ExactScalar.toIsStrictOrderedRing (K := K)
  rw [C32_contains_point3]
  by_cases hne : h.fed = []
  · have := (C30_box_exists_iff (Hist2.default (K := K)) h).2.2 hne
    simp [Aabb3.center, this] at e
  · obtain ⟨lo, hi, hm, hx, hy, hz⟩ := proper_of_hist3 h hne
    obtain ⟨-, -, -, c', ec, e1, e2, e3⟩ := (C65_accessors3 h.run).1 lo hi hm
    rw [e] at ec
    cases ec
    exact ⟨lo, hi, hm, by linarith, by linarith, by linarith, by linarith, by linarith, by linarith⟩

example : (Hist3.withPoints [(⟨0, 0, 0⟩ : V3 ℚ), ⟨4, 2, 6⟩]).run.center = some ⟨2, 1, 3⟩ := by decide +kernel

end Verif.Props.Aabb
