import Verif.Props.SweepDirection
/-!
# C59: lines that end inside of other lines: the hypotheses can be met
-/
namespace Verif.Props
open Verif Verif.Spec Verif.Model Verif.Sweep Verif.Proofs.Intersect

/-- the second line ends inside the first one -/
def touchExample : List (Line2 ℝ) := [⟨⟨0, 0⟩, ⟨6, 6⟩⟩, ⟨⟨2, 2⟩, ⟨5, -1⟩⟩]

theorem touchExample_get {i : Nat} {l : Line2 ℝ} (h : touchExample[i]? = some l) {p : V2 ℝ} (hp : IsOn l p) :
    (i = 0 ∧ l = ⟨⟨0, 0⟩, ⟨6, 6⟩⟩ ∧ p.x = p.y ∧ 0 ≤ p.y ∧ p.y ≤ 6) ∨
    (i = 1 ∧ l = ⟨⟨2, 2⟩, ⟨5, -1⟩⟩ ∧ p.x = 4 - p.y ∧ -1 ≤ p.y ∧ p.y ≤ 2) := by
  obtain ⟨t, h0, h1, rfl⟩ := hp
  match i, h with
  | 0, h =>
    simp only [touchExample, List.getElem?_cons_zero, Option.some_inj] at h
    subst h
    refine Or.inl ⟨rfl, rfl, ?_⟩
    simp only [lerp2]
    refine ⟨?_, ?_, ?_⟩ <;> first | trivial | linarith
  | 1, h =>
    simp only [touchExample, List.getElem?_cons_succ, List.getElem?_cons_zero, Option.some_inj] at h
    subst h
    refine Or.inr ⟨rfl, rfl, ?_⟩
    simp only [lerp2]
    refine ⟨?_, ?_, ?_⟩ <;> first | trivial | linarith
  | n + 2, h => simp [touchExample] at h

theorem touchExample_common {i j : Nat} {p : V2 ℝ} (hij : i ≠ j) (h : Common touchExample i j p) : p = ⟨2, 2⟩ := by
  obtain ⟨l, m, hl, hm, h1, h2⟩ := h
  obtain ⟨x, y⟩ := p
  simp only [V2.mk.injEq]
  rcases touchExample_get hl h1 with ⟨rfl, -, a1, a2, a3⟩ | ⟨rfl, -, a1, a2, a3⟩ <;>
    rcases touchExample_get hm h2 with ⟨rfl, -, b1, b2, b3⟩ | ⟨rfl, -, b1, b2, b3⟩ <;>
    simp only at a1 a2 a3 b1 b2 b3
  · exact absurd rfl hij
  · exact ⟨by linarith, by linarith⟩
  · exact ⟨by linarith, by linarith⟩
  · exact absurd rfl hij

/-- the hypothesis `SweepPosition` is met by a line that ends inside another one (so it is weaker than `GeneralPosition`) -/
theorem touchExample_sweep : SweepPosition touchExample ∧ ¬ GeneralPosition touchExample := by
  refine ⟨⟨?_, ?_, ?_, ?_⟩, fun gp => ?_⟩
  · intro l hl
    simp only [touchExample, List.mem_cons, List.not_mem_nil, or_false] at hl
    rcases hl with rfl | rfl <;> norm_num
  · intro i j p q hij h1 h2
    rw [touchExample_common hij h1, touchExample_common hij h2]
  · intro i j l m p hij hl hm hp he
    have hlp : IsOn l p := by
      rcases he.1 with rfl | rfl
      · exact onSeg_start _ _
      · exact onSeg_end _ _
    have hp2 := touchExample_common hij ⟨l, m, hl, hm, hlp, hp⟩
    subst hp2
    exfalso
    rcases touchExample_get hl hlp with ⟨-, rfl, -⟩ | ⟨-, rfl, -⟩
    · rcases he.1 with e | e <;> simp only [V2.mk.injEq] at e <;> norm_num at e
    · exact he.2 ⟨5, -1⟩ (Or.inr rfl) (Or.inl (by norm_num))
  · intro i j p q hij h1 h2 hy
    rw [touchExample_common hij h1] at hy ⊢
    rcases h2 with ⟨l, hl, he⟩ | ⟨a, b, hab, hc⟩
    · simp only [touchExample, List.mem_cons, List.not_mem_nil, or_false] at hl
      rcases hl with rfl | rfl <;> rcases he with rfl | rfl <;> first | rfl | (norm_num at hy)
    · rw [touchExample_common hab hc]
  · rcases gp.noT 1 0 _ _ ⟨2, 2⟩ (by decide) rfl rfl
      ⟨1 / 3, by norm_num, by norm_num, by simp only [lerp2, V2.mk.injEq]; norm_num⟩ (Or.inl rfl) with e | e <;>
      simp only [V2.mk.injEq] at e <;> norm_num at e

/-- so the sweep line algorithm reports the touching point (2, 2), also if end points are ignored -/
theorem C59_touching_example [TreeShape ℝ] (fuel : Nat) (hf : 8 < fuel) :
    (∃ r, sweepIntersections keepOrder fuel false false touchExample = .ok r ∧ ∃ x ∈ r, x.1 = ⟨2, 2⟩ ∧ 0 ∈ x.2 ∧ 1 ∈ x.2) ∧
    (∃ r, sweepIntersections keepOrder fuel true false touchExample = .ok r ∧ ∃ x ∈ r, x.1 = ⟨2, 2⟩ ∧ 0 ∈ x.2 ∧ 1 ∈ x.2) ∧
    (∃ r, sweepIntersections keepOrder fuel true true touchExample = .ok r ∧ r ≠ []) := by
  have hon : IsOn (⟨⟨0, 0⟩, ⟨6, 6⟩⟩ : Line2 ℝ) ⟨2, 2⟩ :=
    ⟨1 / 3, by norm_num, by norm_num, by simp only [lerp2, V2.mk.injEq]; norm_num⟩
  have hon' : IsOn (⟨⟨2, 2⟩, ⟨5, -1⟩⟩ : Line2 ℝ) ⟨2, 2⟩ := onSeg_start _ _
  have hne : ¬ IsEnd (⟨⟨0, 0⟩, ⟨6, 6⟩⟩ : Line2 ℝ) ⟨2, 2⟩ := by
    rintro (e | e) <;> simp only [V2.mk.injEq] at e <;> norm_num at e
  have hc : Common touchExample 0 1 ⟨2, 2⟩ := ⟨_, _, rfl, rfl, hon, hon'⟩
  have hlen : 2 * touchExample.length + touchExample.length * touchExample.length < fuel := by simpa [touchExample] using hf
  refine ⟨?_, ?_, ?_⟩
  · obtain ⟨r, h1, h2⟩ := C59_reports_exactly_the_common_points keepOrder (fun _ l => List.Perm.refl l) touchExample touchExample_sweep.1
      fuel hlen
    exact ⟨r, h1, (h2 0 1 _ (by decide)).1 hc⟩
  · obtain ⟨r, h1, h2⟩ := C59_ignoring_end_points_reports_the_points_inside_a_line keepOrder (fun _ l => List.Perm.refl l) touchExample
      touchExample_sweep.1 fuel hlen
    exact ⟨r, h1, (h2 0 1 _ (by decide)).1 ⟨hc, _, List.mem_cons_self, hon, hne⟩⟩
  · obtain ⟨r, h1, h2⟩ := C59_stop_at_first_finds_a_touch keepOrder (fun _ l => List.Perm.refl l) touchExample
      touchExample_sweep.1 fuel hlen
    exact ⟨r, h1, h2.2 ⟨0, 1, _, _, _, by decide, rfl, rfl, hon, hon', fun h => hne h.1⟩⟩

end Verif.Props
