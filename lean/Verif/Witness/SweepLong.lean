import Verif.Witness.Sweep
import Verif.Props.SweepParts
/-!
# A line string of eleven edges in general position that crosses itself
-/
namespace Verif.Witness
open Verif Verif.Spec Verif.Model Verif.Sweep Verif.Props Verif.Proofs.Intersect
set_option maxHeartbeats 4000000

/-- `longLine` and one more point -/
def longerLine : List (V2 ℝ) := longLine ++ [⟨2, -5⟩]

theorem longerLine_edges : windowIter2 longerLine = [⟨⟨0, 0⟩, ⟨10, 1⟩⟩, ⟨⟨10, 1⟩, ⟨11, 3⟩⟩, ⟨⟨11, 3⟩, ⟨10, 5⟩⟩, ⟨⟨10, 5⟩, ⟨9, 7⟩⟩, ⟨⟨9, 7⟩, ⟨8, 9⟩⟩, ⟨⟨8, 9⟩, ⟨7, 11⟩⟩, ⟨⟨7, 11⟩, ⟨6, 13⟩⟩, ⟨⟨6, 13⟩, ⟨5, 15⟩⟩, ⟨⟨5, 15⟩, ⟨4, 17⟩⟩, ⟨⟨4, 17⟩, ⟨3, -2⟩⟩, ⟨⟨3, -2⟩, ⟨2, -5⟩⟩] := rfl

/-- the points of the edges -/
theorem longer_get {i : Nat} {l : Line2 ℝ} (h : (windowIter2 longerLine)[i]? = some l) {p : V2 ℝ} (hp : IsOn l p) :
    (i = 0 ∧ l = ⟨⟨0, 0⟩, ⟨10, 1⟩⟩ ∧ (1) * (p.x - 0) = (10) * (p.y - 0) ∧ 0 ≤ p.y ∧ p.y ≤ 1) ∨
    (i = 1 ∧ l = ⟨⟨10, 1⟩, ⟨11, 3⟩⟩ ∧ (2) * (p.x - 10) = (1) * (p.y - 1) ∧ 1 ≤ p.y ∧ p.y ≤ 3) ∨
    (i = 2 ∧ l = ⟨⟨11, 3⟩, ⟨10, 5⟩⟩ ∧ (2) * (p.x - 11) = (-1) * (p.y - 3) ∧ 3 ≤ p.y ∧ p.y ≤ 5) ∨
    (i = 3 ∧ l = ⟨⟨10, 5⟩, ⟨9, 7⟩⟩ ∧ (2) * (p.x - 10) = (-1) * (p.y - 5) ∧ 5 ≤ p.y ∧ p.y ≤ 7) ∨
    (i = 4 ∧ l = ⟨⟨9, 7⟩, ⟨8, 9⟩⟩ ∧ (2) * (p.x - 9) = (-1) * (p.y - 7) ∧ 7 ≤ p.y ∧ p.y ≤ 9) ∨
    (i = 5 ∧ l = ⟨⟨8, 9⟩, ⟨7, 11⟩⟩ ∧ (2) * (p.x - 8) = (-1) * (p.y - 9) ∧ 9 ≤ p.y ∧ p.y ≤ 11) ∨
    (i = 6 ∧ l = ⟨⟨7, 11⟩, ⟨6, 13⟩⟩ ∧ (2) * (p.x - 7) = (-1) * (p.y - 11) ∧ 11 ≤ p.y ∧ p.y ≤ 13) ∨
    (i = 7 ∧ l = ⟨⟨6, 13⟩, ⟨5, 15⟩⟩ ∧ (2) * (p.x - 6) = (-1) * (p.y - 13) ∧ 13 ≤ p.y ∧ p.y ≤ 15) ∨
    (i = 8 ∧ l = ⟨⟨5, 15⟩, ⟨4, 17⟩⟩ ∧ (2) * (p.x - 5) = (-1) * (p.y - 15) ∧ 15 ≤ p.y ∧ p.y ≤ 17) ∨
    (i = 9 ∧ l = ⟨⟨4, 17⟩, ⟨3, -2⟩⟩ ∧ (-19) * (p.x - 4) = (-1) * (p.y - 17) ∧ -2 ≤ p.y ∧ p.y ≤ 17) ∨
    (i = 10 ∧ l = ⟨⟨3, -2⟩, ⟨2, -5⟩⟩ ∧ (-3) * (p.x - 3) = (-1) * (p.y - -2) ∧ -5 ≤ p.y ∧ p.y ≤ -2) := by
  obtain ⟨t, h0, h1, rfl⟩ := hp
  rw [longerLine_edges] at h
  match i, h with
  | 0, h =>
    simp only [List.getElem?_cons_succ, List.getElem?_cons_zero, Option.some_inj] at h
    subst h
    refine Or.inl ⟨rfl, rfl, ?_⟩
    simp only [lerp2]
    refine ⟨?_, ?_, ?_⟩ <;> linarith
  | 1, h =>
    simp only [List.getElem?_cons_succ, List.getElem?_cons_zero, Option.some_inj] at h
    subst h
    refine Or.inr (Or.inl ⟨rfl, rfl, ?_⟩)
    simp only [lerp2]
    refine ⟨?_, ?_, ?_⟩ <;> linarith
  | 2, h =>
    simp only [List.getElem?_cons_succ, List.getElem?_cons_zero, Option.some_inj] at h
    subst h
    refine Or.inr (Or.inr (Or.inl ⟨rfl, rfl, ?_⟩))
    simp only [lerp2]
    refine ⟨?_, ?_, ?_⟩ <;> linarith
  | 3, h =>
    simp only [List.getElem?_cons_succ, List.getElem?_cons_zero, Option.some_inj] at h
    subst h
    refine Or.inr (Or.inr (Or.inr (Or.inl ⟨rfl, rfl, ?_⟩)))
    simp only [lerp2]
    refine ⟨?_, ?_, ?_⟩ <;> linarith
  | 4, h =>
    simp only [List.getElem?_cons_succ, List.getElem?_cons_zero, Option.some_inj] at h
    subst h
    refine Or.inr (Or.inr (Or.inr (Or.inr (Or.inl ⟨rfl, rfl, ?_⟩))))
    simp only [lerp2]
    refine ⟨?_, ?_, ?_⟩ <;> linarith
  | 5, h =>
    simp only [List.getElem?_cons_succ, List.getElem?_cons_zero, Option.some_inj] at h
    subst h
    refine Or.inr (Or.inr (Or.inr (Or.inr (Or.inr (Or.inl ⟨rfl, rfl, ?_⟩)))))
    simp only [lerp2]
    refine ⟨?_, ?_, ?_⟩ <;> linarith
  | 6, h =>
    simp only [List.getElem?_cons_succ, List.getElem?_cons_zero, Option.some_inj] at h
    subst h
    refine Or.inr (Or.inr (Or.inr (Or.inr (Or.inr (Or.inr (Or.inl ⟨rfl, rfl, ?_⟩))))))
    simp only [lerp2]
    refine ⟨?_, ?_, ?_⟩ <;> linarith
  | 7, h =>
    simp only [List.getElem?_cons_succ, List.getElem?_cons_zero, Option.some_inj] at h
    subst h
    refine Or.inr (Or.inr (Or.inr (Or.inr (Or.inr (Or.inr (Or.inr (Or.inl ⟨rfl, rfl, ?_⟩)))))))
    simp only [lerp2]
    refine ⟨?_, ?_, ?_⟩ <;> linarith
  | 8, h =>
    simp only [List.getElem?_cons_succ, List.getElem?_cons_zero, Option.some_inj] at h
    subst h
    refine Or.inr (Or.inr (Or.inr (Or.inr (Or.inr (Or.inr (Or.inr (Or.inr (Or.inl ⟨rfl, rfl, ?_⟩))))))))
    simp only [lerp2]
    refine ⟨?_, ?_, ?_⟩ <;> linarith
  | 9, h =>
    simp only [List.getElem?_cons_succ, List.getElem?_cons_zero, Option.some_inj] at h
    subst h
    refine Or.inr (Or.inr (Or.inr (Or.inr (Or.inr (Or.inr (Or.inr (Or.inr (Or.inr (Or.inl ⟨rfl, rfl, ?_⟩)))))))))
    simp only [lerp2]
    refine ⟨?_, ?_, ?_⟩ <;> linarith
  | 10, h =>
    simp only [List.getElem?_cons_succ, List.getElem?_cons_zero, Option.some_inj] at h
    subst h
    refine Or.inr (Or.inr (Or.inr (Or.inr (Or.inr (Or.inr (Or.inr (Or.inr (Or.inr (Or.inr (⟨rfl, rfl, ?_⟩))))))))))
    simp only [lerp2]
    refine ⟨?_, ?_, ?_⟩ <;> linarith
  | k + 11, h => simp at h

/-- the common points of two edges -/
theorem longer_common {i j : Nat} {p : V2 ℝ} (hij : i ≠ j) (h : Common (windowIter2 longerLine) i j p) :
    ((i = 0 ∧ j = 1 ∨ i = 1 ∧ j = 0) ∧ p = ⟨10, 1⟩) ∨
    ((i = 1 ∧ j = 2 ∨ i = 2 ∧ j = 1) ∧ p = ⟨11, 3⟩) ∨
    ((i = 2 ∧ j = 3 ∨ i = 3 ∧ j = 2) ∧ p = ⟨10, 5⟩) ∨
    ((i = 3 ∧ j = 4 ∨ i = 4 ∧ j = 3) ∧ p = ⟨9, 7⟩) ∨
    ((i = 4 ∧ j = 5 ∨ i = 5 ∧ j = 4) ∧ p = ⟨8, 9⟩) ∨
    ((i = 5 ∧ j = 6 ∨ i = 6 ∧ j = 5) ∧ p = ⟨7, 11⟩) ∨
    ((i = 6 ∧ j = 7 ∨ i = 7 ∧ j = 6) ∧ p = ⟨6, 13⟩) ∨
    ((i = 7 ∧ j = 8 ∨ i = 8 ∧ j = 7) ∧ p = ⟨5, 15⟩) ∨
    ((i = 8 ∧ j = 9 ∨ i = 9 ∧ j = 8) ∧ p = ⟨4, 17⟩) ∨
    ((i = 9 ∧ j = 10 ∨ i = 10 ∧ j = 9) ∧ p = ⟨3, -2⟩) ∨
    ((i = 0 ∧ j = 9 ∨ i = 9 ∧ j = 0) ∧ p = ⟨590 / 189, 59 / 189⟩) := by
  obtain ⟨l, m, hl, hm, h1, h2⟩ := h
  obtain ⟨x, y⟩ := p
  simp only [V2.mk.injEq]
  rcases longer_get hl h1 with ⟨rfl, -, a1, a2, a3⟩ | ⟨rfl, -, a1, a2, a3⟩ | ⟨rfl, -, a1, a2, a3⟩ | ⟨rfl, -, a1, a2, a3⟩ | ⟨rfl, -, a1, a2, a3⟩ | ⟨rfl, -, a1, a2, a3⟩ | ⟨rfl, -, a1, a2, a3⟩ | ⟨rfl, -, a1, a2, a3⟩ | ⟨rfl, -, a1, a2, a3⟩ | ⟨rfl, -, a1, a2, a3⟩ | ⟨rfl, -, a1, a2, a3⟩ <;>
    rcases longer_get hm h2 with ⟨rfl, -, b1, b2, b3⟩ | ⟨rfl, -, b1, b2, b3⟩ | ⟨rfl, -, b1, b2, b3⟩ | ⟨rfl, -, b1, b2, b3⟩ | ⟨rfl, -, b1, b2, b3⟩ | ⟨rfl, -, b1, b2, b3⟩ | ⟨rfl, -, b1, b2, b3⟩ | ⟨rfl, -, b1, b2, b3⟩ | ⟨rfl, -, b1, b2, b3⟩ | ⟨rfl, -, b1, b2, b3⟩ | ⟨rfl, -, b1, b2, b3⟩ <;>
    simp only at a1 a2 a3 b1 b2 b3
  · exact absurd rfl hij
  · exact Or.inl ⟨by simp, by linarith, by linarith⟩
  · exfalso; linarith
  · exfalso; linarith
  · exfalso; linarith
  · exfalso; linarith
  · exfalso; linarith
  · exfalso; linarith
  · exfalso; linarith
  · exact Or.inr (Or.inr (Or.inr (Or.inr (Or.inr (Or.inr (Or.inr (Or.inr (Or.inr (Or.inr (⟨by simp, by linarith, by linarith⟩))))))))))
  · exfalso; linarith
  · exact Or.inl ⟨by simp, by linarith, by linarith⟩
  · exact absurd rfl hij
  · exact Or.inr (Or.inl ⟨by simp, by linarith, by linarith⟩)
  · exfalso; linarith
  · exfalso; linarith
  · exfalso; linarith
  · exfalso; linarith
  · exfalso; linarith
  · exfalso; linarith
  · exfalso; linarith
  · exfalso; linarith
  · exfalso; linarith
  · exact Or.inr (Or.inl ⟨by simp, by linarith, by linarith⟩)
  · exact absurd rfl hij
  · exact Or.inr (Or.inr (Or.inl ⟨by simp, by linarith, by linarith⟩))
  · exfalso; linarith
  · exfalso; linarith
  · exfalso; linarith
  · exfalso; linarith
  · exfalso; linarith
  · exfalso; linarith
  · exfalso; linarith
  · exfalso; linarith
  · exfalso; linarith
  · exact Or.inr (Or.inr (Or.inl ⟨by simp, by linarith, by linarith⟩))
  · exact absurd rfl hij
  · exact Or.inr (Or.inr (Or.inr (Or.inl ⟨by simp, by linarith, by linarith⟩)))
  · exfalso; linarith
  · exfalso; linarith
  · exfalso; linarith
  · exfalso; linarith
  · exfalso; linarith
  · exfalso; linarith
  · exfalso; linarith
  · exfalso; linarith
  · exfalso; linarith
  · exact Or.inr (Or.inr (Or.inr (Or.inl ⟨by simp, by linarith, by linarith⟩)))
  · exact absurd rfl hij
  · exact Or.inr (Or.inr (Or.inr (Or.inr (Or.inl ⟨by simp, by linarith, by linarith⟩))))
  · exfalso; linarith
  · exfalso; linarith
  · exfalso; linarith
  · exfalso; linarith
  · exfalso; linarith
  · exfalso; linarith
  · exfalso; linarith
  · exfalso; linarith
  · exfalso; linarith
  · exact Or.inr (Or.inr (Or.inr (Or.inr (Or.inl ⟨by simp, by linarith, by linarith⟩))))
  · exact absurd rfl hij
  · exact Or.inr (Or.inr (Or.inr (Or.inr (Or.inr (Or.inl ⟨by simp, by linarith, by linarith⟩)))))
  · exfalso; linarith
  · exfalso; linarith
  · exfalso; linarith
  · exfalso; linarith
  · exfalso; linarith
  · exfalso; linarith
  · exfalso; linarith
  · exfalso; linarith
  · exfalso; linarith
  · exact Or.inr (Or.inr (Or.inr (Or.inr (Or.inr (Or.inl ⟨by simp, by linarith, by linarith⟩)))))
  · exact absurd rfl hij
  · exact Or.inr (Or.inr (Or.inr (Or.inr (Or.inr (Or.inr (Or.inl ⟨by simp, by linarith, by linarith⟩))))))
  · exfalso; linarith
  · exfalso; linarith
  · exfalso; linarith
  · exfalso; linarith
  · exfalso; linarith
  · exfalso; linarith
  · exfalso; linarith
  · exfalso; linarith
  · exfalso; linarith
  · exact Or.inr (Or.inr (Or.inr (Or.inr (Or.inr (Or.inr (Or.inl ⟨by simp, by linarith, by linarith⟩))))))
  · exact absurd rfl hij
  · exact Or.inr (Or.inr (Or.inr (Or.inr (Or.inr (Or.inr (Or.inr (Or.inl ⟨by simp, by linarith, by linarith⟩)))))))
  · exfalso; linarith
  · exfalso; linarith
  · exfalso; linarith
  · exfalso; linarith
  · exfalso; linarith
  · exfalso; linarith
  · exfalso; linarith
  · exfalso; linarith
  · exfalso; linarith
  · exact Or.inr (Or.inr (Or.inr (Or.inr (Or.inr (Or.inr (Or.inr (Or.inl ⟨by simp, by linarith, by linarith⟩)))))))
  · exact absurd rfl hij
  · exact Or.inr (Or.inr (Or.inr (Or.inr (Or.inr (Or.inr (Or.inr (Or.inr (Or.inl ⟨by simp, by linarith, by linarith⟩))))))))
  · exfalso; linarith
  · exact Or.inr (Or.inr (Or.inr (Or.inr (Or.inr (Or.inr (Or.inr (Or.inr (Or.inr (Or.inr (⟨by simp, by linarith, by linarith⟩))))))))))
  · exfalso; linarith
  · exfalso; linarith
  · exfalso; linarith
  · exfalso; linarith
  · exfalso; linarith
  · exfalso; linarith
  · exfalso; linarith
  · exact Or.inr (Or.inr (Or.inr (Or.inr (Or.inr (Or.inr (Or.inr (Or.inr (Or.inl ⟨by simp, by linarith, by linarith⟩))))))))
  · exact absurd rfl hij
  · exact Or.inr (Or.inr (Or.inr (Or.inr (Or.inr (Or.inr (Or.inr (Or.inr (Or.inr (Or.inl ⟨by simp, by linarith, by linarith⟩)))))))))
  · exfalso; linarith
  · exfalso; linarith
  · exfalso; linarith
  · exfalso; linarith
  · exfalso; linarith
  · exfalso; linarith
  · exfalso; linarith
  · exfalso; linarith
  · exfalso; linarith
  · exact Or.inr (Or.inr (Or.inr (Or.inr (Or.inr (Or.inr (Or.inr (Or.inr (Or.inr (Or.inl ⟨by simp, by linarith, by linarith⟩)))))))))
  · exact absurd rfl hij

theorem longer_general : GeneralPosition (windowIter2 longerLine) := by
  refine ⟨?_, ?_, ?_, ?_⟩
  · intro l hl
    simp only [longerLine_edges, List.mem_cons, List.not_mem_nil, or_false] at hl
    rcases hl with rfl | rfl | rfl | rfl | rfl | rfl | rfl | rfl | rfl | rfl | rfl <;> norm_num
  · intro i j p q hij h1 h2
    rcases longer_common hij h1 with ⟨ha, rfl⟩ | ⟨ha, rfl⟩ | ⟨ha, rfl⟩ | ⟨ha, rfl⟩ | ⟨ha, rfl⟩ | ⟨ha, rfl⟩ | ⟨ha, rfl⟩ | ⟨ha, rfl⟩ | ⟨ha, rfl⟩ | ⟨ha, rfl⟩ | ⟨ha, rfl⟩ <;>
      rcases longer_common hij h2 with ⟨hb, rfl⟩ | ⟨hb, rfl⟩ | ⟨hb, rfl⟩ | ⟨hb, rfl⟩ | ⟨hb, rfl⟩ | ⟨hb, rfl⟩ | ⟨hb, rfl⟩ | ⟨hb, rfl⟩ | ⟨hb, rfl⟩ | ⟨hb, rfl⟩ | ⟨hb, rfl⟩ <;> first | rfl | omega
  · intro i j l m p hij hl hm hp he
    have hlp : IsOn l p := by
      rcases he with rfl | rfl
      · exact onSeg_start _ _
      · exact onSeg_end _ _
    rcases longer_common hij ⟨l, m, hl, hm, hlp, hp⟩ with ⟨ha, rfl⟩ | ⟨ha, rfl⟩ | ⟨ha, rfl⟩ | ⟨ha, rfl⟩ | ⟨ha, rfl⟩ | ⟨ha, rfl⟩ | ⟨ha, rfl⟩ | ⟨ha, rfl⟩ | ⟨ha, rfl⟩ | ⟨ha, rfl⟩ | ⟨ha, rfl⟩ <;>
      rcases ha with ⟨rfl, rfl⟩ | ⟨rfl, rfl⟩ <;>
      rw [longerLine_edges] at hl hm <;>
      simp only [List.getElem?_cons_succ, List.getElem?_cons_zero, Option.some_inj] at hl hm <;> subst hl hm <;>
      first | exact Or.inl rfl | exact Or.inr rfl |
        (exfalso; rcases he with he | he <;> simp only [V2.mk.injEq] at he <;> norm_num at he)
  · intro i j p q hij h1 h2 hy
    have hp : p = ⟨10, 1⟩ ∨ p = ⟨11, 3⟩ ∨ p = ⟨10, 5⟩ ∨ p = ⟨9, 7⟩ ∨ p = ⟨8, 9⟩ ∨ p = ⟨7, 11⟩ ∨ p = ⟨6, 13⟩ ∨ p = ⟨5, 15⟩ ∨ p = ⟨4, 17⟩ ∨ p = ⟨3, -2⟩ ∨ p = ⟨590 / 189, 59 / 189⟩ := by
      rcases longer_common hij h1 with ⟨-, h⟩ | ⟨-, h⟩ | ⟨-, h⟩ | ⟨-, h⟩ | ⟨-, h⟩ | ⟨-, h⟩ | ⟨-, h⟩ | ⟨-, h⟩ | ⟨-, h⟩ | ⟨-, h⟩ | ⟨-, h⟩ <;> simp only [h, true_or, or_true]
    have hq : q = ⟨0, 0⟩ ∨ q = ⟨10, 1⟩ ∨ q = ⟨11, 3⟩ ∨ q = ⟨10, 5⟩ ∨ q = ⟨9, 7⟩ ∨ q = ⟨8, 9⟩ ∨ q = ⟨7, 11⟩ ∨ q = ⟨6, 13⟩ ∨ q = ⟨5, 15⟩ ∨ q = ⟨4, 17⟩ ∨ q = ⟨3, -2⟩ ∨ q = ⟨2, -5⟩ ∨ q = ⟨590 / 189, 59 / 189⟩ := by
      rcases h2 with ⟨l, hl, he⟩ | ⟨a, b, hab, hc⟩
      · simp only [longerLine_edges, List.mem_cons, List.not_mem_nil, or_false] at hl
        rcases hl with rfl | rfl | rfl | rfl | rfl | rfl | rfl | rfl | rfl | rfl | rfl <;> rcases he with h | h <;> simp only at h <;>
          simp only [h, true_or, or_true]
      · rcases longer_common hab hc with ⟨-, h⟩ | ⟨-, h⟩ | ⟨-, h⟩ | ⟨-, h⟩ | ⟨-, h⟩ | ⟨-, h⟩ | ⟨-, h⟩ | ⟨-, h⟩ | ⟨-, h⟩ | ⟨-, h⟩ | ⟨-, h⟩ <;> simp only [h, true_or, or_true]
    rcases hp with rfl | rfl | rfl | rfl | rfl | rfl | rfl | rfl | rfl | rfl | rfl <;> rcases hq with rfl | rfl | rfl | rfl | rfl | rfl | rfl | rfl | rfl | rfl | rfl | rfl | rfl <;>
      first | rfl | (norm_num at hy)

theorem longer_eq : longerLine = [] ++ longLine ++ [⟨2, -5⟩] := rfl
theorem longer_parts : SweepPosition (windowIter2 ([] ++ longLine ++ [⟨2, -5⟩])) := longer_general.sweep
theorem longLine_general : GeneralPosition (windowIter2 longLine) :=
  (SweepParts.among_windows [] longLine [⟨2, -5⟩]).general longer_general

local instance : TreeShape ℝ := TreeShape.middle ℝ

/-- the last edge crosses the first one -/
theorem longLine_crosses : Crossing (windowIter2 longLine) 0 9 ⟨590 / 189, 59 / 189⟩ := by
  refine ⟨⟨⟨0, 0⟩, ⟨10, 1⟩⟩, ⟨⟨4, 17⟩, ⟨3, -2⟩⟩, rfl, rfl, ?_, ?_, ?_, ?_⟩
  · exact ⟨59 / 189, by norm_num, by norm_num, by simp only [lerp2, V2.mk.injEq]; norm_num⟩
  · exact ⟨166 / 189, by norm_num, by norm_num, by simp only [lerp2, V2.mk.injEq]; norm_num⟩
  · rintro (h | h) <;> simp only [V2.mk.injEq] at h <;> norm_num at h
  · rintro (h | h) <;> simp only [V2.mk.injEq] at h <;> norm_num at h

theorem longLine_intersects : isSelfIntersectingLong keepOrder 144 longLine = .ok true := by
  obtain ⟨b, e, hb⟩ := C59_self_intersecting_iff keepOrder keep_perm longLine longLine_general 144 eleven
  rw [e, hb.2 ⟨0, 9, _, by decide, longLine_crosses⟩]

example : ∃ b, isSelfIntersectingLong keepOrder 144 longLine = .ok b ∧ b = true := by
  obtain ⟨b, e, hb⟩ := C59_self_intersecting_iff_touch keepOrder keep_perm longLine longLine_general.sweep 144 eleven
  obtain ⟨l, m, hl, hm, h1, h2, h3, -⟩ := longLine_crosses
  exact ⟨b, e, hb.2 ⟨0, 9, l, m, _, by decide, hl, hm, h1, h2, fun h => h3 h.1⟩⟩

example : isSelfIntersectingLong backwards 200 longerLine = .ok true :=
  SweepParts.C112_self_intersecting backwards keepOrder back_perm keep_perm [] longLine [⟨2, -5⟩] longer_parts 200 144
    (by simp [longLine]) eleven longLine_intersects

/-- the second and the third line of `gpExample` -/
theorem two_among : SweepParts.Among ([⟨⟨5, 1⟩, ⟨0, 3⟩⟩, ⟨⟨4, 4⟩, ⟨9, 5⟩⟩] : List (Line2 ℝ)) gpExample (fun i => 1 + i) :=
  SweepParts.Among.part (T := Line2 ℝ) [⟨⟨0, 0⟩, ⟨4, 4⟩⟩] [⟨⟨5, 1⟩, ⟨0, 3⟩⟩, ⟨⟨4, 4⟩, ⟨9, 5⟩⟩] []
/-- the first and the last line, exchanged -/
theorem ends_among : SweepParts.Among ([⟨⟨4, 4⟩, ⟨9, 5⟩⟩, ⟨⟨0, 0⟩, ⟨4, 4⟩⟩] : List (Line2 ℝ)) gpExample (fun i => 2 - 2 * i) := by
  refine ⟨fun i l hl => ?_, fun i j hi hj h => ?_⟩
  · match i, hl with
    | 0, hl => exact hl
    | 1, hl => exact hl
  · simp only [List.length_cons, List.length_nil] at hi hj
    simp only at h
    omega
example := SweepParts.C112_on_some_of_the_lines keepOrder backwards keep_perm back_perm ends_among gpExample_general.sweep 16 16
  three (by simp)
example := SweepParts.C112_ignoring_end_points keepOrder backwards keep_perm back_perm two_among gpExample_general 16 16 three (by simp)
example := SweepParts.C112_stop_at_first keepOrder backwards keep_perm back_perm two_among gpExample_general.sweep 16 16 three (by simp)
example := SweepParts.C112_indexed keepOrder backwards keep_perm back_perm gpVertices [(2, 3), (1, 4)] gpEdges
  (SweepParts.Among.part [(0, 1)] [(2, 3), (1, 4)] []) gpEdges_lines gpExample_general.sweep 16 16 three' (by simp)

end Verif.Witness
