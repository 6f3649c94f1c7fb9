import Verif.Props.Simple
import Verif.Witness.SweepLong
/-!
# The hypotheses of C113 are met: a hull with ten corners, a line string of eleven points that moves ahead
-/
namespace Verif.Witness
open Verif Verif.Spec Verif.Model Verif.Props

local instance : TreeShape ℝ := TreeShape.middle ℝ

/-- ten points of a parabola, closed -/
def parab : List (V2 ℝ) := [⟨-5, 25⟩, ⟨-4, 16⟩, ⟨-3, 9⟩, ⟨-2, 4⟩, ⟨-1, 1⟩, ⟨0, 0⟩, ⟨1, 1⟩, ⟨2, 4⟩, ⟨3, 9⟩, ⟨4, 16⟩, ⟨-5, 25⟩]

theorem parab_hull : IsHullLoop parab parab := by
  refine ⟨by simp [parab], by simp [parab], fun v h => h, ?_, ?_, ?_, ?_, ?_⟩
  · simp only [parab, List.tail_cons, List.nodup_cons, List.mem_cons, V2.mk.injEq]
    norm_num
  · rintro (_ | _ | _ | _ | _ | _ | _ | _ | _ | _ | i) a b ha hb p hp <;>
      simp only [parab, List.getElem?_cons_succ, List.getElem?_cons_zero, List.getElem?_nil, Option.some_inj, reduceCtorEq, zero_add, Nat.reduceAdd] at ha hb <;>
      subst ha <;> subst hb <;>
      simp only [parab, List.mem_cons, List.not_mem_nil, or_false] at hp <;>
      rcases hp with rfl | rfl | rfl | rfl | rfl | rfl | rfl | rfl | rfl | rfl | rfl <;> simp only [orient] <;> norm_num
  · rintro - (_ | _ | _ | _ | _ | _ | _ | _ | _ | i) a b c ha hb hc <;>
      simp only [parab, List.getElem?_cons_succ, List.getElem?_cons_zero, List.getElem?_nil, Option.some_inj, reduceCtorEq, zero_add, Nat.reduceAdd] at ha hb hc <;>
      subst ha <;> subst hb <;> subst hc <;> simp only [orient] <;> norm_num
  · intro _ a b c ha hb hc
    simp [parab] at ha hb hc
    subst ha; subst hb; subst hc
    simp only [orient]
    norm_num
  · intro a b c h
    simp [parab] at h

example : isSelfIntersectingLong keepOrder 144 parab = .ok false :=
  Simple.C113_hulls keepOrder keep_perm parab parab parab_hull (by simp [parab]) 144 (by simp [parab])

/-- eleven points that move ahead in the direction (0, 1) -/
def zigzag : List (V2 ℝ) := [⟨0, 0⟩, ⟨9, 1⟩, ⟨-9, 2⟩, ⟨9, 3⟩, ⟨-9, 4⟩, ⟨9, 5⟩, ⟨-9, 6⟩, ⟨9, 7⟩, ⟨-9, 8⟩, ⟨9, 9⟩, ⟨-9, 10⟩]
theorem zigzag_ahead : Simple.MovesAhead ⟨0, 1⟩ zigzag := by
  rintro (_ | _ | _ | _ | _ | _ | _ | _ | _ | _ | i) p q hp hq <;> simp [zigzag] at hp hq <;> subst hp <;> subst hq <;> norm_num
example : isSelfIntersectingLong keepOrder 144 zigzag = .ok false :=
  Simple.C113_line_strings_that_move_ahead keepOrder keep_perm ⟨0, 1⟩ zigzag 144 (by simp [zigzag]) zigzag_ahead
example := Simple.C113_simplified_line_strings_that_move_ahead keepOrder keep_perm (fun _ heap => leastPos heap) (leastPos_pops exact_total) ⟨0, 1⟩ zigzag zigzag_ahead
  (1 / 2) 4 50 144 (by simp [zigzag]) (by simp [zigzag])
example := Simple.C113_long_line_strings keepOrder keep_perm zigzag 144 (by simp [zigzag]) zigzag_ahead.endsOnly
example := Simple.C113_short_line_strings ([⟨0, 0⟩, ⟨9, 1⟩, ⟨-9, 2⟩, ⟨9, 3⟩] : List (V2 ℝ)) (by simp)
  (Simple.MovesAhead.endsOnly (d := ⟨0, 1⟩) (by
    rintro (_ | _ | _ | i) p q hp hq <;> simp at hp hq <;> subst hp <;> subst hq <;> norm_num))
example := Simple.C113_short_line_strings_that_move_ahead ⟨0, 1⟩ ([⟨0, 0⟩, ⟨9, 1⟩, ⟨-9, 2⟩, ⟨9, 3⟩] : List (V2 ℝ)) (by simp)
  (by rintro (_ | _ | _ | i) p q hp hq <;> simp at hp hq <;> subst hp <;> subst hq <;> norm_num)
/-- a line string that moves ahead, without exceptions: `is_self_intersecting` compares slopes at its two corners -/
example := Simple.C113_short_line_strings_by_slopes ([⟨2, 0⟩, ⟨9, 1⟩, ⟨-7, 2⟩, ⟨9, 3⟩] : List (V2 ℝ)) (by simp)
  (Simple.MovesAhead.endsOnly (d := ⟨0, 1⟩) (by
    rintro (_ | _ | _ | i) p q hp hq <;> simp at hp hq <;> subst hp <;> subst hq <;> norm_num))
  (by rintro (_ | _ | i) a b c ha hb hc <;> simp at ha hb hc <;> subst ha <;> subst hb <;> subst hc <;> norm_num)
example := Simple.C113_short_hulls _ _ (BoxHull.rect_loop (⟨0, 0⟩ : V2 ℝ) ⟨2, 1⟩ (by norm_num) (by norm_num)).1 (by simp [BoxHull.rect])
  (by simp [BoxHull.rect])
example := Simple.C113_box ⟨some (⟨0, 0⟩, ⟨2, 1⟩)⟩ (⟨0, 0⟩ : V2 ℝ) ⟨2, 1⟩ rfl (by norm_num) (by norm_num)

end Verif.Witness
