import Verif.Props.FloatRdpExtremes
/-!
# The hypotheses of C114 are met
-/
namespace Verif.Witness
open Verif Verif.Spec Verif.Model Verif.Props Fl

/-- a hat: its top is 3 away from the segment between the ends -/
example : simplifyRdp2 [(⟨0, 0⟩ : V2 ℚ), ⟨4, 3⟩, ⟨8, 0⟩] 2 = .ok [⟨0, 0⟩, ⟨4, 3⟩, ⟨8, 0⟩] :=
  RdpExtremes.C114_rdp2_removes_nothing _ 2 (by
    intro i j k a p b hij hjk ha hp hb q ⟨t, t0, t1, e⟩
    have hk := (List.getElem?_eq_some_iff.1 hb).1
    simp only [List.length_cons, List.length_nil] at hk
    obtain ⟨rfl, rfl, rfl⟩ : i = 0 ∧ j = 1 ∧ k = 2 := by omega
    simp at ha hp hb
    subst ha; subst hp; subst hb; subst e
    simp only [sqDist2, lerp2]
    nlinarith [sq_nonneg (4 - 8 * t)])

example : simplifyRdp2 [(⟨0, 0⟩ : V2 ℚ), ⟨4, 3⟩, ⟨5, -1⟩, ⟨8, 0⟩] 3 = .ok [⟨0, 0⟩, ⟨8, 0⟩] :=
  (RdpExtremes.C114_rdp2_removes_everything ⟨0, 0⟩ [⟨4, 3⟩, ⟨5, -1⟩] ⟨8, 0⟩ 3).2 (by
    intro p hp
    simp only [List.mem_cons, List.not_mem_nil, or_false] at hp
    rcases hp with rfl | rfl
    · exact ⟨⟨4, 0⟩, ⟨1 / 2, by norm_num, by norm_num, by simp only [lerp2]; norm_num⟩, by simp only [sqDist2]; norm_num⟩
    · exact ⟨⟨5, 0⟩, ⟨5 / 8, by norm_num, by norm_num, by simp only [lerp2]; norm_num⟩, by simp only [sqDist2]; norm_num⟩)

example : simplifyRdp2 [(⟨0, 0⟩ : V2 ℚ), ⟨4, 3⟩, ⟨5, -1⟩, ⟨8, 0⟩] 6 = .ok [⟨0, 0⟩, ⟨8, 0⟩] :=
  RdpExtremes.C114_large_tolerance ⟨0, 0⟩ [⟨4, 3⟩, ⟨5, -1⟩] ⟨8, 0⟩ 6 (by
    intro p hp
    simp only [List.mem_cons, List.not_mem_nil, or_false] at hp
    rcases hp with rfl | rfl <;> simp only [sqDist2] <;> norm_num)

/-- in 3D the spike beyond the end is removed: it is on the line through the ends -/
example : simplifyRdp3 [(⟨0, 0, 0⟩ : V3 ℚ), ⟨9, 0, 0⟩, ⟨1, 0, 0⟩] 1 = .ok [⟨0, 0, 0⟩, ⟨1, 0, 0⟩] :=
  (RdpExtremes.C114_rdp3_removes_everything ⟨0, 0, 0⟩ [⟨9, 0, 0⟩] ⟨1, 0, 0⟩ 1).2 (by
    intro p hp
    simp only [List.mem_cons, List.not_mem_nil, or_false] at hp
    subst hp
    exact ⟨⟨9, 0, 0⟩, ⟨9, by simp only [lerp3]; norm_num⟩, by simp only [sqDist3]; norm_num⟩)

example : simplifyRdp3 [(⟨0, 0, 0⟩ : V3 ℚ), ⟨4, 3, 0⟩, ⟨8, 0, 0⟩] 2 = .ok [⟨0, 0, 0⟩, ⟨4, 3, 0⟩, ⟨8, 0, 0⟩] :=
  RdpExtremes.C114_rdp3_removes_nothing _ 2 (by
    intro i j k a p b hij hjk ha hp hb q ⟨t, e⟩
    have hk := (List.getElem?_eq_some_iff.1 hb).1
    simp only [List.length_cons, List.length_nil] at hk
    obtain ⟨rfl, rfl, rfl⟩ : i = 0 ∧ j = 1 ∧ k = 2 := by omega
    simp at ha hp hb
    subst ha; subst hp; subst hb; subst e
    simp only [sqDist3, lerp3]
    nlinarith [sq_nonneg (4 - 8 * t)])

/-- the loop around a box -/
example : simplifyRdp2 (BoxHull.rect (⟨0, 0⟩ : V2 ℚ) ⟨2, 1⟩) 0 = .ok (BoxHull.rect ⟨0, 0⟩ ⟨2, 1⟩) :=
  RdpExtremes.C114_hull_keeps_its_corners _ _ (BoxHull.rect_loop (⟨0, 0⟩ : V2 ℚ) ⟨2, 1⟩ (by norm_num) (by norm_num)).1
example := RdpExtremes.C114_indexed_hull_keeps_its_corners (BoxHull.rect (⟨0, 0⟩ : V2 ℚ) ⟨2, 1⟩) [4, 1, 2, 3, 0] _ _
  (by simp [BoxHull.rect]) (by simp [BoxHull.rect]) (BoxHull.rect_loop (⟨0, 0⟩ : V2 ℚ) ⟨2, 1⟩ (by norm_num) (by norm_num)).1

/-- the indexed versions -/
example : indexedSimplifyRdp2 [(⟨8, 0⟩ : V2 ℚ), ⟨0, 0⟩, ⟨4, 3⟩] [1, 2, 0] 2 = .ok [1, 2, 0] :=
  (RdpExtremes.C114_indexed2_removes_nothing _ _ [⟨0, 0⟩, ⟨4, 3⟩, ⟨8, 0⟩] 2 (by simp) (by simp) (by simp)).2 (by decide +kernel)
example : indexedSimplifyRdp2 [(⟨8, 0⟩ : V2 ℚ), ⟨0, 0⟩, ⟨4, 3⟩] [1, 2, 0] 3 = .ok [1, 0] :=
  (RdpExtremes.C114_indexed2_removes_everything _ 1 [2] 0 ⟨0, 0⟩ ⟨8, 0⟩ [⟨4, 3⟩] 3 (by simp) (by simp)).2 (by decide +kernel)
example : indexedSimplifyRdp3 [(⟨8, 0, 0⟩ : V3 ℚ), ⟨0, 0, 0⟩, ⟨4, 3, 0⟩] [1, 2, 0] 2 = .ok [1, 2, 0] :=
  (RdpExtremes.C114_indexed3_removes_nothing _ _ [⟨0, 0, 0⟩, ⟨4, 3, 0⟩, ⟨8, 0, 0⟩] 2 (by simp) (by simp) (by simp)).2 (by decide +kernel)
example : indexedSimplifyRdp3 [(⟨8, 0, 0⟩ : V3 ℚ), ⟨0, 0, 0⟩, ⟨4, 3, 0⟩] [1, 2, 0] 3 = .ok [1, 0] :=
  (RdpExtremes.C114_indexed3_removes_everything _ 1 [2] 0 ⟨0, 0, 0⟩ ⟨8, 0, 0⟩ [⟨4, 3, 0⟩] 3 (by simp) (by simp)).2 (by decide +kernel)

/-- four points of a parabola -/
example := RdpExtremes.C114_no_three_points_collinear [(⟨0, 0⟩ : V2 ℚ), ⟨1, 1⟩, ⟨2, 4⟩, ⟨3, 9⟩] (by
  intro i j k a p b hij hjk ha hp hb
  have hk := (List.getElem?_eq_some_iff.1 hb).1
  simp only [List.length_cons, List.length_nil] at hk
  obtain ⟨rfl, rfl, rfl⟩ | ⟨rfl, rfl, rfl⟩ | ⟨rfl, rfl, rfl⟩ | ⟨rfl, rfl, rfl⟩ :
    (i = 0 ∧ j = 1 ∧ k = 2) ∨ (i = 0 ∧ j = 1 ∧ k = 3) ∨ (i = 0 ∧ j = 2 ∧ k = 3) ∨ (i = 1 ∧ j = 2 ∧ k = 3) := by omega
  all_goals
    simp at ha hp hb
    subst ha; subst hp; subst hb
    simp only [orient]
    norm_num)

section floats
set_option linter.unusedSectionVars false
variable [Libm b64] [Libm b32]

/-- a hat in f64 -/
def hat64 : List (V2 F64) := [ipt b64 0 0, ipt b64 4 3, ipt b64 8 0]
theorem hat64_grid : ∀ p ∈ hat64, OnGrid 0 (2 ^ 23) p := by
  intro p hp
  simp only [hat64, List.mem_cons, List.not_mem_nil, or_false] at hp
  rcases hp with rfl | rfl | rfl <;> exact (onGrid_ipt goodGrid64 (by norm_num) (by norm_num)).1
theorem e64 {k l : ℤ} (hk : |k| ≤ 2 ^ 23) (hl : |l| ≤ 2 ^ 23) : exact (ipt b64 k l) = ⟨k, l⟩ := (onGrid_ipt goodGrid64 hk hl).2

example : simplifyRdp2 hat64 (Flt.ofQ false 2) = .ok hat64 :=
  RdpExtremes.C114_rdp2_removes_nothing_on_floats squareGrid64 (by norm_num) hat64 hat64_grid _ (by decide +kernel) (by
    intro i j k a p b hij hjk ha hp hb q ⟨t, t0, t1, e⟩
    have hk := (List.getElem?_eq_some_iff.1 hb).1
    simp only [hat64, List.length_cons, List.length_nil] at hk
    obtain ⟨rfl, rfl, rfl⟩ : i = 0 ∧ j = 1 ∧ k = 2 := by omega
    simp [hat64] at ha hp hb
    subst ha; subst hp; subst hb; subst e
    rw [show (Flt.ofQ false 2 : F64).val = 2 by decide +kernel, e64 (by norm_num) (by norm_num), e64 (by norm_num) (by norm_num),
      e64 (by norm_num) (by norm_num), show (b64.prec : ℤ) = 53 from rfl]
    simp only [sqDist2, lerp2]
    norm_num
    nlinarith [sq_nonneg (4 - 8 * t)])

example : simplifyRdp2 (ipt b64 0 0 :: ([ipt b64 4 3] ++ [ipt b64 8 0])) (Flt.ofQ false 4) = .ok [ipt b64 0 0, ipt b64 8 0] :=
  (RdpExtremes.C114_rdp2_removes_everything_on_floats squareGrid64 (by norm_num) _ [ipt b64 4 3] _ hat64_grid _ (by decide +kernel)).2 (by
    intro p hp
    simp only [List.mem_cons, List.not_mem_nil, or_false] at hp
    subst hp
    rw [show (Flt.ofQ false 4 : F64).val = 4 by decide +kernel, e64 (by norm_num) (by norm_num), e64 (by norm_num) (by norm_num),
      e64 (by norm_num) (by norm_num), show (b64.prec : ℤ) = 53 from rfl]
    exact ⟨⟨4, 0⟩, ⟨1 / 2, by norm_num, by norm_num, by simp only [lerp2]; norm_num⟩, by simp only [sqDist2]; norm_num⟩)

/-- a box in f64 -/
def box64 : List (V2 F64) := [ipt b64 0 0, ipt b64 2 0, ipt b64 2 1, ipt b64 0 1, ipt b64 0 0]
example : simplifyRdp2 box64 (.zero false) = .ok box64 :=
  RdpExtremes.C114_hull_keeps_its_corners_on_floats squareGrid64 (by norm_num) (BoxHull.rect ⟨0, 0⟩ ⟨2, 1⟩) box64 (by
    intro p hp
    simp only [box64, List.mem_cons, List.not_mem_nil, or_false] at hp
    rcases hp with rfl | rfl | rfl | rfl | rfl <;> exact (onGrid_ipt goodGrid64 (by norm_num) (by norm_num)).1)
    (by
      have : box64.map exact = BoxHull.rect ⟨0, 0⟩ ⟨2, 1⟩ := by
        simp only [box64, List.map_cons, List.map_nil]
        rw [e64 (by norm_num) (by norm_num), e64 (by norm_num) (by norm_num), e64 (by norm_num) (by norm_num), e64 (by norm_num) (by norm_num)]
        simp [BoxHull.rect]
      rw [this]
      exact (BoxHull.rect_loop _ _ (by norm_num) (by norm_num)).1) _ rfl rfl

/-- in space -/
def hat32 : List (V3 F32) := [ipt3 b32 0 0 0, ipt3 b32 4 3 0, ipt3 b32 8 0 0]
theorem hat32_grid : ∀ p ∈ hat32, OnGrid3 0 511 p := by
  intro p hp
  simp only [hat32, List.mem_cons, List.not_mem_nil, or_false] at hp
  rcases hp with rfl | rfl | rfl <;> exact (onGrid3_ipt goodGrid32 (by norm_num) (by norm_num) (by norm_num)).1
theorem e32 {k l m : ℤ} (hk : |k| ≤ 511) (hl : |l| ≤ 511) (hm : |m| ≤ 511) : exact3 (ipt3 b32 k l m) = ⟨k, l, m⟩ :=
  (onGrid3_ipt goodGrid32 hk hl hm).2

example : simplifyRdp3 hat32 (Flt.ofQ false 2) = .ok hat32 :=
  RdpExtremes.C114_rdp3_removes_nothing_on_floats squareGrid32 (by norm_num) hat32 hat32_grid _ (by decide +kernel) (by
    intro i j k a p b hij hjk ha hp hb q ⟨t, e⟩
    have hk := (List.getElem?_eq_some_iff.1 hb).1
    simp only [hat32, List.length_cons, List.length_nil] at hk
    obtain ⟨rfl, rfl, rfl⟩ : i = 0 ∧ j = 1 ∧ k = 2 := by omega
    simp [hat32] at ha hp hb
    subst ha; subst hp; subst hb; subst e
    rw [show (Flt.ofQ false 2 : F32).val = 2 by decide +kernel, e32 (by norm_num) (by norm_num) (by norm_num),
      e32 (by norm_num) (by norm_num) (by norm_num), e32 (by norm_num) (by norm_num) (by norm_num), show (b32.prec : ℤ) = 24 from rfl]
    simp only [sqDist3, lerp3]
    norm_num
    nlinarith [sq_nonneg (4 - 8 * t)])

example : simplifyRdp3 (ipt3 b32 0 0 0 :: ([ipt3 b32 4 3 0] ++ [ipt3 b32 8 0 0])) (Flt.ofQ false 4) = .ok [ipt3 b32 0 0 0, ipt3 b32 8 0 0] :=
  (RdpExtremes.C114_rdp3_removes_everything_on_floats squareGrid32 (by norm_num) _ [ipt3 b32 4 3 0] _ hat32_grid _ (by decide +kernel)).2 (by
    intro p hp
    simp only [List.mem_cons, List.not_mem_nil, or_false] at hp
    subst hp
    rw [show (Flt.ofQ false 4 : F32).val = 4 by decide +kernel, e32 (by norm_num) (by norm_num) (by norm_num),
      e32 (by norm_num) (by norm_num) (by norm_num), e32 (by norm_num) (by norm_num) (by norm_num), show (b32.prec : ℤ) = 24 from rfl]
    exact ⟨⟨4, 0, 0⟩, ⟨1 / 2, by simp only [lerp3]; norm_num⟩, by simp only [sqDist3]; norm_num⟩)
end floats

end Verif.Witness
