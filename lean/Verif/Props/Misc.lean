import Verif.Proofs.HullModel
import Verif.Proofs.Intersect
import Verif.Model.Misc
import Verif.Props.Intersect
/-!
# C68 – C70: orientation predicates, point on a line, closed lines
-/
namespace Verif.Props.Misc
open Verif Verif.Model Verif.Spec Scalar
set_option linter.unusedSectionVars false
set_option linter.unusedSimpArgs false

section exact
variable {K : Type} [Scalar K] [Field K] [LinearOrder K] [ExactScalar K]

theorem orient_zero_iff (a b c : V2 K) : orient a b c = 0 ↔ a = b ∨ OnLine2 a b c := by
  obtain ⟨ax, ay⟩ := a
  obtain ⟨bx, bY⟩ := b
  obtain ⟨cx, cy⟩ := c
  simp only [orient, OnLine2, lerp2, V2.mk.injEq]
  constructor
  · intro h
    by_cases hx : ax = bx
    · by_cases hy : ay = bY
      · exact Or.inl ⟨hx, hy⟩
      · right
        have hd : bY - ay ≠ 0 := fun e => hy (by linarith)
        refine ⟨(cy - ay) / (bY - ay), ?_, ?_⟩
        · subst hx
          have : (bY - ay) * (cx - ax) = 0 := by linear_combination -h
          rcases mul_eq_zero.1 this with e | e
          · exact absurd e hd
          · rw [sub_self, mul_zero]; linarith
        · field_simp; ring
    · right
      have hd : bx - ax ≠ 0 := fun e => hx (by linarith)
      refine ⟨(cx - ax) / (bx - ax), ?_, ?_⟩
      · field_simp; ring
      · field_simp
        linear_combination h
  · rintro (⟨rfl, rfl⟩ | ⟨t, rfl, rfl⟩) <;> ring

/-- C68: `cross_2d` is twice the signed area of the triangle; it does not change under rotation of the
arguments and changes sign when two of them are exchanged. -/
theorem C68_cross (a b c : V2 K) : cross2d a b c = orient a b c ∧ cross2d b c a = cross2d a b c ∧
    cross2d c a b = cross2d a b c ∧ cross2d b a c = -cross2d a b c ∧ cross2d a c b = -cross2d a b c ∧
    cross2d c b a = -cross2d a b c := by
  simp only [Verif.Hull.cross2d_eq, true_and]
  unfold orient
  refine ⟨?_, ?_, ?_, ?_, ?_⟩ <;> ring

/-- C68: `point_orientation` and the two predicates say on which side of the directed line `a → b` the point `c`
is; "collinear" means that the three points are on one line. -/
theorem C68_orientation (a b c : V2 K) :
    (pointOrientation a b c = .left ↔ 0 < orient a b c) ∧
    (pointOrientation a b c = .right ↔ orient a b c < 0) ∧
    (pointOrientation a b c = .collinear ↔ a = b ∨ OnLine2 a b c) ∧
    (isPointLeft a b c = (pointOrientation a b c).isLeft) ∧
    (isPointLeftAllowCollinear a b c = (pointOrientation a b c).isLeftOrCollinear) := by
  rw [← orient_zero_iff]
  have hl := Verif.Hull.isPointLeft_iff a b c
  have ha := Verif.Hull.isPointLeftAC_iff a b c
  rw [Verif.Hull.pointOrientation_eq]
  rcases lt_trichotomy (orient a b c) 0 with h | h | h
  · have h1 : ¬ 0 < orient a b c := not_lt.2 h.le
    have h2 : orient a b c ≠ 0 := h.ne
    have h3 : isPointLeft a b c = false := by rw [← Bool.not_eq_true, hl]; exact h1
    have h4 : isPointLeftAllowCollinear a b c = false := by rw [← Bool.not_eq_true, ha]; exact not_le.2 h
    simp [h, h1, h2, h3, h4, Orientation.isLeft, Orientation.isLeftOrCollinear]
  · have h3 : isPointLeft a b c = false := by rw [← Bool.not_eq_true, hl, h]; exact lt_irrefl _
    have h4 : isPointLeftAllowCollinear a b c = true := by rw [ha, h]
    simp [h, h3, h4, Orientation.isLeft, Orientation.isLeftOrCollinear]
  · have h3 : isPointLeft a b c = true := by rw [hl]; exact h
    have h4 : isPointLeftAllowCollinear a b c = true := by rw [ha]; exact h.le
    simp [h, h.ne', h3, h4, Orientation.isLeft, Orientation.isLeftOrCollinear, not_lt.2 h.le]

/-- C68: the orientation is the same after a rotation of the arguments and mirrored when two of them are
exchanged. -/
theorem C68_orientation_symmetry (a b c : V2 K) :
    pointOrientation b c a = pointOrientation a b c ∧
    (pointOrientation b a c = .left ↔ pointOrientation a b c = .right) ∧
    (pointOrientation b a c = .collinear ↔ pointOrientation a b c = .collinear) := by
  have e1 : orient b c a = orient a b c := by unfold orient; ring
  have e2 : orient b a c = -orient a b c := by unfold orient; ring
  refine ⟨?_, ?_, ?_⟩
  · rw [Verif.Hull.pointOrientation_eq, Verif.Hull.pointOrientation_eq, e1]
  · rw [(C68_orientation b a c).1, (C68_orientation a b c).2.1, e2]
    constructor <;> intro h <;> linarith
  · rw [(C68_orientation b a c).2.2.1, (C68_orientation a b c).2.2.1, ← orient_zero_iff, ← orient_zero_iff, e2,
      neg_eq_zero]

/-- C69: `scale_to_coordinate` runs along the line: with the vector `b - a` and the scale `t` it is the point
`a + t (b - a)`. -/
theorem C69_scale_to_coordinate (a b : V2 K) (t : K) :
    scaleToCoordinate a (b.sub a) t = lerp2 a b t := by
  simp only [scaleToCoordinate, lerp2, exact_simp, V2.mk.injEq]
  constructor <;> ring

end exact

/-- C69: `intersect_line_point` returns the point iff it is on the segment. -/
theorem C69_point_on_line {K : Type} [Scalar K] [Field K] [LinearOrder K] [ExactScalar K] [ExactSqrt K]
    (l : Line2 K) (p : V2 K) :
    (OnSegment2 l.start l.end p → intersectLinePoint l p = some (.point p)) ∧
    (¬ OnSegment2 l.start l.end p → intersectLinePoint l p = none) := by
  have hform : intersectLinePoint l p = some (.point p) ∨ intersectLinePoint l p = none := by
    unfold intersectLinePoint
    simp only
    split_ifs <;> simp
  have hd := Verif.Proofs.Intersect.linePoint_denotes l p p
  rcases hform with h | h
  · rw [h] at hd ⊢
    exact ⟨fun _ => rfl, fun hn => absurd (hd.1 rfl).1 hn⟩
  · rw [h] at hd ⊢
    exact ⟨fun hs => (hd.2 ⟨hs, rfl⟩).elim, fun _ => rfl⟩

/-- C70: a line string is connected iff it is empty or its first and last points are equal (2D and 3D; NaN is
not equal to itself, so this holds with the comparison of the scalars). -/
theorem C70_is_connected {α : Type} [Scalar α] (l : List (V2 α)) (m : List (V3 α)) :
    (isConnected2 l = true ↔ l = [] ∨ ∃ a b, l.head? = some a ∧ l.getLast? = some b ∧ a.beq b = true) ∧
    (isConnected3 m = true ↔ m = [] ∨ ∃ a b, m.head? = some a ∧ m.getLast? = some b ∧ a.beq b = true) := by
  constructor
  · cases l with
    | nil => simp [isConnected2]
    | cons a l =>
      have h : (a :: l).getLast? = some ((a :: l).getLast (by simp)) := List.getLast?_eq_getLast_of_ne_nil _
      simp [isConnected2, h]
  · cases m with
    | nil => simp [isConnected3]
    | cons a l =>
      have h : (a :: l).getLast? = some ((a :: l).getLast (by simp)) := List.getLast?_eq_getLast_of_ne_nil _
      simp [isConnected3, h]

/-- C70: `point_count` does not count the repeated closing point of a closed line (of at least three points);
exact comparison. -/
theorem C70_point_count {K : Type} [Scalar K] [LinearOrder K] [OrderedScalar K] (l : List (V2 K)) :
    (2 < l.length → l.head? = l.getLast? → pointCount2 l = l.length - 1) ∧
    ((l.length ≤ 2 ∨ l.head? ≠ l.getLast?) → pointCount2 l = l.length) := by
  have hb : ∀ a b : V2 K, a.beq b = true ↔ a = b := by
    rintro ⟨a1, a2⟩ ⟨b1, b2⟩
    simp [V2.beq, beq_decide]
  constructor
  · intro h e
    have hc : isConnected2 l = true := by
      rw [(C70_is_connected l ([] : List (V3 K))).1]
      right
      cases l with
      | nil => simp at h
      | cons a l => exact ⟨a, a, rfl, e.symm, (hb a a).2 rfl⟩
    unfold pointCount2
    rw [if_pos (by simp [hc, h])]
  · intro h
    unfold pointCount2
    rw [if_neg]
    intro hc
    simp only [Bool.and_eq_true, decide_eq_true_eq, (C70_is_connected l ([] : List (V3 K))).1] at hc
    obtain ⟨h1, h2 | ⟨a, b, ha, hb', hab⟩⟩ := hc
    · subst h2; simp at h1
    · rcases h with h | h
      · omega
      · exact h (by rw [ha, hb', (hb a b).1 hab])

example : pointCount2 ([⟨0, 0⟩, ⟨1, 0⟩, ⟨0, 1⟩, ⟨0, 0⟩] : List (V2 ℚ)) = 3 ∧
    pointCount2 ([⟨0, 0⟩, ⟨1, 0⟩, ⟨0, 1⟩] : List (V2 ℚ)) = 3 ∧
    isConnected3 ([⟨0, 0, 1⟩, ⟨1, 0, 1⟩, ⟨0, 0, 1⟩] : List (V3 ℚ)) = true ∧
    isConnected3 ([⟨0, 0, 1⟩, ⟨1, 0, 1⟩, ⟨0, 0, 2⟩] : List (V3 ℚ)) = false ∧
    pointOrientation (⟨0, 0⟩ : V2 ℚ) ⟨0, 10⟩ ⟨-10, 5⟩ = .left ∧
    pointOrientation (⟨0, 0⟩ : V2 ℚ) ⟨0, 10⟩ ⟨0, 25⟩ = .collinear ∧
    pointOrientation (⟨0, 0⟩ : V2 ℚ) ⟨-10, 5⟩ ⟨0, 10⟩ = .right := by decide +kernel

/-- the point (1,1) is on the segment from (0,0) to (2,2) and the point (3,3) is not -/
example : intersectLinePoint (⟨⟨0, 0⟩, ⟨2, 2⟩⟩ : Line2 ℝ) ⟨1, 1⟩ = some (.point ⟨1, 1⟩) ∧
    intersectLinePoint (⟨⟨0, 0⟩, ⟨2, 2⟩⟩ : Line2 ℝ) ⟨3, 3⟩ = none := by
  constructor
  · exact (C69_point_on_line _ _).1 ⟨1 / 2, by norm_num, by norm_num, by norm_num [lerp2]⟩
  · refine (C69_point_on_line _ _).2 ?_
    rintro ⟨t, h0, h1, e⟩
    have := congrArg V2.x e
    simp only [lerp2] at this
    linarith

end Verif.Props.Misc
