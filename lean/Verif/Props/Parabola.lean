import Verif.Model.Parabola
import Verif.Spec.Geom
import Verif.Props.Dist
import Verif.Spec.Instances
import Mathlib.Tactic.IntervalCases
/-!
# C50, C51, C55: `VoronoiParabolicArc`
-/
set_option linter.unusedSectionVars false
set_option linter.unusedSimpArgs false
set_option linter.unusedVariables false
namespace Verif.Props
open Verif Verif.Model Verif.Spec Scalar

section lawless
variable {α : Type} [Scalar α] {P : Type}

/-- what the loop appends are points `emit x (parabola_y x)` -/
theorem arc_loop_out (c : Arc.Const α) (emit : α → α → P) : ∀ (fuel : Nat) (s s' : Arc.State P α),
    Arc.loop c emit fuel s = some s' →
    ∃ xs : List α, s'.out = s.out ++ xs.map (fun x => emit x (Arc.parabolaY x c.rotX c.rotY)) ∧
      (s.stack ≠ [] → xs ≠ []) := by
  intro fuel
  induction fuel with
  | zero =>
    intro s s' h
    unfold Arc.loop at h
    split at h
    · cases h; exact ⟨[], by simp, fun h => absurd ‹_› h⟩
    · simp at h
  | succ fuel ih =>
    intro s s' h
    unfold Arc.loop at h
    split at h
    · cases h; exact ⟨[], by simp, fun h => absurd ‹_› h⟩
    · rename_i newX rest hs
      simp only at h
      obtain ⟨xs, hx, hne⟩ := ih _ _ h
      unfold Arc.round at hx hne
      simp only at hx hne
      split_ifs at hx hne
      · exact ⟨newX :: xs, by rw [hx]; simp, by simp⟩
      · exact ⟨xs, hx, fun _ => hne (by simp)⟩

/-- more fuel does not change the result -/
theorem arc_loop_fuel (c : Arc.Const α) (emit : α → α → P) : ∀ (fuel k : Nat) (s s' : Arc.State P α),
    Arc.loop c emit fuel s = some s' → Arc.loop c emit (fuel + k) s = some s' := by
  intro fuel
  induction fuel with
  | zero =>
    intro k s s' h
    unfold Arc.loop at h
    split at h
    · rename_i hs; unfold Arc.loop; rw [hs]; exact h
    · simp at h
  | succ fuel ih =>
    intro k s s' h
    unfold Arc.loop at h
    split at h
    · rename_i hs; unfold Arc.loop; rw [hs]; exact h
    · rename_i newX rest hs
      rw [show fuel + 1 + k = (fuel + k) + 1 by omega]
      unfold Arc.loop
      rw [hs]
      exact ih _ _ _ h

theorem arc_loop_unique (c : Arc.Const α) (emit : α → α → P) (f1 f2 : Nat) (s s1 s2 : Arc.State P α)
    (h1 : Arc.loop c emit f1 s = some s1) (h2 : Arc.loop c emit f2 s = some s2) : s1 = s2 := by
  have a := arc_loop_fuel c emit f1 f2 s s1 h1
  have b := arc_loop_fuel c emit f2 f1 s s2 h2
  rw [Nat.add_comm] at b
  rw [a] at b
  exact Option.some.inj b

theorem arc_step (c : Arc.Const α) (emit : α → α → P) (newX : α) (rest : List α)
    (s : Arc.State P α) (hs : s.stack = newX :: rest) (m : Nat) :
    Arc.loop c emit (m + 1) s = Arc.loop c emit m (Arc.round c emit newX rest s) := by
  conv_lhs => unfold Arc.loop
  rw [hs]

theorem setLast_concat (a x p : P) (l : List P) : Arc.setLast (a :: (l ++ [x])) p = a :: (l ++ [p]) := by
  unfold Arc.setLast
  rw [← List.cons_append, List.dropLast_concat]; rfl

/-- the shape of the output of the 2D discretization -/
theorem discretize2d_shape (fuel : Nat) (a : Arc α) (d : α) (out : List (V2 α))
    (h : a.discretize2d fuel d = some out) :
    ∃ xs : List α, out = a.startPoint :: ((xs.map (fun x => a.interPoint (a.const d) x
      (Arc.parabolaY x (a.const d).rotX (a.const d).rotY))) ++ [a.endPoint]) := by
  unfold Arc.discretize2d at h
  simp only [Option.map_eq_some_iff] at h
  obtain ⟨s, hs, rfl⟩ := h
  obtain ⟨xs, hx, hne⟩ := arc_loop_out _ _ _ _ _ hs
  have hne := hne (by simp [Arc.init2])
  refine ⟨xs.dropLast, ?_⟩
  rw [hx]
  simp only [Arc.setLast, Arc.init2]
  rw [List.dropLast_append_of_ne_nil (by simpa using hne), ← List.map_dropLast]
  simp

theorem discretize3d_shape (fuel : Nat) (a : Arc α) (d : α) (out : List (V3 α))
    (h : a.discretize3d fuel d = some out) :
    ∃ xs : List α, out = Arc.lift3 a.cellPoint a.startPoint ::
      ((xs.map (fun x => Arc.lift3 a.cellPoint (a.interPoint (a.const d) x
      (Arc.parabolaY x (a.const d).rotX (a.const d).rotY)))) ++ [Arc.lift3 a.cellPoint a.endPoint]) := by
  unfold Arc.discretize3d at h
  simp only [Option.map_eq_some_iff] at h
  obtain ⟨s, hs, rfl⟩ := h
  obtain ⟨xs, hx, hne⟩ := arc_loop_out _ _ _ _ _ hs
  have hne := hne (by simp [Arc.init3])
  refine ⟨xs.dropLast, ?_⟩
  rw [hx]
  simp only [Arc.setLast, Arc.init3]
  rw [List.dropLast_append_of_ne_nil (by simpa using hne), ← List.map_dropLast]
  simp

/-- **C50** (2D).  If `discretize_2d` returns, the first and last points are exactly the start and
the end point of the arc, and these are two different entries of the output.  No law of arithmetic is
used. -/
theorem C50_end_points_2d (fuel : Nat) (a : Arc α) (d : α) (out : List (V2 α))
    (h : a.discretize2d fuel d = some out) :
    out.head? = some a.startPoint ∧ out.getLast? = some a.endPoint ∧ 2 ≤ out.length := by
  obtain ⟨xs, rfl⟩ := discretize2d_shape fuel a d out h
  refine ⟨rfl, ?_, by simp⟩
  rw [← List.cons_append, List.getLast?_append]; rfl

/-- **C50** (3D).  If `discretize_3d` returns, the first and last points have the x and y coordinates
of the start and the end point of the arc, and the third coordinate of every point of the output is
minus the (computed) distance of its x, y part to the cell point. -/
theorem C50_end_points_3d (fuel : Nat) (a : Arc α) (d : α) (out : List (V3 α))
    (h : a.discretize3d fuel d = some out) :
    (out.map (fun p => (⟨p.x, p.y⟩ : V2 α))).head? = some a.startPoint ∧
    (out.map (fun p => (⟨p.x, p.y⟩ : V2 α))).getLast? = some a.endPoint ∧ 2 ≤ out.length ∧
    ∀ p ∈ out, p.z = -. Scalar.sqrt (((p.x -. a.cellPoint.x) *. (p.x -. a.cellPoint.x)) +.
      ((p.y -. a.cellPoint.y) *. (p.y -. a.cellPoint.y))) := by
  obtain ⟨xs, rfl⟩ := discretize3d_shape fuel a d out h
  refine ⟨rfl, ?_, by simp, ?_⟩
  · rw [← List.cons_append, List.map_append, List.getLast?_append]; rfl
  · intro p hp
    simp only [List.mem_cons, List.mem_append, List.mem_map, List.not_mem_nil, or_false] at hp
    rcases hp with rfl | ⟨x, -, rfl⟩ | rfl <;> rfl

/-- **C50** (straight line variant): two points over the start and the end of the arc. -/
theorem C50_straight_line (a : Arc α) :
    a.discretize3dStraightLine.map (fun p => (⟨p.x, p.y⟩ : V2 α)) = [a.startPoint, a.endPoint] := rfl

end lawless

section exact
variable {K : Type} [Scalar K] [Field K] [LinearOrder K] [ExactScalar K]

/-- `p` has the same distance to the point `c` as to the infinite line through `s` and `e` -/
def Equidistant (s e c p : V2 K) : Prop := IsMinSqDist sqDist2 p (OnLine2 s e) (sqDist2 p c)

theorem equidistant_iff (s e c p : V2 K) (hse : 0 < sqDist2 e s) :
    Equidistant s e c p ↔ orient s e p ^ 2 = sqDist2 p c * sqDist2 e s := by
  have key : ∀ t : K, sqDist2 p (lerp2 s e t) * sqDist2 e s = orient s e p ^ 2 +
      ((e.x - s.x) * (p.x - s.x) + (e.y - s.y) * (p.y - s.y) - t * sqDist2 e s) ^ 2 := by
    intro t
    simp only [sqDist2, lerp2, orient]; ring
  have ex : ∃ t : K, sqDist2 p (lerp2 s e t) * sqDist2 e s = orient s e p ^ 2 := by
    refine ⟨((e.x - s.x) * (p.x - s.x) + (e.y - s.y) * (p.y - s.y)) / sqDist2 e s, ?_⟩
    rw [key, div_mul_cancel₀ _ hse.ne']; ring
  constructor
  · rintro ⟨⟨q, ⟨t, rfl⟩, hq⟩, hmin⟩
    obtain ⟨t0, h0⟩ := ex
    have h1 := hmin _ ⟨t0, rfl⟩
    have h2 : sqDist2 p c * sqDist2 e s ≤ orient s e p ^ 2 := by
      rw [← h0]; exact mul_le_mul_of_nonneg_right h1 hse.le
    have h3 : orient s e p ^ 2 ≤ sqDist2 p c * sqDist2 e s := by
      rw [hq, key]; nlinarith [sq_nonneg ((e.x - s.x) * (p.x - s.x) + (e.y - s.y) * (p.y - s.y) - t * sqDist2 e s)]
    exact le_antisymm h3 h2
  · intro h
    refine ⟨?_, ?_⟩
    · obtain ⟨t0, h0⟩ := ex
      exact ⟨_, ⟨t0, rfl⟩, mul_right_cancel₀ hse.ne' (by rw [h0, h])⟩
    · rintro q ⟨t, rfl⟩
      refine le_of_mul_le_mul_right ?_ hse
      rw [key, ← h]
      nlinarith [sq_nonneg ((e.x - s.x) * (p.x - s.x) + (e.y - s.y) * (p.y - s.y) - t * sqDist2 e s)]


/-- the coordinate of `p` along the segment `s e`, times the length of the segment -/
def along (s e p : V2 K) : K := (e.x - s.x) * (p.x - s.x) + (e.y - s.y) * (p.y - s.y)

theorem const_eq (a : Arc K) (d : K) : a.const d =
    ⟨a.segment.end.x - a.segment.start.x, a.segment.end.y - a.segment.start.y,
     sqDist2 a.segment.end a.segment.start, along a.segment.start a.segment.end a.cellPoint,
     orient a.segment.start a.segment.end a.cellPoint, d * d * sqDist2 a.segment.end a.segment.start⟩ := by
  simp only [Arc.const, exact_simp, sqDist2, along, orient, Arc.Const.mk.injEq]
  refine ⟨trivial, trivial, ?_, trivial, trivial, ?_⟩ <;> ring

theorem along_inter (a : Arc K) (d X Y : K) (hL : 0 < sqDist2 a.segment.end a.segment.start) :
    along a.segment.start a.segment.end (a.interPoint (a.const d) X Y) = X := by
  rw [const_eq]
  simp only [Arc.interPoint, exact_simp, along]
  have h := hL.ne'
  field_simp
  simp only [sqDist2]; ring

theorem orient_inter (a : Arc K) (d X Y : K) (hL : 0 < sqDist2 a.segment.end a.segment.start) :
    orient a.segment.start a.segment.end (a.interPoint (a.const d) X Y) = Y := by
  rw [const_eq]
  simp only [Arc.interPoint, exact_simp, orient]
  have h := hL.ne'
  field_simp
  simp only [sqDist2]; ring

theorem inter_of_coords (a : Arc K) (d : K) (p : V2 K)
    (hL : 0 < sqDist2 a.segment.end a.segment.start) :
    a.interPoint (a.const d) (along a.segment.start a.segment.end p)
      (orient a.segment.start a.segment.end p) = p := by
  rw [const_eq]
  have h := hL.ne'
  obtain ⟨px, py⟩ := p
  simp only [Arc.interPoint, exact_simp, orient, along, V2.mk.injEq]
  constructor
  · rw [div_add' _ _ _ h, div_eq_iff h]; simp only [sqDist2]; ring
  · rw [div_add' _ _ _ h, div_eq_iff h]; simp only [sqDist2]; ring

theorem sqDist_coords (s e p q : V2 K) : sqDist2 p q * sqDist2 e s =
    (along s e p - along s e q) ^ 2 + (orient s e p - orient s e q) ^ 2 := by
  simp only [sqDist2, along, orient]; ring

/-- `parabola_y` in exact arithmetic -/
theorem parabolaY_eq (x a b : K) : Arc.parabolaY x a b = ((x - a) * (x - a) + b * b) / (b + b) := by
  simp only [Arc.parabolaY, exact_simp]

theorem parabolaY_mul (x a b : K) (hb : b ≠ 0) :
    2 * b * Arc.parabolaY x a b = (x - a) ^ 2 + b ^ 2 := by
  rw [parabolaY_eq]
  have : b + b ≠ 0 := by rw [← two_mul]; exact mul_ne_zero two_ne_zero hb
  field_simp; ring

theorem equidistant_coords (a : Arc K) (p : V2 K)
    (hL : 0 < sqDist2 a.segment.end a.segment.start)
    (hb : orient a.segment.start a.segment.end a.cellPoint ≠ 0) :
    Equidistant a.segment.start a.segment.end a.cellPoint p ↔
    orient a.segment.start a.segment.end p = Arc.parabolaY (along a.segment.start a.segment.end p)
      (along a.segment.start a.segment.end a.cellPoint)
      (orient a.segment.start a.segment.end a.cellPoint) := by
  rw [equidistant_iff _ _ _ _ hL, sqDist_coords]
  generalize orient a.segment.start a.segment.end p = Y
  generalize along a.segment.start a.segment.end p = X
  generalize along a.segment.start a.segment.end a.cellPoint = A at *
  generalize orient a.segment.start a.segment.end a.cellPoint = B at *
  have h := parabolaY_mul X A B hb
  constructor
  · intro e
    refine mul_left_cancel₀ (mul_ne_zero two_ne_zero hb) ?_
    rw [h]; linear_combination e
  · intro e
    rw [← e] at h
    linear_combination h

theorem sqDist_pos_of_cell (s e c : V2 K) (hb : orient s e c ≠ 0) : 0 < sqDist2 e s := by
  rcases (add_nonneg (sq_nonneg (e.x - s.x)) (sq_nonneg (e.y - s.y))).lt_or_eq with h | h
  · exact h
  · exfalso
    apply hb
    have h1 : (e.x - s.x) ^ 2 = 0 := by nlinarith [sq_nonneg (e.x - s.x), sq_nonneg (e.y - s.y)]
    have h2 : (e.y - s.y) ^ 2 = 0 := by nlinarith [sq_nonneg (e.x - s.x), sq_nonneg (e.y - s.y)]
    simp only [orient, pow_eq_zero_iff two_ne_zero] at *
    rw [h1, h2]; ring

/-- **C51** (2D points).  In exact arithmetic, if the cell point is not on the line through the
segment, every point of the output except the first and the last is at the same distance from the
cell point as from the line through the segment. -/
theorem C51_equidistant (fuel : Nat) (a : Arc K) (d : K) (out : List (V2 K))
    (hcell : orient a.segment.start a.segment.end a.cellPoint ≠ 0)
    (h : a.discretize2d fuel d = some out) :
    ∀ p ∈ out.tail.dropLast, Equidistant a.segment.start a.segment.end a.cellPoint p := by
  have hL := sqDist_pos_of_cell _ _ _ hcell
  obtain ⟨xs, rfl⟩ := discretize2d_shape fuel a d out h
  intro p hp
  simp only [List.tail_cons, List.dropLast_concat, List.mem_map] at hp
  obtain ⟨x, -, rfl⟩ := hp
  rw [equidistant_coords a _ hL hcell, along_inter a d _ _ hL, orient_inter a d _ _ hL, const_eq]

/-- **C51** (3D points).  The x, y parts of the inner points of `discretize_3d` are equidistant and
the third coordinate is minus the distance. -/
theorem C51_equidistant_3d [ExactSqrt K] (fuel : Nat) (a : Arc K) (d : K) (out : List (V3 K))
    (hcell : orient a.segment.start a.segment.end a.cellPoint ≠ 0)
    (h : a.discretize3d fuel d = some out) :
    (∀ p ∈ out.tail.dropLast, Equidistant a.segment.start a.segment.end a.cellPoint ⟨p.x, p.y⟩) ∧
    (∀ p ∈ out, p.z ≤ 0 ∧ p.z ^ 2 = sqDist2 ⟨p.x, p.y⟩ a.cellPoint) := by
  have hL := sqDist_pos_of_cell _ _ _ hcell
  have hz := (C50_end_points_3d fuel a d out h).2.2.2
  constructor
  · obtain ⟨xs, rfl⟩ := discretize3d_shape fuel a d out h
    intro p hp
    simp only [List.tail_cons, List.dropLast_concat, List.mem_map] at hp
    obtain ⟨x, -, rfl⟩ := hp
    simp only [Arc.lift3]
    rw [equidistant_coords a _ hL hcell]
    have e : ∀ v : V2 K, (⟨v.x, v.y⟩ : V2 K) = v := fun _ => rfl
    rw [e, along_inter a d _ _ hL, orient_inter a d _ _ hL, const_eq]
  · intro p hp
    have e := hz p hp
    simp only [exact_simp] at e
    have n : 0 ≤ sqDist2 (⟨p.x, p.y⟩ : V2 K) a.cellPoint := add_nonneg (sq_nonneg _) (sq_nonneg _)
    have n' : (p.x - a.cellPoint.x) * (p.x - a.cellPoint.x) + (p.y - a.cellPoint.y) * (p.y - a.cellPoint.y)
      = sqDist2 (⟨p.x, p.y⟩ : V2 K) a.cellPoint := by simp only [sqDist2]; ring
    rw [n'] at e
    rw [e]
    refine ⟨neg_nonpos.2 (ExactSqrt.sqrt_nonneg _), ?_⟩
    rw [neg_sq, sq, ExactSqrt.sqrt_sq _ n]

/-- **C50** (straight line variant, heights).  The third coordinates are minus the distance of the start
point to the segment and minus the distance of the end point to the cell point. -/
theorem C50_straight_line_heights [ExactSqrt K] (a : Arc K) :
    ∃ z z' : K, a.discretize3dStraightLine =
        [⟨a.startPoint.x, a.startPoint.y, z⟩, ⟨a.endPoint.x, a.endPoint.y, z'⟩] ∧
      z ≤ 0 ∧ IsMinSqDist sqDist2 a.startPoint (OnSegment2 a.segment.start a.segment.end) (z ^ 2) ∧
      z' ≤ 0 ∧ z' ^ 2 = sqDist2 a.endPoint a.cellPoint := by
  have hm := Props.Dist.C16_dist2_safe_is_min a.segment.start a.segment.end a.startPoint
  have hn : 0 ≤ distToLineSqSafe2 a.segment.start a.segment.end a.startPoint := by
    obtain ⟨⟨q, -, hq⟩, -⟩ := hm
    rw [hq]; exact add_nonneg (sq_nonneg _) (sq_nonneg _)
  have e : ∀ v : K, -. v = -v := fun v => ExactScalar.neg_eq v
  refine ⟨_, _, rfl, ?_, ?_, ?_, ?_⟩
  · rw [e]; exact neg_nonpos.2 (ExactSqrt.sqrt_nonneg _)
  · rw [e, neg_sq, sq, ExactSqrt.sqrt_sq _ hn]; exact hm
  · rw [e]; exact neg_nonpos.2 (ExactSqrt.sqrt_nonneg _)
  · have n' : (a.endPoint.sub a.cellPoint).magSq = sqDist2 a.endPoint a.cellPoint := by
      simp only [exact_simp, sqDist2]; ring
    rw [e, neg_sq, sq]
    unfold V2.mag
    rw [ExactSqrt.sqrt_sq, n']
    rw [n']; exact add_nonneg (sq_nonneg _) (sq_nonneg _)

/-! ### Termination and the accuracy of the polyline -/

/-- the test made by the loop, in exact arithmetic -/
def Acc (c : Arc.Const K) (x y : K) : Prop :=
  (y - x) ^ 4 ≤ c.maxDist * (64 * c.rotY ^ 2 + 16 * (y + x - 2 * c.rotX) ^ 2)

instance (c : Arc.Const K) (x y : K) : Decidable (Acc c x y) := inferInstanceAs (Decidable (_ ≤ _))

theorem arc_round {P : Type} (c : Arc.Const K) (emit : K → K → P) (newX : K) (rest : List K)
    (s : Arc.State P K) (hb : c.rotY ≠ 0) (hy : s.curY = Arc.parabolaY s.curX c.rotX c.rotY)
    (hne : newX ≠ s.curX) :
    Arc.round c emit newX rest s =
      if Acc c s.curX newX then
        { stack := rest, curX := newX, curY := Arc.parabolaY newX c.rotX c.rotY,
          out := s.out ++ [emit newX (Arc.parabolaY newX c.rotX c.rotY)] }
      else { s with stack := (newX + s.curX) / 2 :: s.stack } := by
  obtain ⟨stack, x, y0, out⟩ := s
  obtain ⟨sx, sy, sqr, A, B, M⟩ := c
  simp only at hb hy hne
  have hB : B + B ≠ 0 := by rw [← two_mul]; exact mul_ne_zero two_ne_zero hb
  have hh : newX - x ≠ 0 := sub_ne_zero.2 hne
  have hdy : Arc.parabolaY newX A B - y0 = (newX - x) * ((newX + x - 2 * A) / (2 * B)) := by
    rw [hy, parabolaY_eq, parabolaY_eq]; field_simp; ring
  have hmid : (Arc.parabolaY newX A B - y0) / (newX - x) * B + A = (newX + x) / 2 := by
    rw [hdy]; field_simp; ring
  have hd : (Arc.parabolaY newX A B - y0) * ((newX + x) / 2 - x) -
      (newX - x) * (Arc.parabolaY ((newX + x) / 2) A B - y0) = (newX - x) ^ 3 / (8 * B) := by
    rw [hy, parabolaY_eq, parabolaY_eq, parabolaY_eq]; field_simp; ring
  have hden : (Arc.parabolaY newX A B - y0) * (Arc.parabolaY newX A B - y0) +
      (newX - x) * (newX - x) = (newX - x) ^ 2 * (4 * B ^ 2 + (newX + x - 2 * A) ^ 2) / (4 * B ^ 2) := by
    rw [hdy]; field_simp; ring
  have hpos : 0 < 4 * B ^ 2 + (newX + x - 2 * A) ^ 2 := by
    have := pow_pos (abs_pos.2 hb) 2
    rw [sq_abs] at this
    nlinarith [sq_nonneg (newX + x - 2 * A)]
  have hdist : (newX - x) ^ 3 / (8 * B) * ((newX - x) ^ 3 / (8 * B)) /
      ((newX - x) ^ 2 * (4 * B ^ 2 + (newX + x - 2 * A) ^ 2) / (4 * B ^ 2)) =
      (newX - x) ^ 4 / (64 * B ^ 2 + 16 * (newX + x - 2 * A) ^ 2) := by
    have h2 : 64 * B ^ 2 + 16 * (newX + x - 2 * A) ^ 2 ≠ 0 := by nlinarith
    have h3 := hpos.ne'
    rw [div_eq_div_iff (by positivity) h2]
    field_simp
    ring
  have hacc : ((newX - x) ^ 4 / (64 * B ^ 2 + 16 * (newX + x - 2 * A) ^ 2) ≤ M) ↔
      (newX - x) ^ 4 ≤ M * (64 * B ^ 2 + 16 * (newX + x - 2 * A) ^ 2) :=
    div_le_iff₀ (by nlinarith)
  simp only [Arc.round, exact_simp]
  rw [hmid, hd, hden, hdist]
  by_cases hA : Acc ⟨sx, sy, sqr, A, B, M⟩ x newX
  · rw [if_pos hA, if_pos (hacc.2 hA)]
  · rw [if_neg hA, if_neg (fun h => hA (hacc.1 h))]

theorem arc_run {P : Type} (c : Arc.Const K) (emit : K → K → P) (hb : c.rotY ≠ 0) (δ : K)
    (hδ : ∀ x y : K, |y - x| ≤ δ → Acc c x y) : ∀ (k : Nat) (s : Arc.State P K) (newX : K)
    (rest : List K), s.stack = newX :: rest → s.curY = Arc.parabolaY s.curX c.rotX c.rotY →
    newX ≠ s.curX → |newX - s.curX| ≤ 2 ^ k * δ →
    ∃ (n : Nat) (xs : List K), (∀ m, Arc.loop c emit (n + m) s =
      Arc.loop c emit m ⟨rest, newX, Arc.parabolaY newX c.rotX c.rotY,
        s.out ++ (xs ++ [newX]).map (fun x => emit x (Arc.parabolaY x c.rotX c.rotY))⟩) ∧
      List.IsChain (fun x y => Acc c x y ∧ 0 < (y - x) * (newX - s.curX)) (s.curX :: (xs ++ [newX])) := by
  intro k
  induction k with
  | zero =>
    intro s newX rest hs hy hne hle
    rw [pow_zero, one_mul] at hle
    have ha := hδ _ _ hle
    refine ⟨1, [], fun m => ?_, ?_⟩
    · rw [Nat.add_comm, arc_step c emit newX rest s hs, arc_round c emit newX rest s hb hy hne, if_pos ha]
      rfl
    · simp only [List.nil_append, List.isChain_cons_cons, List.isChain_singleton, and_true]
      exact ⟨ha, mul_self_pos.2 (sub_ne_zero.2 hne)⟩
  | succ k ih =>
    intro s newX rest hs hy hne hle
    by_cases ha : Acc c s.curX newX
    · refine ⟨1, [], fun m => ?_, ?_⟩
      · rw [Nat.add_comm, arc_step c emit newX rest s hs, arc_round c emit newX rest s hb hy hne, if_pos ha]
        rfl
      · simp only [List.nil_append, List.isChain_cons_cons, List.isChain_singleton, and_true]
        exact ⟨ha, mul_self_pos.2 (sub_ne_zero.2 hne)⟩
    · obtain ⟨mid, hmid⟩ : ∃ m, m = (newX + s.curX) / 2 := ⟨_, rfl⟩
      have e1 : mid - s.curX = (newX - s.curX) / 2 := by rw [hmid]; ring
      have e2 : newX - mid = (newX - s.curX) / 2 := by rw [hmid]; ring
      have hh := sub_ne_zero.2 hne
      have n1 : mid ≠ s.curX := by
        rw [← sub_ne_zero, e1]; exact div_ne_zero hh two_ne_zero
      have n2 : newX ≠ mid := by
        rw [← sub_ne_zero, e2]; exact div_ne_zero hh two_ne_zero
      have hhalf : |(newX - s.curX) / 2| ≤ 2 ^ k * δ := by
        rw [abs_div, abs_two, div_le_iff₀ two_pos]
        calc _ ≤ _ := hle
          _ = _ := by ring
      obtain ⟨a1, xs1, r1, c1⟩ := ih { s with stack := mid :: s.stack } mid s.stack rfl hy n1
        (by rw [e1]; exact hhalf)
      obtain ⟨a2, xs2, r2, c2⟩ := ih ⟨s.stack, mid, Arc.parabolaY mid c.rotX c.rotY,
        s.out ++ (xs1 ++ [mid]).map (fun x => emit x (Arc.parabolaY x c.rotX c.rotY))⟩ newX rest hs rfl n2
        (by rw [e2]; exact hhalf)
      refine ⟨a1 + a2 + 1, xs1 ++ mid :: xs2, fun m => ?_, ?_⟩
      · rw [show a1 + a2 + 1 + m = (a1 + (a2 + m)) + 1 by omega, arc_step c emit newX rest s hs,
          arc_round c emit newX rest s hb hy hne, if_neg ha, ← hmid, r1, r2]
        simp
      · simp only at c1 c2
        rw [e1] at c1
        rw [e2] at c2
        have f : ∀ x y : K, Acc c x y ∧ 0 < (y - x) * ((newX - s.curX) / 2) →
            Acc c x y ∧ 0 < (y - x) * (newX - s.curX) := by
          rintro x y ⟨u, v⟩
          refine ⟨u, ?_⟩
          have : (y - x) * (newX - s.curX) = 2 * ((y - x) * ((newX - s.curX) / 2)) := by ring
          rw [this]; linarith
        have d1 := c1.imp (fun x y => f x y)
        have d2 := c2.imp (fun x y => f x y)
        have : s.curX :: (xs1 ++ mid :: xs2 ++ [newX]) = (s.curX :: xs1) ++ mid :: (xs2 ++ [newX]) := by simp
        rw [this, List.isChain_split]
        exact ⟨by simpa using d1, d2⟩


theorem proj_mul (p : V2 K) (g : Line2 K) (hL : 0 < sqDist2 g.end g.start) :
    Arc.pointProjection p g *. sqDist2 g.end g.start = along g.start g.end p := by
  simp only [Arc.pointProjection, exact_simp]
  have e : (g.end.x - g.start.x) * (g.end.x - g.start.x) + (g.end.y - g.start.y) * (g.end.y - g.start.y)
    = sqDist2 g.end g.start := by simp only [sqDist2]; ring
  rw [e, div_mul_cancel₀ _ hL.ne']; rfl

theorem proj_mul' (p : V2 K) (g : Line2 K) (hL : 0 < sqDist2 g.end g.start) :
    sqDist2 g.end g.start *. Arc.pointProjection p g = along g.start g.end p := by
  rw [← proj_mul p g hL]; simp only [exact_simp]; ring

/-- the complete run of the loop -/
theorem arc_main [Archimedean K] {P : Type} (a : Arc K) (d : K) (emit : K → K → P) (hd : d ≠ 0)
    (hcell : orient a.segment.start a.segment.end a.cellPoint ≠ 0)
    (hne : along a.segment.start a.segment.end a.startPoint ≠
      along a.segment.start a.segment.end a.endPoint) (out : List P) :
    ∃ (n : Nat) (xs : List K), (∀ m, Arc.loop (a.const d) emit (n + m)
        ⟨[along a.segment.start a.segment.end a.endPoint], along a.segment.start a.segment.end a.startPoint,
          Arc.parabolaY (along a.segment.start a.segment.end a.startPoint) (a.const d).rotX (a.const d).rotY, out⟩
      = some ⟨[], along a.segment.start a.segment.end a.endPoint,
          Arc.parabolaY (along a.segment.start a.segment.end a.endPoint) (a.const d).rotX (a.const d).rotY,
          out ++ (xs ++ [along a.segment.start a.segment.end a.endPoint]).map
            (fun x => emit x (Arc.parabolaY x (a.const d).rotX (a.const d).rotY))⟩) ∧
      List.IsChain (fun x y => Acc (a.const d) x y ∧ 0 < (y - x) *
        (along a.segment.start a.segment.end a.endPoint - along a.segment.start a.segment.end a.startPoint))
        (along a.segment.start a.segment.end a.startPoint ::
          (xs ++ [along a.segment.start a.segment.end a.endPoint])) := by
  have hL := sqDist_pos_of_cell _ _ _ hcell
  have hB : (a.const d).rotY ≠ 0 := by rw [const_eq]; exact hcell
  have hM : 0 < (a.const d).maxDist := by
    rw [const_eq]; exact mul_pos (mul_self_pos.2 hd) hL
  generalize a.const d = c at *
  have hB2 : 0 < c.rotY ^ 2 := by rw [← sq_abs]; exact pow_pos (abs_pos.2 hB) 2
  obtain ⟨B, hBe⟩ : ∃ B, B = c.maxDist * (64 * c.rotY ^ 2) := ⟨_, rfl⟩
  have hBp : 0 < B := by rw [hBe]; positivity
  have hδ0 : 0 < min 1 B := lt_min one_pos hBp
  have hδ : ∀ x y : K, |y - x| ≤ min 1 B → Acc c x y := by
    intro x y h
    have h1 : |y - x| ≤ 1 := h.trans (min_le_left _ _)
    have h2 : |y - x| ≤ B := h.trans (min_le_right _ _)
    have h0 := abs_nonneg (y - x)
    have h3 : (y - x) ^ 4 ≤ |y - x| := by
      have : (y - x) ^ 4 = |y - x| ^ 4 := by
        rw [show (4 : Nat) = 2 * 2 from rfl, pow_mul, pow_mul, sq_abs]
      rw [this]
      calc |y - x| ^ 4 ≤ |y - x| ^ 1 := pow_le_pow_of_le_one h0 h1 (by norm_num)
        _ = _ := pow_one _
    unfold Acc
    have h4 : 0 ≤ c.maxDist * (16 * (y + x - 2 * c.rotX) ^ 2) := by positivity
    rw [mul_add, ← hBe]
    linarith
  obtain ⟨k, hk⟩ := pow_unbounded_of_one_lt (|along a.segment.start a.segment.end a.endPoint -
    along a.segment.start a.segment.end a.startPoint| / min 1 B) (one_lt_two (α := K))
  rw [div_lt_iff₀ hδ0] at hk
  obtain ⟨n, xs, hr, hc⟩ := arc_run c emit hB (min 1 B) hδ k
    ⟨[along a.segment.start a.segment.end a.endPoint], along a.segment.start a.segment.end a.startPoint,
      Arc.parabolaY (along a.segment.start a.segment.end a.startPoint) c.rotX c.rotY, out⟩ _ [] rfl rfl
    (Ne.symm hne) hk.le
  refine ⟨n, xs, fun m => ?_, hc⟩
  rw [hr m]
  unfold Arc.loop
  rfl

theorem init2_eq (a : Arc K) (d : K) (hL : 0 < sqDist2 a.segment.end a.segment.start) :
    a.init2 (a.const d) = ⟨[along a.segment.start a.segment.end a.endPoint],
      along a.segment.start a.segment.end a.startPoint, Arc.parabolaY
      (along a.segment.start a.segment.end a.startPoint) (a.const d).rotX (a.const d).rotY, [a.startPoint]⟩ := by
  have e : (a.const d).sqr = sqDist2 a.segment.end a.segment.start := by rw [const_eq]
  simp only [Arc.init2, e, proj_mul _ _ hL]

theorem init3_eq (a : Arc K) (d : K) (hL : 0 < sqDist2 a.segment.end a.segment.start) :
    a.init3 (a.const d) = ⟨[along a.segment.start a.segment.end a.endPoint],
      along a.segment.start a.segment.end a.startPoint, Arc.parabolaY
      (along a.segment.start a.segment.end a.startPoint) (a.const d).rotX (a.const d).rotY,
      [Arc.lift3 a.cellPoint a.startPoint]⟩ := by
  have e : (a.const d).sqr = sqDist2 a.segment.end a.segment.start := by rw [const_eq]
  simp only [Arc.init3, e, proj_mul' _ _ hL]

theorem discretize2d_main [Archimedean K] (a : Arc K) (d : K) (hd : d ≠ 0)
    (hcell : orient a.segment.start a.segment.end a.cellPoint ≠ 0)
    (hne : along a.segment.start a.segment.end a.startPoint ≠
      along a.segment.start a.segment.end a.endPoint) :
    ∃ (n : Nat) (xs : List K), (∀ m, a.discretize2d (n + m) d = some (a.startPoint ::
      (xs.map (fun x => a.interPoint (a.const d) x (Arc.parabolaY x (a.const d).rotX (a.const d).rotY)) ++
        [a.endPoint]))) ∧
      List.IsChain (fun x y => Acc (a.const d) x y ∧ 0 < (y - x) *
        (along a.segment.start a.segment.end a.endPoint - along a.segment.start a.segment.end a.startPoint))
        (along a.segment.start a.segment.end a.startPoint ::
          (xs ++ [along a.segment.start a.segment.end a.endPoint])) := by
  have hL := sqDist_pos_of_cell _ _ _ hcell
  obtain ⟨n, xs, hr, hc⟩ := arc_main a d (a.interPoint (a.const d)) hd hcell hne [a.startPoint]
  refine ⟨n, xs, fun m => ?_, hc⟩
  unfold Arc.discretize2d
  simp only
  rw [init2_eq a d hL, hr m]
  simp only [Option.map_some, List.map_append, List.map_cons, List.map_nil, List.cons_append, List.nil_append,
    setLast_concat]

/-- **C51** (termination, 2D).  In exact arithmetic, for a non zero `max_dist`, a cell point off the
line of the segment, and end points with different projections on that line, `discretize_2d` returns. -/
theorem C51_terminates [Archimedean K] (a : Arc K) (d : K) (hd : d ≠ 0)
    (hcell : orient a.segment.start a.segment.end a.cellPoint ≠ 0)
    (hne : along a.segment.start a.segment.end a.startPoint ≠
      along a.segment.start a.segment.end a.endPoint) :
    ∃ (n : Nat) (out : List (V2 K)), ∀ fuel, n ≤ fuel → a.discretize2d fuel d = some out := by
  obtain ⟨n, xs, hr, -⟩ := discretize2d_main a d hd hcell hne
  refine ⟨n, a.startPoint ::
      (xs.map (fun x => a.interPoint (a.const d) x (Arc.parabolaY x (a.const d).rotX (a.const d).rotY)) ++
        [a.endPoint]), fun fuel h => ?_⟩
  rw [show fuel = n + (fuel - n) by omega]
  exact hr _

/-- **C51** (termination, 3D, and agreement with the 2D version): `discretize_3d` returns the points
of `discretize_2d` with a third coordinate added. -/
theorem C51_terminates_3d [Archimedean K] (a : Arc K) (d : K) (hd : d ≠ 0)
    (hcell : orient a.segment.start a.segment.end a.cellPoint ≠ 0)
    (hne : along a.segment.start a.segment.end a.startPoint ≠
      along a.segment.start a.segment.end a.endPoint) :
    ∃ (n : Nat) (out : List (V3 K)), ∀ fuel, n ≤ fuel → a.discretize3d fuel d = some out ∧
      a.discretize2d fuel d = some (out.map (fun p => ⟨p.x, p.y⟩)) := by
  have hL := sqDist_pos_of_cell _ _ _ hcell
  obtain ⟨n, xs, hr, hc⟩ := arc_main a d (fun x y => Arc.lift3 a.cellPoint (a.interPoint (a.const d) x y))
    hd hcell hne [Arc.lift3 a.cellPoint a.startPoint]
  obtain ⟨n', xs', hr', hc'⟩ := discretize2d_main a d hd hcell hne
  have hsim : ∀ (fuel : Nat) (s : Arc.State (V3 K) K),
      Arc.loop (a.const d) (a.interPoint (a.const d)) fuel
        ⟨s.stack, s.curX, s.curY, s.out.map (fun p => ⟨p.x, p.y⟩)⟩ =
      (Arc.loop (a.const d) (fun x y => Arc.lift3 a.cellPoint (a.interPoint (a.const d) x y)) fuel s).map
        (fun s => ⟨s.stack, s.curX, s.curY, s.out.map (fun p => ⟨p.x, p.y⟩)⟩) := by
    intro fuel
    induction fuel with
    | zero =>
      intro s
      conv_lhs => unfold Arc.loop
      conv_rhs => unfold Arc.loop
      simp only
      obtain ⟨stack, x, y, out⟩ := s
      cases stack <;> rfl
    | succ fuel ih =>
      intro s
      conv_lhs => unfold Arc.loop
      conv_rhs => unfold Arc.loop
      simp only
      obtain ⟨stack, x, y, out⟩ := s
      cases stack with
      | nil => rfl
      | cons newX rest =>
        simp only
        rw [← ih]
        congr 1
        unfold Arc.round
        simp only
        split_ifs
        · simp [Arc.lift3]
        · rfl
  refine ⟨n, Arc.lift3 a.cellPoint a.startPoint :: (xs.map (fun x => Arc.lift3 a.cellPoint
    (a.interPoint (a.const d) x (Arc.parabolaY x (a.const d).rotX (a.const d).rotY))) ++
        [Arc.lift3 a.cellPoint a.endPoint]), fun fuel h => ⟨?_, ?_⟩⟩
  · rw [show fuel = n + (fuel - n) by omega]
    unfold Arc.discretize3d
    simp only
    rw [init3_eq a d hL, hr]
    simp only [Option.map_some, List.map_append, List.map_cons, List.map_nil, List.cons_append, List.nil_append,
      setLast_concat]
  · rw [show fuel = n + (fuel - n) by omega]
    have e := hsim (n + (fuel - n)) (a.init3 (a.const d))
    rw [init3_eq a d hL, hr] at e
    unfold Arc.discretize2d
    simp only
    rw [init2_eq a d hL]
    refine (congrArg _ e).trans ?_
    simp only [Option.map_some, List.map_append, List.map_cons, List.map_nil, List.cons_append, List.nil_append,
      setLast_concat, List.map_map]
    rfl

/-- a monotone sequence passing from one side of `q` to the other has a consecutive pair around `q` -/
theorem chain_bracket (R : K → K → Prop) (h q z : K) : ∀ (xs : List K) (x : K),
    List.IsChain (fun x y => R x y ∧ 0 < (y - x) * h) (x :: (xs ++ [z])) →
    0 ≤ (q - x) * h → 0 ≤ (z - q) * h →
    ∃ (i : Nat) (u v : K), (x :: (xs ++ [z]))[i]? = some u ∧ (x :: (xs ++ [z]))[i + 1]? = some v ∧ R u v ∧
      0 < (v - u) * h ∧ 0 ≤ (q - u) * h ∧ 0 ≤ (v - q) * h := by
  intro xs
  induction xs with
  | nil =>
    intro x hc h1 h2
    simp only [List.nil_append, List.isChain_cons_cons, List.isChain_singleton, and_true] at hc
    exact ⟨0, x, z, rfl, rfl, hc.1, hc.2, h1, h2⟩
  | cons y ys ih =>
    intro x hc h1 h2
    rw [List.cons_append, List.isChain_cons_cons] at hc
    rcases le_total ((q - y) * h) 0 with hq | hq
    · refine ⟨0, x, y, rfl, rfl, hc.1.1, hc.1.2, h1, ?_⟩
      have : (y - q) * h = - ((q - y) * h) := by ring
      rw [this]; linarith
    · obtain ⟨i, u, v, a, b, c⟩ := ih y hc.2 hq h2
      exact ⟨i + 1, u, v, by simpa using a, by simpa using b, c⟩

theorem orient_coords (s e p q r : V2 K) : orient p q r * sqDist2 e s =
    (along s e q - along s e p) * (orient s e r - orient s e p) -
    (orient s e q - orient s e p) * (along s e r - along s e p) := by
  simp only [sqDist2, along, orient]; ring

/-- the accuracy estimate in the transformed plane -/
theorem acc_bound (c : Arc.Const K) (hB : c.rotY ≠ 0) (u v x h : K) (ha : Acc c u v)
    (h1 : 0 < (v - u) * h) (h2 : 0 ≤ (x - u) * h) (h3 : 0 ≤ (v - x) * h) :
    ((v - u) * (Arc.parabolaY x c.rotX c.rotY - Arc.parabolaY u c.rotX c.rotY) -
      (Arc.parabolaY v c.rotX c.rotY - Arc.parabolaY u c.rotX c.rotY) * (x - u)) ^ 2 ≤
    c.maxDist * ((v - u) ^ 2 + (Arc.parabolaY v c.rotX c.rotY - Arc.parabolaY u c.rotX c.rotY) ^ 2) := by
  unfold Acc at ha
  generalize c.maxDist = M at *
  generalize c.rotX = A at *
  generalize c.rotY = B at *
  have hB2 : 0 < B ^ 2 := by rw [← sq_abs]; exact pow_pos (abs_pos.2 hB) 2
  have hBB : B + B ≠ 0 := by rw [← two_mul]; exact mul_ne_zero two_ne_zero hB
  have e1 : (v - u) * (Arc.parabolaY x A B - Arc.parabolaY u A B) -
      (Arc.parabolaY v A B - Arc.parabolaY u A B) * (x - u) = - ((v - u) * ((x - u) * (v - x))) / (2 * B) := by
    simp only [parabolaY_eq]; field_simp; ring
  have e2 : Arc.parabolaY v A B - Arc.parabolaY u A B = (v - u) * (v + u - 2 * A) / (2 * B) := by
    simp only [parabolaY_eq]; field_simp; ring
  rw [e1, e2]
  have hxx : 0 ≤ (x - u) * (v - x) := by
    have hh : 0 < h ^ 2 := by
      have : h ≠ 0 := by rintro rfl; simp at h1
      rw [← sq_abs]; exact pow_pos (abs_pos.2 this) 2
    have : 0 ≤ ((x - u) * (v - x)) * h ^ 2 := by
      have := mul_nonneg h2 h3
      calc (0 : K) ≤ _ := this
        _ = _ := by ring
    exact nonneg_of_mul_nonneg_left this hh
  have hle : (x - u) * (v - x) ≤ (v - u) ^ 2 / 4 := by
    nlinarith [sq_nonneg ((x - u) - (v - x))]
  have hsq : ((x - u) * (v - x)) ^ 2 ≤ (v - u) ^ 4 / 16 := by
    calc ((x - u) * (v - x)) ^ 2 ≤ ((v - u) ^ 2 / 4) ^ 2 := pow_le_pow_left₀ hxx hle 2
      _ = _ := by ring
  have l : (- ((v - u) * ((x - u) * (v - x))) / (2 * B)) ^ 2 =
      ((v - u) ^ 2 * ((x - u) * (v - x)) ^ 2) / (4 * B ^ 2) := by
    rw [div_pow]; congr 1 <;> ring
  have r : M * ((v - u) ^ 2 + ((v - u) * (v + u - 2 * A) / (2 * B)) ^ 2) =
      ((v - u) ^ 2 * (M * (64 * B ^ 2 + 16 * (v + u - 2 * A) ^ 2) / 16)) / (4 * B ^ 2) := by
    field_simp; ring
  rw [l, r]
  refine div_le_div_of_nonneg_right ?_ (by positivity)
  refine mul_le_mul_of_nonneg_left ?_ (sq_nonneg _)
  linarith

/-- the foot of the perpendicular -/
theorem foot_exists (s e p : V2 K) (hse : 0 < sqDist2 e s) :
    ∃ r, OnLine2 s e r ∧ sqDist2 p r * sqDist2 e s = orient s e p ^ 2 := by
  refine ⟨lerp2 s e (along s e p / sqDist2 e s), ⟨_, rfl⟩, ?_⟩
  have key : ∀ t : K, sqDist2 p (lerp2 s e t) * sqDist2 e s = orient s e p ^ 2 +
      (along s e p - t * sqDist2 e s) ^ 2 := by
    intro t
    simp only [sqDist2, lerp2, orient, along]; ring
  rw [key, div_mul_cancel₀ _ hse.ne']; ring

/-- **C55** (order).  In exact arithmetic the projections of the points of the output on the segment
are strictly monotone, from the one of the start point to the one of the end point. -/
theorem C55_monotone [Archimedean K] (fuel : Nat) (a : Arc K) (d : K) (out : List (V2 K)) (hd : d ≠ 0)
    (hcell : orient a.segment.start a.segment.end a.cellPoint ≠ 0)
    (hne : along a.segment.start a.segment.end a.startPoint ≠
      along a.segment.start a.segment.end a.endPoint)
    (h : a.discretize2d fuel d = some out) :
    List.IsChain (fun p q => 0 < (along a.segment.start a.segment.end q - along a.segment.start a.segment.end p) *
      (along a.segment.start a.segment.end a.endPoint - along a.segment.start a.segment.end a.startPoint)) out := by
  have hL := sqDist_pos_of_cell _ _ _ hcell
  obtain ⟨n, xs, hr, hc⟩ := discretize2d_main a d hd hcell hne
  have h' : a.discretize2d (fuel + n) d = some out := by
    unfold Arc.discretize2d at h ⊢
    simp only [Option.map_eq_some_iff] at h ⊢
    obtain ⟨s, hs, e⟩ := h
    exact ⟨s, arc_loop_fuel _ _ _ _ _ _ hs, e⟩
  rw [Nat.add_comm, hr] at h'
  cases h'
  have hm : (a.startPoint :: (xs.map (fun x => a.interPoint (a.const d) x
      (Arc.parabolaY x (a.const d).rotX (a.const d).rotY)) ++ [a.endPoint])).map
      (along a.segment.start a.segment.end) = along a.segment.start a.segment.end a.startPoint ::
          (xs ++ [along a.segment.start a.segment.end a.endPoint]) := by
    simp only [List.map_cons, List.map_append, List.map_map, List.map_nil]
    congr 2
    conv_rhs => rw [← List.map_id xs]
    exact List.map_congr_left (fun x _ => along_inter a d _ _ hL)
  have := hc.imp (fun x y (h : _ ∧ _) => h.2)
  rw [← hm, List.isChain_map] at this
  exact this

/-- **C55** (accuracy).  In exact arithmetic, if the end points of the arc are equidistant from the
cell point and the line of the segment (as documented), every point of the arc — every equidistant
point whose projection is between those of the end points — is within `max_dist` of the infinite line
through two consecutive points of the output between whose projections it lies. -/
theorem C55_accuracy [Archimedean K] (fuel : Nat) (a : Arc K) (d : K) (out : List (V2 K)) (hd : d ≠ 0)
    (hcell : orient a.segment.start a.segment.end a.cellPoint ≠ 0)
    (hne : along a.segment.start a.segment.end a.startPoint ≠
      along a.segment.start a.segment.end a.endPoint)
    (hs : Equidistant a.segment.start a.segment.end a.cellPoint a.startPoint)
    (he : Equidistant a.segment.start a.segment.end a.cellPoint a.endPoint)
    (h : a.discretize2d fuel d = some out) (q : V2 K)
    (hq : Equidistant a.segment.start a.segment.end a.cellPoint q)
    (hbetween : 0 ≤ (along a.segment.start a.segment.end q - along a.segment.start a.segment.end a.startPoint) *
      (along a.segment.start a.segment.end a.endPoint - along a.segment.start a.segment.end q)) :
    ∃ (i : Nat) (p1 p2 r : V2 K), out[i]? = some p1 ∧ out[i + 1]? = some p2 ∧
      0 ≤ (along a.segment.start a.segment.end q - along a.segment.start a.segment.end p1) *
        (along a.segment.start a.segment.end p2 - along a.segment.start a.segment.end q) ∧
      OnLine2 p1 p2 r ∧ sqDist2 q r ≤ d ^ 2 := by
  have hL := sqDist_pos_of_cell _ _ _ hcell
  obtain ⟨n, xs, hr, hc⟩ := discretize2d_main a d hd hcell hne
  have h' : a.discretize2d (fuel + n) d = some out := by
    unfold Arc.discretize2d at h ⊢
    simp only [Option.map_eq_some_iff] at h ⊢
    obtain ⟨s, hs, e⟩ := h
    exact ⟨s, arc_loop_fuel _ _ _ _ _ _ hs, e⟩
  rw [Nat.add_comm, hr] at h'
  cases h'
  -- all points of the output are the images of parameters
  obtain ⟨J, hJ⟩ : ∃ J : K → V2 K, J = fun x => a.interPoint (a.const d) x
      (Arc.parabolaY x (a.const d).rotX (a.const d).rotY) := ⟨_, rfl⟩
  have hon : ∀ p, Equidistant a.segment.start a.segment.end a.cellPoint p →
      p = J (along a.segment.start a.segment.end p) := by
    intro p hp
    rw [equidistant_coords a p hL hcell] at hp
    rw [hJ]
    conv_lhs => rw [← inter_of_coords a d p hL]
    rw [hp, const_eq]
  rw [← hJ]
  have hmap : a.startPoint :: (xs.map J ++ [a.endPoint]) =
      (along a.segment.start a.segment.end a.startPoint ::
          (xs ++ [along a.segment.start a.segment.end a.endPoint])).map J := by
    simp only [List.map_cons, List.map_append, List.map_nil, ← hon _ hs, ← hon _ he]
  have hJa : ∀ x, along a.segment.start a.segment.end (J x) = x := by
    intro x; rw [hJ]; exact along_inter a d _ _ hL
  have hJo : ∀ x, orient a.segment.start a.segment.end (J x) =
      Arc.parabolaY x (a.const d).rotX (a.const d).rotY := by
    intro x; rw [hJ]; exact orient_inter a d _ _ hL
  rw [hmap]
  obtain ⟨H, hH⟩ : ∃ H, H = along a.segment.start a.segment.end a.endPoint -
    along a.segment.start a.segment.end a.startPoint := ⟨_, rfl⟩
  have hqe := hon q hq
  have hqo := hJo (along a.segment.start a.segment.end q)
  rw [← hqe] at hqo
  rw [← hH] at hc
  have hHH : H ≠ 0 := by rw [hH]; exact sub_ne_zero.2 (Ne.symm hne)
  have hbr : 0 ≤ (along a.segment.start a.segment.end q - along a.segment.start a.segment.end a.startPoint) * H ∧
      0 ≤ (along a.segment.start a.segment.end a.endPoint - along a.segment.start a.segment.end q) * H := by
    have e : H = (along a.segment.start a.segment.end q - along a.segment.start a.segment.end a.startPoint) +
      (along a.segment.start a.segment.end a.endPoint - along a.segment.start a.segment.end q) := by rw [hH]; ring
    rw [e]
    constructor
    · nlinarith [sq_nonneg (along a.segment.start a.segment.end q - along a.segment.start a.segment.end a.startPoint)]
    · nlinarith [sq_nonneg (along a.segment.start a.segment.end a.endPoint - along a.segment.start a.segment.end q)]
  obtain ⟨i, u, v, hu, hv, hacc, huv, hqu, hqv⟩ := chain_bracket _ H
    (along a.segment.start a.segment.end q) _ xs _ hc hbr.1 hbr.2
  have hB : (a.const d).rotY ≠ 0 := by rw [const_eq]; exact hcell
  have hbound := acc_bound (a.const d) hB u v _ H hacc huv hqu hqv
  have hMe : (a.const d).maxDist = d ^ 2 * sqDist2 a.segment.end a.segment.start := by
    rw [const_eq]; ring
  have huvne : v - u ≠ 0 := by rintro e; rw [e] at huv; simp at huv
  have hch := sqDist_coords a.segment.start a.segment.end (J v) (J u)
  rw [hJa, hJa, hJo, hJo] at hch
  have hpos : 0 < sqDist2 (J v) (J u) := by
    have : 0 < sqDist2 (J v) (J u) * sqDist2 a.segment.end a.segment.start := by
      rw [hch]
      have := mul_self_pos.2 huvne
      nlinarith [sq_nonneg (Arc.parabolaY v (a.const d).rotX (a.const d).rotY -
        Arc.parabolaY u (a.const d).rotX (a.const d).rotY)]
    exact pos_of_mul_pos_left this hL.le
  obtain ⟨r, hr1, hr2⟩ := foot_exists (J u) (J v) q hpos
  refine ⟨i, J u, J v, r, by rw [List.getElem?_map, hu]; rfl, by rw [List.getElem?_map, hv]; rfl, ?_, hr1, ?_⟩
  · rw [hJa, hJa]
    have hHp : 0 < H ^ 2 := by rw [← sq_abs]; exact pow_pos (abs_pos.2 hHH) 2
    have := mul_nonneg hqu hqv
    refine nonneg_of_mul_nonneg_left (b := H ^ 2) ?_ hHp
    calc (0 : K) ≤ _ := this
      _ = _ := by ring
  · have ho := orient_coords a.segment.start a.segment.end (J u) (J v) q
    rw [hJa, hJa, hJo, hJo, hqo] at ho
    rw [← ho, ← hch, hMe] at hbound
    refine le_of_mul_le_mul_right ?_ hpos
    rw [hr2]
    have hL2 : 0 < sqDist2 a.segment.end a.segment.start ^ 2 := pow_pos hL 2
    refine le_of_mul_le_mul_right ?_ hL2
    calc _ = (orient (J u) (J v) q * sqDist2 a.segment.end a.segment.start) ^ 2 := by ring
      _ ≤ _ := hbound
      _ = _ := by ring

end exact

/-! ### Findings and examples -/

/-- the arc of `/repo` test `voronoi_parabolic_arc_1` -/
def exArc : Arc ℚ := ⟨⟨⟨100, 100⟩, ⟨300, 100⟩⟩, ⟨200, 200⟩, ⟨100, 200⟩, ⟨300, 200⟩⟩

/-- the hypotheses of C51 and C55 hold for the arc of the unit test, and its result is the expected one -/
example : orient exArc.segment.start exArc.segment.end exArc.cellPoint ≠ 0 ∧
    along exArc.segment.start exArc.segment.end exArc.startPoint ≠
      along exArc.segment.start exArc.segment.end exArc.endPoint ∧
    exArc.discretize2d 20 (8 / 10) = some [⟨100, 200⟩, ⟨125, 1425 / 8⟩, ⟨150, 325 / 2⟩, ⟨175, 1225 / 8⟩,
      ⟨200, 150⟩, ⟨225, 1225 / 8⟩, ⟨250, 325 / 2⟩, ⟨275, 1425 / 8⟩, ⟨300, 200⟩] := by decide +kernel

example : Equidistant exArc.segment.start exArc.segment.end exArc.cellPoint exArc.startPoint ∧
    Equidistant exArc.segment.start exArc.segment.end exArc.cellPoint exArc.endPoint := by
  constructor <;> rw [equidistant_iff _ _ _ _ (by decide +kernel)] <;> decide +kernel

/-- an arc that is much steeper at the end than at the start -/
def steepArc : Arc ℚ := ⟨⟨⟨-100, 0⟩, ⟨100, 0⟩⟩, ⟨0, 1⟩, ⟨-10, 101 / 2⟩, ⟨30, 901 / 2⟩⟩

/-- **Finding.**  The accuracy only holds for the *lines* through consecutive points: `max_dist` does
not bound the distance to the returned polyline.  Here the result for `max_dist = 20` is a single
segment, but the point `(0, 1/2)` of the arc has a distance of more than 50 from all its points. -/
theorem C55_distance_to_polyline_not_bounded :
    steepArc.discretize2d 5 20 = some [steepArc.startPoint, steepArc.endPoint] ∧
    Equidistant steepArc.segment.start steepArc.segment.end steepArc.cellPoint ⟨0, 1 / 2⟩ ∧
    ∀ r, OnSegment2 steepArc.startPoint steepArc.endPoint r → 50 ^ 2 < sqDist2 (⟨0, 1 / 2⟩ : V2 ℚ) r := by
  refine ⟨by decide +kernel, ?_, ?_⟩
  · rw [equidistant_iff _ _ _ _ (by decide +kernel)]; decide +kernel
  · rintro r ⟨t, h0, h1, rfl⟩
    simp only [sqDist2, lerp2, steepArc]
    nlinarith

theorem fq_nan_add (a : FQ) : FQ.add .nan a = .nan ∧ FQ.add a .nan = .nan := by cases a <;> exact ⟨rfl, rfl⟩
theorem fq_nan_mul (a : FQ) : FQ.mul .nan a = .nan ∧ FQ.mul a .nan = .nan := by cases a <;> exact ⟨rfl, rfl⟩
theorem fq_nan_div (a : FQ) : FQ.div .nan a = .nan ∧ FQ.div a .nan = .nan := by cases a <;> exact ⟨rfl, rfl⟩
theorem fq_nan_le (a : FQ) : Scalar.le (α := FQ) .nan a = false := by cases a <;> rfl

theorem arc_nan_diverges {P : Type} (c : Arc.Const FQ) (emit : FQ → FQ → P) : ∀ (fuel : Nat)
    (s : Arc.State P FQ), s.stack.head? = some .nan → Arc.loop c emit fuel s = none := by
  intro fuel
  induction fuel with
  | zero =>
    intro s h
    unfold Arc.loop
    split
    · rename_i e; rw [e] at h; cases h
    · rfl
  | succ fuel ih =>
    intro s h
    unfold Arc.loop
    split
    · rename_i e; rw [e] at h; cases h
    · rename_i x rest e
      rw [e] at h
      cases h
      apply ih
      have e1 : ∀ b : FQ, Arc.parabolaY .nan b c.rotY = .nan := by
        intro b
        simp only [Arc.parabolaY, Scalar.sub, Scalar.add, Scalar.mul, Scalar.div, fq_nan_add, fq_nan_mul, fq_nan_div]
      simp only [Arc.round, e1]
      have e2 : (FQ.nan -. s.curY) = .nan := (fq_nan_add _).1
      have e3 : (FQ.nan -. s.curX) = .nan := (fq_nan_add _).1
      have e4 : ∀ a : FQ, (FQ.nan *. a) = .nan := fun a => (fq_nan_mul _).1
      have e5 : ∀ a : FQ, (FQ.nan /. a) = .nan := fun a => (fq_nan_div _).1
      have e6 : ∀ a : FQ, (FQ.nan -. a) = .nan := fun a => (fq_nan_add _).1
      have e7 : ∀ a : FQ, (FQ.nan +. a) = .nan := fun a => (fq_nan_add _).1
      simp only [e2, e3, e4, e5, e6, e7, fq_nan_le]
      rfl

/-- **Finding.**  If the end points of the arc have the same projection on the segment the first
quotient is `0 / 0` and the loop never ends, here with floats without rounding. -/
theorem C51_same_projection_diverges (fuel : Nat) :
    (⟨⟨⟨.fin 0, .fin 0⟩, ⟨.fin 1, .fin 0⟩⟩, ⟨.fin 0, .fin 1⟩, ⟨.fin 0, .fin (1/2)⟩, ⟨.fin 0, .fin (1/2)⟩⟩ :
      Arc FQ).discretize2d fuel (.fin 1) = none := by
  unfold Arc.discretize2d
  simp only [Option.map_eq_none_iff]
  cases fuel with
  | zero => unfold Arc.loop; rfl
  | succ n =>
    rw [arc_step _ _ (.fin 0) [] _ (by decide +kernel)]
    apply arc_nan_diverges
    decide +kernel

end Verif.Props
