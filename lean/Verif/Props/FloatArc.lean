import Verif.Props.Parabola
import Verif.Props.FloatDist
import Verif.Props.FloatContain
/-!
# C88: `VoronoiParabolicArc` in floating point
-/
set_option linter.unusedSectionVars false
set_option linter.unusedVariables false
namespace Verif.Props
open Verif Verif.Spec Verif.Model Fl Flt Verif.Proofs.FloatHull Verif.Proofs.FloatIntersect
variable {f : Fmt} [Libm f] {P : Type}

namespace ArcFlt

/-! ### NaN -/

theorem nan_add (x : Flt f) : Scalar.add (.nan : Flt f) x = .nan := by cases x <;> rfl
theorem add_nan (x : Flt f) : Scalar.add x (.nan : Flt f) = .nan := by cases x <;> rfl
theorem nan_sub (x : Flt f) : Scalar.sub (.nan : Flt f) x = .nan := by cases x <;> rfl
theorem sub_nan (x : Flt f) : Scalar.sub x (.nan : Flt f) = .nan := by cases x <;> rfl
theorem nan_mul (x : Flt f) : Scalar.mul (.nan : Flt f) x = .nan := by cases x <;> rfl
theorem mul_nan (x : Flt f) : Scalar.mul x (.nan : Flt f) = .nan := by cases x <;> rfl
theorem nan_div (x : Flt f) : Scalar.div (.nan : Flt f) x = .nan := by cases x <;> rfl
theorem div_nan (x : Flt f) : Scalar.div x (.nan : Flt f) = .nan := by cases x <;> rfl
theorem nan_le (x : Flt f) : Scalar.le (.nan : Flt f) x = false := by cases x <;> rfl
theorem le_nan (x : Flt f) : Scalar.le x (.nan : Flt f) = false := by cases x <;> rfl

/-! ### Loops that do not end -/

/-- a loop whose stack never gets empty -/
theorem never {c : Arc.Const (Flt f)} {emit : Flt f → Flt f → P} (I : Arc.State P (Flt f) → Prop)
    (hI : ∀ s, I s → ∃ x rest, s.stack = x :: rest ∧ I (Arc.round c emit x rest s)) :
    ∀ (fuel : Nat) (s : Arc.State P (Flt f)), I s → Arc.loop c emit fuel s = none
  | 0, s, h => by
    obtain ⟨x, rest, e, -⟩ := hI s h
    unfold Arc.loop
    rw [e]
  | fuel + 1, s, h => by
    obtain ⟨x, rest, e, h'⟩ := hI s h
    unfold Arc.loop
    rw [e]
    exact never I hI fuel _ h'

/-- a round that does not accept its point -/
theorem round_push {c : Arc.Const (Flt f)} (emit : Flt f → Flt f → P) {x : Flt f} (rest : List (Flt f))
    {s : Arc.State P (Flt f)} {m : Flt f}
    (hm : Scalar.add (Scalar.mul (Scalar.div (Scalar.sub (Arc.parabolaY x c.rotX c.rotY) s.curY)
      (Scalar.sub x s.curX)) c.rotY) c.rotX = m) (hn : m = .nan ∨ c.maxDist = .nan) :
    Arc.round c emit x rest s = { s with stack := m :: s.stack } := by
  unfold Arc.round
  simp only [hm]
  rcases hn with hn | hn
  · subst hn
    simp only [nan_sub, mul_nan, nan_div, nan_le, if_neg Bool.false_ne_true]
  · rw [hn]
    simp only [le_nan, if_neg Bool.false_ne_true]

/-- NaN on top of the stack -/
theorem nan_top {c : Arc.Const (Flt f)} {emit : Flt f → Flt f → P} (fuel : Nat) {s : Arc.State P (Flt f)}
    {rest : List (Flt f)} (h : s.stack = .nan :: rest) : Arc.loop c emit fuel s = none := by
  refine never (fun s => ∃ rest, s.stack = .nan :: rest) ?_ fuel s ⟨rest, h⟩
  rintro s ⟨rest, e⟩
  refine ⟨.nan, rest, e, ?_⟩
  rw [round_push (m := .nan) emit rest (by simp only [nan_sub, div_nan, nan_mul, nan_add]) (Or.inl rfl)]
  exact ⟨_, rfl⟩

/-- the slope is NaN in the first round -/
theorem nan_slope {c : Arc.Const (Flt f)} {emit : Flt f → Flt f → P} (fuel : Nat) {s : Arc.State P (Flt f)}
    {x : Flt f} {rest : List (Flt f)} (h : s.stack = x :: rest)
    (hn : Scalar.div (Scalar.sub (Arc.parabolaY x c.rotX c.rotY) s.curY) (Scalar.sub x s.curX) = (.nan : Flt f)) :
    Arc.loop c emit fuel s = none := by
  cases fuel with
  | zero => unfold Arc.loop; rw [h]
  | succ n =>
    unfold Arc.loop
    rw [h]
    simp only
    rw [round_push (m := .nan) emit rest (by rw [hn, nan_mul, nan_add]) (Or.inl rfl)]
    exact nan_top n rfl

/-- a difference of equal numbers -/
theorem sub_self_zeroNan (x : Flt f) : ZeroNan (Scalar.sub x x) := by
  by_cases h : x.isFin = true
  · obtain ⟨s, e⟩ := sub_equal h h rfl
    have e' : Scalar.sub x x = .zero s := e
    rw [e']
    exact Or.inr ⟨s, rfl⟩
  · cases x with
    | nan => exact Or.inl rfl
    | inf s => cases s <;> exact Or.inl rfl
    | zero s => exact absurd rfl h
    | fin q hq => exact absurd rfl h

/-- the parabola with a cell point on the line -/
theorem par_zero (x a : Flt f) (s : Bool) :
    Arc.parabolaY x a (.zero s) = .nan ∨ Arc.parabolaY x a (.zero s) = .inf s := by
  have h : SignClear (Scalar.add (Scalar.mul (Scalar.sub x a) (Scalar.sub x a)) (Scalar.mul (.zero s) (.zero s)) : Flt f) :=
    (signClear_sq _).add (signClear_sq _)
  have e : Scalar.add (.zero s) (.zero s) = (.zero s : Flt f) := by cases s <;> rfl
  unfold Arc.parabolaY
  rw [e]
  revert h
  generalize Scalar.add (Scalar.mul (Scalar.sub x a) (Scalar.sub x a)) (Scalar.mul (.zero s) (.zero s)) = n
  intro h
  rcases h with rfl | h
  · exact Or.inl rfl
  · match n, h with
    | .nan, _ => exact Or.inl rfl
    | .zero _, _ => exact Or.inl rfl
    | .inf false, _ => right; cases s <;> rfl
    | .fin q hq, h =>
      right
      show (.inf ((Flt.fin q hq).sign != s) : Flt f) = .inf s
      rw [h]; cases s <;> rfl

theorem sub_par_zero (x y a : Flt f) {b : Flt f} (hb : ZeroNan b) :
    Scalar.sub (Arc.parabolaY x a b) (Arc.parabolaY y a b) = (.nan : Flt f) := by
  rcases hb with rfl | ⟨s, rfl⟩
  · have e : ∀ z : Flt f, Arc.parabolaY z a .nan = .nan := by
      intro z; unfold Arc.parabolaY; simp only [nan_mul, add_nan, nan_div]
    rw [e, nan_sub]
  · rcases par_zero x a s with h | h
    · rw [h, nan_sub]
    · rcases par_zero y a s with h' | h'
      · rw [h', sub_nan]
      · rw [h, h']; cases s <;> rfl

/-- the numbers of a degenerate segment -/
theorem const_zeroNan {u v p q : Flt f} (hu : ZeroNan u) (hv : ZeroNan v) :
    ZeroNan (Scalar.add (Scalar.mul u p) (Scalar.mul v q) : Flt f) ∧
    ZeroNan (Scalar.sub (Scalar.mul u q) (Scalar.mul v p) : Flt f) := by
  have key : ∀ {x y : Flt f}, ZeroNan x → ZeroNan (Scalar.mul x y) := by
    rintro x y (rfl | ⟨s, rfl⟩)
    · exact Or.inl (nan_mul _)
    · exact mul_zero_left y s
  exact ⟨(key hu).add (key hv), (key hu).sub (key hv)⟩

theorem const_zeroNan' {u v p q : Flt f} (hp : ZeroNan p) (hq : ZeroNan q) :
    ZeroNan (Scalar.sub (Scalar.mul u q) (Scalar.mul v p) : Flt f) := by
  have key : ∀ {x y : Flt f}, ZeroNan y → ZeroNan (Scalar.mul x y) := by
    rintro x y (rfl | ⟨s, rfl⟩)
    · exact Or.inl (mul_nan _)
    · exact zeroNan_mul x s
  exact (key hq).sub (key hp)

/-- equal values, up to the sign of zero -/
theorem par_val {x y a b : Flt f} (hx : x.isFin = true) (hy : y.isFin = true) (ha : a.isFin = true)
    (h : x.val = y.val) : Arc.parabolaY x a b = Arc.parabolaY y a b := by
  have key : ∀ z : Flt f, z.isFin = true → z.val = x.val →
      Scalar.mul (Scalar.sub z a) (Scalar.sub z a) =
        (Flt.mul (Flt.ofQ false (x.val - a.val)) (Flt.ofQ false (x.val - a.val)) : Flt f) := by
    intro z hz e
    have ha' : (Flt.neg a).isFin = true := (is_neg (is_self ha)).1
    obtain ⟨s, hs⟩ := add_ofQ hz ha'
    have hs' : Scalar.sub z a = (Flt.ofQ s (x.val - a.val) : Flt f) := by
      have e2 : (Flt.neg a).val = -a.val := (is_neg (is_self ha)).2
      rw [e2, e, ← sub_eq_add_neg] at hs
      exact hs
    rw [hs']
    show Flt.mul _ _ = _
    unfold Flt.ofQ
    split
    · split
      · cases s <;> rfl
      · rfl
    · rfl
  unfold Arc.parabolaY
  rw [key x hx rfl, key y hy h.symm]

theorem d2_none {a : Arc (Flt f)} {d : Flt f} {fuel : Nat}
    (h : Arc.loop (a.const d) (a.interPoint (a.const d)) fuel (a.init2 (a.const d)) = none) :
    a.discretize2d fuel d = none := by
  unfold Arc.discretize2d
  simp only [h]; rfl

theorem d3_none {a : Arc (Flt f)} {d : Flt f} {fuel : Nat}
    (h : Arc.loop (a.const d) (fun x y => Arc.lift3 a.cellPoint (a.interPoint (a.const d) x y)) fuel
      (a.init3 (a.const d)) = none) :
    a.discretize3d fuel d = none := by
  unfold Arc.discretize3d
  simp only [h]; rfl

end ArcFlt

open ArcFlt

/-- C88: with the tolerance NaN `discretize_2d` and `discretize_3d` never return, for every arc. -/
theorem C88_nan_tolerance_never_ends (a : Arc (Flt f)) (fuel : Nat) :
    a.discretize2d fuel .nan = none ∧ a.discretize3d fuel .nan = none := by
  have key : ∀ {P : Type} (emit : Flt f → Flt f → P) (s : Arc.State P (Flt f)), s.stack ≠ [] →
      Arc.loop (a.const .nan) emit fuel s = none := by
    intro P emit s hs
    have hm : (a.const (.nan : Flt f)).maxDist = .nan := by
      unfold Arc.const; simp only [nan_mul]
    refine never (fun s => s.stack ≠ []) ?_ fuel s hs
    intro s hs
    match e : s.stack, hs with
    | x :: rest, _ =>
      refine ⟨x, rest, rfl, ?_⟩
      rw [round_push emit rest rfl (Or.inr hm)]
      exact List.cons_ne_nil _ _
  constructor
  · exact d2_none (key _ _ (List.cons_ne_nil _ _))
  · exact d3_none (key _ _ (List.cons_ne_nil _ _))

/-- C88: if the start and the end point of the arc are equal, the functions never return, whatever the tolerance
and the other coordinates are. -/
theorem C88_equal_ends_never_end (a : Arc (Flt f)) (d : Flt f) (fuel : Nat) (h : a.startPoint = a.endPoint) :
    a.discretize2d fuel d = none ∧ a.discretize3d fuel d = none := by
  have key : ∀ {P : Type} (emit : Flt f → Flt f → P) (s : Arc.State P (Flt f)) (x : Flt f), s.stack = [x] →
      s.curX = x → s.curY = Arc.parabolaY x (a.const d).rotX (a.const d).rotY →
      Arc.loop (a.const d) emit fuel s = none := by
    intro P emit s x h1 h2 h3
    refine nan_slope fuel h1 ?_
    rw [h2, h3]
    exact (sub_self_zeroNan _).div (sub_self_zeroNan _)
  constructor
  · exact d2_none (key _ (a.init2 (a.const d)) _ rfl (by unfold Arc.init2; rw [h]) (by unfold Arc.init2; rw [h]))
  · exact d3_none (key _ (a.init3 (a.const d)) _ rfl (by unfold Arc.init3; rw [h]) (by unfold Arc.init3; rw [h]))

/-- C88: if the segment is a point, the functions never return. -/
theorem C88_point_segment_never_ends (a : Arc (Flt f)) (d : Flt f) (fuel : Nat) (h : a.segment.start = a.segment.end) :
    a.discretize2d fuel d = none ∧ a.discretize3d fuel d = none := by
  have hp : ∀ p : V2 (Flt f), Arc.pointProjection p a.segment = .nan := by
    intro p
    unfold Arc.pointProjection
    rw [← h]
    exact (const_zeroNan (sub_self_zeroNan _) (sub_self_zeroNan _)).1.div
      (const_zeroNan (sub_self_zeroNan _) (sub_self_zeroNan _)).1
  constructor
  · exact d2_none (nan_top (rest := []) fuel (by unfold Arc.init2; simp only [hp, nan_mul]))
  · exact d3_none (nan_top (rest := []) fuel (by unfold Arc.init3; simp only [hp, mul_nan]))

/-- the loops of an arc whose cell point is (computed to be) on the line -/
theorem ArcFlt.zero_rot (a : Arc (Flt f)) (d : Flt f) (fuel : Nat) (h : ZeroNan (a.const d).rotY) :
    a.discretize2d fuel d = none ∧ a.discretize3d fuel d = none := by
  have key : ∀ {P : Type} (emit : Flt f → Flt f → P) (s : Arc.State P (Flt f)) (x y : Flt f), s.stack = [x] →
      s.curY = Arc.parabolaY y (a.const d).rotX (a.const d).rotY →
      Arc.loop (a.const d) emit fuel s = none := by
    intro P emit s x y h1 h2
    refine nan_slope fuel h1 ?_
    rw [h2, sub_par_zero _ _ _ h, nan_div]
  constructor
  · exact d2_none (key _ (a.init2 (a.const d)) _ _ rfl rfl)
  · exact d3_none (key _ (a.init3 (a.const d)) _ _ rfl rfl)

/-- C88: if the cell point is the start of the segment, the functions never return. -/
theorem C88_cell_at_start_never_ends (a : Arc (Flt f)) (d : Flt f) (fuel : Nat) (h : a.cellPoint = a.segment.start) :
    a.discretize2d fuel d = none ∧ a.discretize3d fuel d = none := by
  apply zero_rot
  unfold Arc.const
  rw [h]
  exact const_zeroNan' (sub_self_zeroNan _) (sub_self_zeroNan _)

/-- C88: on a grid: if the cell point is on the line through the segment, the functions never return. -/
theorem C88_cell_on_line_never_ends {s B : ℤ} (G : GoodGrid f s B) (a : Arc (Flt f)) (d : Flt f) (fuel : Nat)
    (h1 : OnGrid s B a.segment.start) (h2 : OnGrid s B a.segment.end) (h3 : OnGrid s B a.cellPoint)
    (h : orient (exact a.segment.start) (exact a.segment.end) (exact a.cellPoint) = 0) :
    a.discretize2d fuel d = none ∧ a.discretize3d fuel d = none := by
  apply zero_rot
  obtain ⟨N, n1, n2, -⟩ := cross_exact G h1 h2 h3
  rw [h] at n2
  rw [← n2] at n1
  exact Or.inr (is_zero_form n1)

namespace ArcFlt

theorem is_same {x y : Flt f} {q : ℚ} (hx : Is x q) (hy : Is y q) (hq : q ≠ 0) : x = y := by
  obtain ⟨x1, x2⟩ := hx
  obtain ⟨y1, y2⟩ := hy
  cases x with
  | nan => cases x1
  | inf s => cases x1
  | zero s => exact absurd x2.symm hq
  | fin r hr =>
    cases y with
    | nan => cases y1
    | inf s => cases y1
    | zero s => exact absurd y2.symm hq
    | fin r' hr' =>
      have e : r = r' := by
        have e1 : r = q := x2
        have e2 : r' = q := y2
        rw [e1, e2]
      subst e
      rfl

/-- the constants of an arc on the grid -/
theorem const_exact {s B : ℤ} (G : GoodGrid f s B) (hB : 1 ≤ B) {a b c : V2 (Flt f)} (ha : OnGrid s B a)
    (hb : OnGrid s B b) (hc : OnGrid s B c) :
    ∃ n m : ℤ, Is (Scalar.add (Scalar.mul (Scalar.sub b.x a.x) (Scalar.sub c.x a.x))
        (Scalar.mul (Scalar.sub b.y a.y) (Scalar.sub c.y a.y))) (n * pow2 (s + s)) ∧
      (n : ℚ) * pow2 (s + s) = (b.x.val - a.x.val) * (c.x.val - a.x.val) + (b.y.val - a.y.val) * (c.y.val - a.y.val) ∧
      |n| < 2 ^ (f.prec - 3) := by
  obtain ⟨k1, l1, a1, a2, a3, a4⟩ := OnGrid.coords ha
  obtain ⟨k2, l2, b1, b2, b3, b4⟩ := OnGrid.coords hb
  obtain ⟨k3, l3, c1, c2, c3, c4⟩ := OnGrid.coords hc
  obtain ⟨d1, e1⟩ := grid_diff G b1 a1 b3 a3
  obtain ⟨d2, e2⟩ := grid_diff G b2 a2 b4 a4
  obtain ⟨d3, e3⟩ := grid_diff G c1 a1 c3 a3
  obtain ⟨d4, e4⟩ := grid_diff G c2 a2 c4 a4
  have hv : IsV s (b.sub a) (k2 - k1) (l2 - l1) := ⟨d1, d2⟩
  have hw : IsV s (c.sub a) (k3 - k1) (l3 - l1) := ⟨d3, d4⟩
  obtain ⟨g1, g2⟩ := dot_exact G hB hv hw e1 e2 e3 e4
  refine ⟨_, 0, g1, ?_, g2⟩
  rw [a1.2, a2.2, b1.2, b2.2, c1.2, c2.2, pow2_add]
  push_cast
  ring

end ArcFlt

/-- C88: on a grid: if the start and the end point of the arc have the same projection on the segment, the
functions never return. -/
theorem C88_same_foot_never_ends {s B : ℤ} (G : GoodGrid f s B) (hB : 1 ≤ B) (a : Arc (Flt f)) (d : Flt f) (fuel : Nat)
    (h1 : OnGrid s B a.segment.start) (h2 : OnGrid s B a.segment.end) (h3 : OnGrid s B a.cellPoint)
    (h4 : OnGrid s B a.startPoint) (h5 : OnGrid s B a.endPoint)
    (h : ((exact a.endPoint).x - (exact a.startPoint).x) * ((exact a.segment.end).x - (exact a.segment.start).x) +
      ((exact a.endPoint).y - (exact a.startPoint).y) * ((exact a.segment.end).y - (exact a.segment.start).y) = 0) :
    a.discretize2d fuel d = none ∧ a.discretize3d fuel d = none := by
  by_cases hdeg : exact a.segment.start = exact a.segment.end
  · apply C88_cell_on_line_never_ends G a d fuel h1 h2 h3
    rw [hdeg]; unfold orient; ring
  obtain ⟨n, -, n1, n2, -⟩ := const_exact G hB h1 h2 h4
  obtain ⟨m, -, m1, m2, -⟩ := const_exact G hB h1 h2 h5
  obtain ⟨k, -, k1, k2, -⟩ := const_exact G hB h1 h2 h3
  obtain ⟨l, -, l1, l2, -⟩ := const_exact G hB h1 h2 h2
  have hrot : (a.const d).rotX.isFin = true := k1.1
  have hnm : (n : ℚ) * pow2 (s + s) = m * pow2 (s + s) := by
    rw [n2, m2]; unfold exact at h; simp only at h; linear_combination -h
  rw [← hnm] at m1
  have hL : (l : ℚ) * pow2 (s + s) ≠ 0 := by
    rw [l2]
    intro h0
    apply hdeg
    have e1 : a.segment.end.x.val - a.segment.start.x.val = 0 := by
      nlinarith [mul_self_nonneg (a.segment.end.x.val - a.segment.start.x.val),
        mul_self_nonneg (a.segment.end.y.val - a.segment.start.y.val)]
    have e2 : a.segment.end.y.val - a.segment.start.y.val = 0 := by
      nlinarith [mul_self_nonneg (a.segment.end.x.val - a.segment.start.x.val),
        mul_self_nonneg (a.segment.end.y.val - a.segment.start.y.val)]
    unfold exact
    rw [V2.mk.injEq]
    constructor <;> linarith
  -- the projections
  have z : (0 : ℚ) / (l * pow2 (s + s)) = 0 := zero_div _
  have lim : |roundQ f 0| < pow2 f.emax := by rw [roundQ_zero, abs_zero]; exact pow2_pos _
  have alt : Arc.pointProjection a.endPoint a.segment = Arc.pointProjection a.startPoint a.segment ∨
      Is (Arc.pointProjection a.endPoint a.segment) 0 ∧ Is (Arc.pointProjection a.startPoint a.segment) 0 := by
    by_cases h0 : (n : ℚ) * pow2 (s + s) = 0
    · right
      rw [h0] at n1 m1
      have e1 := is_div m1 l1 hL (by rw [z]; exact lim)
      have e2 := is_div n1 l1 hL (by rw [z]; exact lim)
      rw [z, roundQ_zero] at e1 e2
      exact ⟨e1, e2⟩
    · left
      unfold Arc.pointProjection
      simp only
      rw [is_same m1 n1 h0]
  have hsq : Is (a.const d).sqr (l * pow2 (s + s)) := l1
  have mul0 : ∀ {x : Flt f}, Is x 0 → Is (Scalar.mul x (a.const d).sqr) 0 ∧ Is (Scalar.mul (a.const d).sqr x) 0 := by
    intro x hx
    have e1 := is_mul hx hsq (by rw [zero_mul]; exact lim)
    have e2 := is_mul hsq hx (by rw [mul_zero]; exact lim)
    rw [zero_mul, roundQ_zero] at e1
    rw [mul_zero, roundQ_zero] at e2
    exact ⟨e1, e2⟩
  have key : ∀ {P : Type} (emit : Flt f → Flt f → P) (s : Arc.State P (Flt f)) (x y : Flt f), s.stack = [x] →
      s.curX = y → s.curY = Arc.parabolaY y (a.const d).rotX (a.const d).rotY → (x = y ∨ Is x 0 ∧ Is y 0) →
      Arc.loop (a.const d) emit fuel s = none := by
    intro P emit s x y g1 g2 g3 g4
    refine nan_slope fuel g1 ?_
    rw [g2, g3]
    rcases g4 with rfl | ⟨g4, g5⟩
    · exact (sub_self_zeroNan _).div (sub_self_zeroNan _)
    · rw [par_val g4.1 g5.1 hrot (by rw [g4.2, g5.2])]
      obtain ⟨t, ht⟩ := sub_equal g4.1 g5.1 (by rw [g4.2, g5.2])
      have ht' : Scalar.sub x y = .zero t := ht
      rw [ht']
      exact (sub_self_zeroNan _).div (Or.inr ⟨t, rfl⟩)
  constructor
  · refine d2_none (key _ (a.init2 (a.const d)) _ _ rfl rfl rfl ?_)
    rcases alt with e | ⟨e1, e2⟩
    · rw [e]; exact Or.inl rfl
    · exact Or.inr ⟨(mul0 e1).1, (mul0 e2).1⟩
  · refine d3_none (key _ (a.init3 (a.const d)) _ _ rfl rfl rfl ?_)
    rcases alt with e | ⟨e1, e2⟩
    · rw [e]; exact Or.inl rfl
    · exact Or.inr ⟨(mul0 e1).2, (mul0 e2).2⟩

/-! ### A positive tolerance -/

namespace ArcFlt

/-- `parabola_y`, with the operations of the format -/
def parF (x a b : Flt f) : Flt f :=
  Flt.div (Flt.add (Flt.mul (Flt.sub x a) (Flt.sub x a)) (Flt.mul b b)) (Flt.add b b)

/-- the next point to try -/
def mid (c : Arc.Const (Flt f)) (cx cy x : Flt f) : Flt f :=
  Flt.add (Flt.mul (Flt.div (Flt.sub (parF x c.rotX c.rotY) cy) (Flt.sub x cx)) c.rotY) c.rotX

/-- is the point `x` accepted after `(cx, cy)`? -/
def accepts (c : Arc.Const (Flt f)) (cx cy x : Flt f) : Bool :=
  let y := parF x c.rotX c.rotY
  let mx := mid c cx cy x
  let my := parF mx c.rotX c.rotY
  let d := Flt.sub (Flt.mul (Flt.sub y cy) (Flt.sub mx cx)) (Flt.mul (Flt.sub x cx) (Flt.sub my cy))
  Flt.le (Flt.div (Flt.mul d d) (Flt.add (Flt.mul (Flt.sub y cy) (Flt.sub y cy))
    (Flt.mul (Flt.sub x cx) (Flt.sub x cx)))) c.maxDist

/-- the constants, with the operations of the format -/
def constF (a : Arc (Flt f)) (d : Flt f) : Arc.Const (Flt f) :=
  let sx := Flt.sub a.segment.end.x a.segment.start.x
  let sy := Flt.sub a.segment.end.y a.segment.start.y
  let sqr := Flt.add (Flt.mul sx sx) (Flt.mul sy sy)
  let px := Flt.sub a.cellPoint.x a.segment.start.x
  let py := Flt.sub a.cellPoint.y a.segment.start.y
  ⟨sx, sy, sqr, Flt.add (Flt.mul sx px) (Flt.mul sy py), Flt.sub (Flt.mul sx py) (Flt.mul sy px),
    Flt.mul (Flt.mul d d) sqr⟩

/-- `point_projection`, with the operations of the format -/
def projF (p : V2 (Flt f)) (g : Line2 (Flt f)) : Flt f :=
  let sx := Flt.sub g.end.x g.start.x
  let sy := Flt.sub g.end.y g.start.y
  let px := Flt.sub p.x g.start.x
  let py := Flt.sub p.y g.start.y
  Flt.div (Flt.add (Flt.mul sx px) (Flt.mul sy py)) (Flt.add (Flt.mul sx sx) (Flt.mul sy sy))

theorem const_eqF (a : Arc (Flt f)) (d : Flt f) : a.const d = constF a d := rfl
theorem proj_eqF (p : V2 (Flt f)) (g : Line2 (Flt f)) : Arc.pointProjection p g = projF p g := rfl
theorem par_eqF (x a b : Flt f) : Arc.parabolaY x a b = parF x a b := rfl

theorem round_eq (c : Arc.Const (Flt f)) (emit : Flt f → Flt f → P) (x : Flt f) (rest : List (Flt f))
    (s : Arc.State P (Flt f)) : Arc.round c emit x rest s = if accepts c s.curX s.curY x then
      { stack := rest, curX := x, curY := Arc.parabolaY x c.rotX c.rotY,
        out := s.out ++ [emit x (Arc.parabolaY x c.rotX c.rotY)] }
      else { s with stack := mid c s.curX s.curY x :: s.stack } := rfl

/-- several points in a row that are not accepted, each being the midpoint chosen for the one before -/
def Pushes (c : Arc.Const (Flt f)) (cx cy : Flt f) : List (Flt f) → Prop
  | x :: y :: l => accepts c cx cy x = false ∧ mid c cx cy x = y ∧ Pushes c cx cy (y :: l)
  | _ => True

instance decPushes (c : Arc.Const (Flt f)) (cx cy : Flt f) : (l : List (Flt f)) → Decidable (Pushes c cx cy l)
  | [] => isTrue trivial
  | [_] => isTrue trivial
  | x :: y :: l =>
    have := decPushes c cx cy (y :: l)
    inferInstanceAs (Decidable (accepts c cx cy x = false ∧ mid c cx cy x = y ∧ Pushes c cx cy (y :: l)))

/-- a run that gets into a cycle of two points -/
theorem cycle_never {c : Arc.Const (Flt f)} {emit : Flt f → Flt f → P} {x y : Flt f} (fuel : Nat) :
    ∀ (l : List (Flt f)) (s : Arc.State P (Flt f)) (rest : List (Flt f)) (z : Flt f), s.stack = z :: rest →
      (l ++ [x]).head? = some z → Pushes c s.curX s.curY (l ++ [x, y, x]) → Arc.loop c emit fuel s = none := by
  have two : ∀ (fuel : Nat) (s : Arc.State P (Flt f)), (∃ rest, s.stack = x :: rest ∨ s.stack = y :: rest) →
      Pushes c s.curX s.curY [x, y, x] → Arc.loop c emit fuel s = none := by
    intro fuel s h1 h2
    refine never (fun s => (∃ rest, s.stack = x :: rest ∨ s.stack = y :: rest) ∧ Pushes c s.curX s.curY [x, y, x])
      ?_ fuel s ⟨h1, h2⟩
    rintro s ⟨⟨rest, h | h⟩, hp⟩
    · obtain ⟨p1, p2, p3, p4, -⟩ := hp
      refine ⟨x, rest, h, ?_⟩
      rw [round_eq, p1, if_neg Bool.false_ne_true]
      exact ⟨⟨_, Or.inr (by rw [p2])⟩, p1, p2, p3, p4, trivial⟩
    · obtain ⟨p1, p2, p3, p4, -⟩ := hp
      refine ⟨y, rest, h, ?_⟩
      rw [round_eq, p3, if_neg Bool.false_ne_true]
      exact ⟨⟨_, Or.inl (by rw [p4])⟩, p1, p2, p3, p4, trivial⟩
  intro l
  induction l generalizing fuel with
  | nil =>
    intro s rest z h1 h2 h3
    simp only [List.nil_append, List.head?_cons, Option.some.injEq] at h2
    subst h2
    exact two fuel s ⟨rest, Or.inl h1⟩ h3
  | cons w l ih =>
    intro s rest z h1 h2 h3
    simp only [List.cons_append, List.head?_cons, Option.some.injEq] at h2
    subst h2
    cases fuel with
    | zero => unfold Arc.loop; rw [h1]
    | succ n =>
      unfold Arc.loop
      rw [h1]
      simp only
      have key : ∃ v, (l ++ [x]).head? = some v ∧ accepts c s.curX s.curY w = false ∧ mid c s.curX s.curY w = v ∧
          Pushes c s.curX s.curY (l ++ [x, y, x]) := by
        cases l with
        | nil => exact ⟨x, rfl, h3.1, h3.2.1, h3.2.2⟩
        | cons v l => exact ⟨v, rfl, h3.1, h3.2.1, h3.2.2⟩
      obtain ⟨v, k1, k2, k3, k4⟩ := key
      rw [round_eq, k2, if_neg Bool.false_ne_true, k3]
      exact ih n _ _ v rfl k1 k4

/-- an `f32` number -/
def q32 (n : ℤ) (e : ℕ) : F32 := Flt.ofQ false (n / 2 ^ e)

/-- an arc with coordinates below 60, start and end on the parabola -/
def hangs : Arc F32 := ⟨⟨⟨q32 0 0, q32 0 0⟩, ⟨q32 1 0, q32 0 0⟩⟩, ⟨q32 (-28) 0, q32 16 0⟩,
  ⟨q32 0 0, q32 65 1⟩, ⟨q32 11 0, q32 1777 5⟩⟩

/-- the first points on the stack -/
def hangsStart : List F32 := [q32 11 0, q32 11 1, q32 11 2, q32 11 3, q32 11 4, q32 11 5, q32 11 6, q32 11 7,
  q32 11171 18, q32 2769 17, q32 2651 18]

theorem hangs_pushes : Pushes (constF hangs (q32 1 20)) (Flt.mul (projF hangs.startPoint hangs.segment) (q32 1 0))
    (q32 65 1) (hangsStart ++ [q32 2373 19, q32 (-2651) 19, q32 2373 19]) := by decide +kernel

theorem hangs_numbers : (constF hangs (q32 1 20)).sqr = q32 1 0 ∧
    Flt.mul (projF hangs.endPoint hangs.segment) (q32 1 0) = q32 11 0 ∧
    Flt.mul (q32 1 0) (projF hangs.endPoint hangs.segment) = q32 11 0 ∧
    Flt.mul (q32 1 0) (projF hangs.startPoint hangs.segment) = Flt.mul (projF hangs.startPoint hangs.segment) (q32 1 0) ∧
    parF (Flt.mul (projF hangs.startPoint hangs.segment) (q32 1 0)) (constF hangs (q32 1 20)).rotX
      (constF hangs (q32 1 20)).rotY = q32 65 1 := by decide +kernel

end ArcFlt

/-- C88: also with a positive tolerance and coordinates of moderate size the functions may never return: an `f32`
arc with coordinates below 60 and the tolerance `2^-20` (the start and the end point are on the parabola). -/
theorem C88_small_tolerance_never_ends [Libm b32] (fuel : Nat) :
    hangs.discretize2d fuel (q32 1 20) = none ∧ hangs.discretize3d fuel (q32 1 20) = none := by
  obtain ⟨h1, h2, h3, h4, h5⟩ := hangs_numbers
  constructor
  · refine d2_none (cycle_never (x := q32 2373 19) (y := q32 (-2651) 19) fuel hangsStart _ [] (q32 11 0) ?_ rfl ?_)
    · show [Flt.mul (projF hangs.endPoint hangs.segment) (constF hangs (q32 1 20)).sqr] = _
      rw [h1, h2]
    · show Pushes (constF hangs (q32 1 20)) (Flt.mul (projF hangs.startPoint hangs.segment) (constF hangs (q32 1 20)).sqr)
        (parF (Flt.mul (projF hangs.startPoint hangs.segment) (constF hangs (q32 1 20)).sqr)
          (constF hangs (q32 1 20)).rotX (constF hangs (q32 1 20)).rotY) _
      rw [h1, h5]
      exact hangs_pushes
  · refine d3_none (cycle_never (x := q32 2373 19) (y := q32 (-2651) 19) fuel hangsStart _ [] (q32 11 0) ?_ rfl ?_)
    · show [Flt.mul (constF hangs (q32 1 20)).sqr (projF hangs.endPoint hangs.segment)] = _
      rw [h1, h3]
    · show Pushes (constF hangs (q32 1 20)) (Flt.mul (constF hangs (q32 1 20)).sqr (projF hangs.startPoint hangs.segment))
        (parF (Flt.mul (constF hangs (q32 1 20)).sqr (projF hangs.startPoint hangs.segment))
          (constF hangs (q32 1 20)).rotX (constF hangs (q32 1 20)).rotY) _
      rw [h1, h4, h5]
      exact hangs_pushes

end Verif.Props
