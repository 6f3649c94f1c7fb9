import Verif.Props.HullUnique
import Verif.Props.FloatGraham
import Verif.Props.FloatContain
/-!
# C93: the hull algorithms and the containment tests together
-/
set_option linter.unusedSectionVars false
namespace Verif.Props
open Verif Verif.Model Verif.Spec Verif.Hull

section
variable {α : Type} [Scalar α]

theorem popWhile_point (p : V2 α) : ∀ (n : Nat) (l : List (V2 α)), l.length ≤ n → l ≠ [] →
    ∃ r, popWhile getPoint p l = .ok r ∧ r ≠ [] ∧ ∀ q ∈ r, q ∈ l := by
  intro n
  induction n with
  | zero =>
    intro l hl hne
    exact absurd (List.length_eq_zero_iff.1 (by omega)) hne
  | succ n ih =>
    intro l hl hne
    match l with
    | [] => exact absurd rfl hne
    | [a] => exact ⟨[a], rfl, by simp, fun q hq => hq⟩
    | a :: b :: t =>
      unfold popWhile
      simp only [getPoint, bind, Except.bind]
      split
      · obtain ⟨r, h1, h2, h3⟩ := ih (b :: t) (by simp at hl ⊢; omega) (by simp)
        exact ⟨r, h1, h2, fun q hq => List.mem_cons_of_mem _ (h3 q hq)⟩
      · exact ⟨_, rfl, by simp, fun q hq => hq⟩

theorem grahamLoop_point (skip : V2 α → Bool) : ∀ (l st : List (V2 α)), st ≠ [] →
    ∃ r, grahamLoop getPoint skip l st = .ok r ∧ r ≠ [] ∧ ∀ q ∈ r, q ∈ st ∨ q ∈ l := by
  intro l
  induction l with
  | nil => intro st h; exact ⟨st, rfl, h, fun q hq => Or.inl hq⟩
  | cons a l ih =>
    intro st h
    unfold grahamLoop
    split
    · obtain ⟨r, h1, h2, h3⟩ := ih st h
      exact ⟨r, h1, h2, fun q hq => (h3 q hq).imp id (List.mem_cons_of_mem _)⟩
    · obtain ⟨st1, e, -, hs⟩ := popWhile_point a _ st (Nat.le_refl _) h
      simp only [getPoint, bind, Except.bind] at e ⊢
      rw [e]
      obtain ⟨r, h1, h2, h3⟩ := ih (a :: st1) (by simp)
      refine ⟨r, h1, h2, fun q hq => ?_⟩
      rcases h3 q hq with hq | hq
      · rcases List.mem_cons.1 hq with rfl | hq
        · exact Or.inr List.mem_cons_self
        · exact Or.inl (hs q hq)
      · exact Or.inr (List.mem_cons_of_mem _ hq)

theorem grahamLoop2_point : ∀ (l st : List (V2 α)), st ≠ [] →
    ∃ r, grahamLoop2 l st = .ok r ∧ r ≠ [] ∧ ∀ q ∈ r, q ∈ st ∨ q ∈ l := by
  intro l
  induction l with
  | nil => intro st h; exact ⟨st, rfl, h, fun q hq => Or.inl hq⟩
  | cons a l ih =>
    intro st h
    unfold grahamLoop2
    obtain ⟨st1, e, hne, hs⟩ := popWhile_point a _ st (Nat.le_refl _) h
    rw [e]
    simp only [bind, Except.bind]
    cases st1 with
    | nil => exact absurd rfl hne
    | cons last rest =>
      simp only
      split
      · obtain ⟨r, h1, h2, h3⟩ := ih (last :: rest) (by simp)
        exact ⟨r, h1, h2, fun q hq => (h3 q hq).imp (hs q) (List.mem_cons_of_mem _)⟩
      · obtain ⟨r, h1, h2, h3⟩ := ih (a :: last :: rest) (by simp)
        refine ⟨r, h1, h2, fun q hq => ?_⟩
        rcases h3 q hq with hq | hq
        · rcases List.mem_cons.1 hq with rfl | hq
          · exact Or.inr List.mem_cons_self
          · exact Or.inl (hs q hq)
        · exact Or.inr (List.mem_cons_of_mem _ hq)

theorem lowestLoop_mem : ∀ (l : List (V2 α)) (pos mi : Nat) (m : V2 α) (k : Nat) (v : V2 α),
    lowestLoop getPoint l pos mi m = .ok (k, v) → v = m ∨ v ∈ l := by
  intro l
  induction l with
  | nil =>
    intro pos mi m k v h
    simp only [lowestLoop, Except.ok.injEq, Prod.mk.injEq] at h
    exact Or.inl h.2.symm
  | cons p l ih =>
    intro pos mi m k v h
    have take : lowestLoop getPoint l (pos + 1) pos p = .ok (k, v) → v = m ∨ v ∈ p :: l := fun h => by
      rcases ih _ _ _ _ _ h with h | h
      · exact Or.inr (by rw [h]; exact List.mem_cons_self)
      · exact Or.inr (List.mem_cons_of_mem _ h)
    have keep : lowestLoop getPoint l (pos + 1) mi m = .ok (k, v) → v = m ∨ v ∈ p :: l := fun h => by
      rcases ih _ _ _ _ _ h with h | h
      · exact Or.inl h
      · exact Or.inr (List.mem_cons_of_mem _ h)
    unfold lowestLoop at h
    simp only [getPoint, bind, Except.bind] at h
    cases hc : Scalar.pcmp p.x m.x with
    | none => rw [hc] at h; cases h
    | some o =>
      rw [hc] at h
      cases o with
      | lt => exact take h
      | gt => exact keep h
      | eq =>
        simp only at h
        split at h
        · exact take h
        · exact keep h

theorem findLowest_point {l : List (V2 α)} {k : Nat} {v : V2 α} (h : findLowest false getPoint l = .ok (k, v)) : v ∈ l := by
  cases l with
  | nil => cases h
  | cons p l =>
    simp only [findLowest, getPoint, bind, Except.bind, Bool.false_eq_true, if_false] at h
    rcases lowestLoop_mem l _ _ _ _ _ h with h | h
    · rw [h]; exact List.mem_cons_self
    · exact List.mem_cons_of_mem _ h

theorem triangle3_mem (a b c : V2 α) : ∀ v ∈ triangle3 a b c, v ∈ [a, b, c] := by
  intro v hv
  unfold triangle3 at hv
  split at hv <;> simp at hv ⊢ <;> tauto

/-- **C36** in any arithmetic – with NaN, infinities, rounding and whatever `atan2` returns – and for any sort that permutes its
input, `graham_scan` does not panic and returns, if it does not report invalid input, only input points.  (The sort of newer
Rust versions may panic if the comparison is not a total order, which is possible with NaN.) -/
theorem C36_any_arithmetic (srt : List (V2 α × α × α) → List (V2 α × α × α)) (hsrt : ∀ l, (srt l).Perm l) (input : List (V2 α)) :
    grahamScan srt input = .error .invalid ∨ ∃ hull, grahamScan srt input = .ok hull ∧ ∀ v ∈ hull, v ∈ input := by
  have hsub := (dropLoopPoint_sub input).1
  unfold grahamScan
  generalize dropLoopPoint input = pts at *
  match pts, hsub with
  | [], _ => exact Or.inr ⟨_, rfl, by simp⟩
  | [a], hs => exact Or.inr ⟨_, rfl, hs⟩
  | [a, b], hs => exact Or.inr ⟨_, rfl, hs⟩
  | [a, b, c], hs => exact Or.inr ⟨_, rfl, fun v hv => hs v (triangle3_mem a b c v hv)⟩
  | a :: b :: c :: d :: t, hs =>
    simp only
    rcases findLowest_any false getPoint (a :: b :: c :: d :: t) (fun i _ => ⟨i, rfl⟩) with e | ⟨k, start, e, -⟩
    · rw [e]; exact Or.inl rfl
    · right
      rw [e]
      have hstart := findLowest_point e
      generalize a :: b :: c :: d :: t = pts at *
      simp only [bind, Except.bind]
      obtain ⟨r, e1, -, e3⟩ := grahamLoop_point (fun p => p.beq start)
        ((srt (pts.map fun p => angleEntry start p p)).map (·.1)) [start] (by simp)
      rw [e1]
      simp only
      have hr : ∀ q ∈ r, q ∈ input := by
        intro q hq
        rcases e3 q hq with hq | hq
        · rw [List.mem_singleton.1 hq]; exact hs _ hstart
        · obtain ⟨e, he, rfl⟩ := List.mem_map.1 hq
          obtain ⟨p, hp, rfl⟩ := List.mem_map.1 ((hsrt _).mem_iff.1 he)
          exact hs p hp
      split
      · refine ⟨_, rfl, fun v hv => ?_⟩
        rcases List.mem_append.1 hv with hv | hv
        · exact hr v (List.mem_reverse.1 hv)
        · rw [Option.mem_toList] at hv
          exact hr v (List.mem_reverse.1 (List.mem_of_mem_head? hv))
      · exact ⟨_, rfl, fun v hv => hr v (List.mem_reverse.1 hv)⟩

/-- **C37** the same for `graham_scan_wo_atan2`; it panics iff the comparison function of its sort does (`none`). -/
theorem C37_any_arithmetic (srt : V2 α → List (V2 α) → Option (List (V2 α)))
    (hsrt : ∀ s l r, srt s l = some r → r.Perm l) (input : List (V2 α)) :
    grahamScanWoAtan2 srt input = .error .invalid ∨
    (grahamScanWoAtan2 srt input = .error .panic ∧ ∃ s ∈ input, srt s (dropLoopPoint input) = none) ∨
    ∃ hull, grahamScanWoAtan2 srt input = .ok hull ∧ ∀ v ∈ hull, v ∈ input := by
  have hsub := (dropLoopPoint_sub input).1
  unfold grahamScanWoAtan2
  generalize dropLoopPoint input = pts at *
  match pts, hsub with
  | [], _ => exact Or.inr (Or.inr ⟨_, rfl, by simp⟩)
  | [a], hs => exact Or.inr (Or.inr ⟨_, rfl, hs⟩)
  | [a, b], hs => exact Or.inr (Or.inr ⟨_, rfl, hs⟩)
  | [a, b, c], hs => exact Or.inr (Or.inr ⟨_, rfl, fun v hv => hs v (triangle3_mem a b c v hv)⟩)
  | a :: b :: c :: d :: t, hs =>
    simp only
    rcases findLowest_any false getPoint (a :: b :: c :: d :: t) (fun i _ => ⟨i, rfl⟩) with e | ⟨k, start, e, -⟩
    · rw [e]; exact Or.inl rfl
    · right
      rw [e]
      have hstart := findLowest_point e
      generalize a :: b :: c :: d :: t = pts at *
      simp only [bind, Except.bind]
      cases es : srt start pts with
      | none => exact Or.inl ⟨rfl, start, hs _ hstart, es⟩
      | some sorted =>
        right
        simp only
        obtain ⟨r, e1, -, e3⟩ := grahamLoop2_point sorted [start] (by simp)
        rw [e1]
        simp only
        have hr : ∀ q ∈ r, q ∈ input := by
          intro q hq
          rcases e3 q hq with hq | hq
          · rw [List.mem_singleton.1 hq]; exact hs _ hstart
          · exact hs q ((hsrt _ _ _ es).mem_iff.1 hq)
        split
        · exact ⟨_, rfl, fun v hv => hr v (List.mem_reverse.1 hv)⟩
        · refine ⟨_, rfl, fun v hv => ?_⟩
          rcases List.mem_append.1 hv with hv | hv
          · exact hr v (List.mem_reverse.1 hv)
          · rw [Option.mem_toList] at hv
            exact hr v (List.mem_reverse.1 (List.mem_of_mem_head? hv))
end

section
variable {K : Type} [Scalar K] [Field K] [LinearOrder K] [ExactScalar K]

/-- the points are not all on one line -/
def NotFlat (pts : List (V2 K)) : Prop := ∃ a ∈ pts, ∃ b ∈ pts, ∃ c ∈ pts, orient a b c ≠ 0

theorem NotFlat.two {pts : List (V2 K)} (h : NotFlat pts) : ∃ a ∈ pts, ∃ b ∈ pts, a ≠ b := by
  obtain ⟨a, ha, b, hb, c, hc, h⟩ := h
  refine ⟨a, ha, b, hb, ?_⟩
  rintro rfl
  apply h
  simp only [orient]; ring

/-- a hull loop around points that are not on one line has three different vertices -/
theorem _root_.Verif.Spec.IsHullLoop.long {pts hull : List (V2 K)} (h : IsHullLoop pts hull) (hf : NotFlat pts) : 3 < hull.length := by
  by_contra hl
  obtain ⟨a, b, e⟩ := h.short hl
  obtain ⟨p, hp, q, hq, r, hr, hne⟩ := hf
  obtain ⟨s, -, -, rfl⟩ := h.flat a b a e p hp
  obtain ⟨t, -, -, rfl⟩ := h.flat a b a e q hq
  obtain ⟨u, -, -, rfl⟩ := h.flat a b a e r hr
  apply hne
  simp only [orient, lerp2]; ring

theorem inTriangle_mono {pts pts' : List (V2 K)} {p : V2 K} (h : ∀ q ∈ pts, q ∈ pts') (hp : InTriangleOf pts p) : InTriangleOf pts' p := by
  obtain ⟨a, ha, b, hb, c, hc, r⟩ := hp
  exact ⟨a, h a ha, b, h b hb, c, h c hc, r⟩

theorem inTriangle_mem {pts : List (V2 K)} {p : V2 K} (h : p ∈ pts) : InTriangleOf pts p := by
  have := ExactScalar.toIsStrictOrderedRing (K := K)
  exact ⟨p, h, p, h, p, h, 1, 0, 0, zero_le_one, le_refl _, le_refl _, by ring, by ring, by ring⟩

/-- a combination of points that are on or left of a line is on or left of it -/
theorem inTriangle_orient {pts : List (V2 K)} {p a b : V2 K} (h : ∀ q ∈ pts, 0 ≤ orient a b q) (hp : InTriangleOf pts p) :
    0 ≤ orient a b p := by
  have := ExactScalar.toIsStrictOrderedRing (K := K)
  obtain ⟨x, hx, y, hy, z, hz, u, v, w, hu, hv, hw, e, e1, e2⟩ := hp
  have key : orient a b p = u * orient a b x + v * orient a b y + w * orient a b z := by
    obtain ⟨px, py⟩ := p
    simp only at e1 e2
    subst e1 e2
    obtain rfl : u = 1 - v - w := by linear_combination e
    simp only [orient]; ring
  rw [key]
  have := mul_nonneg hu (h x hx)
  have := mul_nonneg hv (h y hy)
  have := mul_nonneg hw (h z hz)
  linarith

/-- for a hull loop around points: on or left of every edge means convex combination of the points -/
theorem inLoop_iff {pts hull : List (V2 K)} (h : IsHullLoop pts hull) (hl : 3 < hull.length) (p : V2 K) :
    InLoop hull p ↔ InTriangleOf pts p := by
  rw [C42_left_of_every_edge_iff_convex_combination h hl]
  constructor
  · exact inTriangle_mono h.vertices
  · intro hp
    rw [← C42_left_of_every_edge_iff_convex_combination h hl]
    exact fun i a b ha hb => inTriangle_orient (h.left i a b ha hb) hp

/-- **C93** `convex_hull` followed by `contains_point_inclusive`: for at least four points that are not all on one line, the
returned hull contains exactly the convex combinations of the points that went in – whatever hull function was used, since all
return a hull loop (C36, C37, C38, C40, C41). -/
theorem C93_hull_contains_the_combinations {input hull : List (V2 K)} (h : IsHullLoop input hull) (hf : NotFlat input) (p : V2 K) :
    ∃ r, containsPointInclusive hull p = .ok r ∧ lineContainsInclusive hull p = .ok r ∧ (r = true ↔ InTriangleOf input p) := by
  have hl := h.long hf
  obtain ⟨r, hr, hi⟩ := C42_inclusive_iff_left_of_every_edge h hl p
  exact ⟨r, hr, (C42_line_inclusive h hl p).trans hr, hi.trans (inLoop_iff h hl p)⟩

/-- **C93** the same for the calls of `LineString2`, from input to answer; in particular every input point is contained. -/
theorem C93_convex_hull_then_contains [ExactAtan2 K] (srt : List (V2 K × K × K) → List (V2 K × K × K)) (hsrt : Sorts angleCmp srt)
    (input : List (V2 K)) (h4 : 4 ≤ input.length) (h5 : input.head? = input.getLast? → 5 ≤ input.length) (hf : NotFlat input) :
    ∃ hull, lineConvexHull srt input = .ok hull ∧
      (∀ p, ∃ r, lineContainsInclusive hull p = .ok r ∧ (r = true ↔ InTriangleOf input p)) ∧
      (∀ p ∈ input, lineContainsInclusive hull p = .ok true) ∧
      ∀ p, lineContainsExclusive hull p = .ok true → lineContainsInclusive hull p = .ok true := by
  obtain ⟨hull, -, e, H, -⟩ := C36_graham_scan_is_hull srt hsrt input h4 h5 hf.two
  refine ⟨hull, e, fun p => ?_, fun p hp => ?_, fun p hp => ?_⟩
  · obtain ⟨r, -, h1, h2⟩ := C93_hull_contains_the_combinations H hf p
    exact ⟨r, h1, h2⟩
  · obtain ⟨r, -, h1, h2⟩ := C93_hull_contains_the_combinations H hf p
    rw [h1, h2.2 (inTriangle_mem hp)]
  · have hl := H.long hf
    rw [C43_line_exclusive H hl] at hp
    obtain ⟨r, h1, h2⟩ := C43_exclusive_sound H hl p
    rw [h1] at hp
    obtain ⟨r', h3, h4'⟩ := C42_inclusive_iff_left_of_every_edge H hl p
    rw [C42_line_inclusive H hl, h3, h4'.2 (fun i a b ha hb => (h2 (Except.ok.inj hp) i a b ha hb).le)]

/-- **C93** `contains_convex_hull` on hulls of two sets of points answers whether all points of the second set are convex
combinations of points of the first. -/
theorem C93_nested_hulls {a b hullA hullB : List (V2 K)} (ha : IsHullLoop a hullA) (hb : IsHullLoop b hullB) (hf : NotFlat a) :
    ∃ r, containsConvexHull hullA hullB = .ok r ∧ (r = true ↔ ∀ p ∈ b, InTriangleOf a p) := by
  have hl := ha.long hf
  obtain ⟨r, hr, -, hi⟩ := C44_contains_hull_iff ha hl hullB
  refine ⟨r, hr, hi.trans ?_⟩
  constructor
  · intro h p hp
    rw [← inLoop_iff ha hl]
    intro i x y hx hy
    exact inTriangle_orient (fun q hq => h q hq i x y hx hy) (C63_points_are_combinations_of_the_vertices hb p hp)
  · intro h q hq
    rw [inLoop_iff ha hl]
    exact h q (hb.vertices q hq)

/-- **C93** a hull of more points contains the hull of fewer -/
theorem C93_more_points_larger_hull {a b hullA hullB : List (V2 K)} (ha : IsHullLoop a hullA) (hb : IsHullLoop b hullB)
    (hf : NotFlat a) (hsub : ∀ p ∈ b, p ∈ a) : containsConvexHull hullA hullB = .ok true := by
  obtain ⟨r, hr, hi⟩ := C93_nested_hulls ha hb hf
  rw [hr, hi.2 (fun p hp => inTriangle_mem (hsub p hp))]

/-- **C93** containment of hulls is a partial order: every hull contains itself, it is transitive, and hulls that contain each
other (started at their lowest leftmost points) are the same list. -/
theorem C93_containment_is_an_order {a b c hullA hullB hullC : List (V2 K)} (ha : IsHullLoop a hullA) (hb : IsHullLoop b hullB)
    (hc : IsHullLoop c hullC) (hfa : NotFlat a) (hfb : NotFlat b) :
    containsConvexHull hullA hullA = .ok true ∧
    (containsConvexHull hullA hullB = .ok true → containsConvexHull hullB hullC = .ok true →
      containsConvexHull hullA hullC = .ok true) ∧
    (StartsLowest a hullA → StartsLowest b hullB → containsConvexHull hullA hullB = .ok true →
      containsConvexHull hullB hullA = .ok true → hullA = hullB) := by
  have la := ha.long hfa
  have lb := hb.long hfb
  refine ⟨C93_more_points_larger_hull ha ha hfa (fun _ h => h), ?_, ?_⟩
  · intro h1 h2
    obtain ⟨r1, e1, i1⟩ := C93_nested_hulls ha hb hfa
    obtain ⟨r2, e2, i2⟩ := C93_nested_hulls hb hc hfb
    obtain ⟨r3, e3, i3⟩ := C93_nested_hulls ha hc hfa
    rw [h1] at e1; rw [h2] at e2
    have k1 := i1.1 (Except.ok.inj e1).symm
    have k2 := i2.1 (Except.ok.inj e2).symm
    rw [e3, i3.2]
    intro p hp
    rw [← inLoop_iff ha la]
    intro i x y hx hy
    exact inTriangle_orient (fun q hq => inTriangle_orient (ha.left i x y hx hy) (k1 q hq)) (k2 p hp)
  · intro sa sb h1 h2
    obtain ⟨r1, e1, i1⟩ := C93_nested_hulls ha hb hfa
    obtain ⟨r2, e2, i2⟩ := C93_nested_hulls hb ha hfb
    rw [h1] at e1; rw [h2] at e2
    have k1 := i1.1 (Except.ok.inj e1).symm
    have k2 := i2.1 (Except.ok.inj e2).symm
    -- both are loops around all the points
    have join : ∀ {a b hullA : List (V2 K)}, IsHullLoop a hullA → 3 < hullA.length → (∀ p ∈ b, InTriangleOf a p) →
        IsHullLoop (a ++ b) hullA := by
      intro a b hullA ha la k
      refine ⟨ha.len, ha.closed, fun v hv => List.mem_append_left _ (ha.vertices v hv), ha.once, ?_, ha.turn, ha.turnClosing, ?_⟩
      · intro i x y hx hy p hp
        rcases List.mem_append.1 hp with hp | hp
        · exact ha.left i x y hx hy p hp
        · exact inTriangle_orient (ha.left i x y hx hy) (k p hp)
      · intro x y z e
        rw [e] at la
        simp at la
    have low : ∀ {a b hullA : List (V2 K)}, StartsLowest a hullA → (∀ p ∈ b, InTriangleOf a p) →
        StartsLowest (a ++ b) hullA := by
      intro a b hullA ⟨s, e, hs⟩ k
      refine ⟨s, e, fun p hp => ?_⟩
      rcases List.mem_append.1 hp with hp | hp
      · exact hs p hp
      · have := ExactScalar.toIsStrictOrderedRing (K := K)
        obtain ⟨x, hx, y, hy, z, hz, u, v, w, hu, hv, hw, es, e1, e2⟩ := k p hp
        have gx : ∀ q ∈ a, s.x ≤ q.x := by
          intro q hq
          rcases hs q hq with h | ⟨h, -⟩
          · exact h.le
          · exact h.le
        have dx : p.x - s.x = u * (x.x - s.x) + v * (y.x - s.x) + w * (z.x - s.x) := by
          rw [e1]
          linear_combination s.x * es
        have dy : p.y - s.y = u * (x.y - s.y) + v * (y.y - s.y) + w * (z.y - s.y) := by
          rw [e2]
          linear_combination s.y * es
        have nx := mul_nonneg hu (sub_nonneg.2 (gx x hx))
        have ny := mul_nonneg hv (sub_nonneg.2 (gx y hy))
        have nz := mul_nonneg hw (sub_nonneg.2 (gx z hz))
        rcases lt_or_ge s.x p.x with h | h
        · exact Or.inl h
        · right
          have zx : u * (x.x - s.x) = 0 := by linarith
          have zy : v * (y.x - s.x) = 0 := by linarith
          have zz : w * (z.x - s.x) = 0 := by linarith
          refine ⟨by linarith, ?_⟩
          have each : ∀ (t : K) (q : V2 K), 0 ≤ t → q ∈ a → t * (q.x - s.x) = 0 → 0 ≤ t * (q.y - s.y) := by
            intro t q ht hq h0
            rcases mul_eq_zero.1 h0 with h0 | h0
            · rw [h0, zero_mul]
            · rcases hs q hq with h | ⟨-, h⟩
              · exact absurd h0 (sub_pos.2 h).ne'
              · exact mul_nonneg ht (sub_nonneg.2 h)
          have := each u x hu hx zx
          have := each v y hv hy zy
          have := each w z hw hz zz
          linarith
    exact C62_hull_is_unique (pts := a ++ b) (pts' := b ++ a) (fun p => by simp [or_comm]) (join ha la k1) (low sa k1)
      (join hb lb k2) (low sb k2)
end

section
variable {f : Fmt} [Libm f]

/-- **C93** on floats: whatever function computed the hull of points on a grid, on the computed hull `contains_point_inclusive`
answers exactly whether a point of the grid is a convex combination of the points that went in. -/
theorem C93_hull_contains_on_floats {s B : ℤ} (G : GoodGrid f s B) {input hull : List (V2 (Flt f))}
    (hin : ∀ p ∈ input, OnGrid s B p) (hsub : ∀ v ∈ hull, v ∈ input) (h : IsHullLoop (input.map exact) (hull.map exact))
    (hf : NotFlat (input.map exact)) (p : V2 (Flt f)) (hp : OnGrid s B p) :
    ∃ r, containsPointInclusive hull p = .ok r ∧ lineContainsInclusive hull p = .ok r ∧
      (r = true ↔ InTriangleOf (input.map exact) (exact p)) := by
  have hl := h.long hf
  rw [List.length_map] at hl
  obtain ⟨r, h1, h2, h3⟩ := C75_contains_inclusive_on_floats G (fun v hv => hin v (hsub v hv)) h hl p hp
  exact ⟨r, h1, h2, h3.trans (inLoop_iff h (h.long hf) (exact p))⟩

/-- **C93** on floats: `LineString2::convex_hull` followed by the containment tests: the hull of points on a grid is computed and
contains each of them, and another hull is contained in it iff all points it was computed from are convex combinations. -/
theorem C93_convex_hull_then_contains_on_floats {s B : ℤ} (G : GoodGrid f s B) (hA : AtanOk f s B)
    (srt : List (V2 (Flt f) × Flt f × Flt f) → List (V2 (Flt f) × Flt f × Flt f)) (hperm : ∀ l, (srt l).Perm l)
    (hsrt : ∀ l, (∀ e ∈ l, e.2.1 ≠ .nan ∧ e.2.2 ≠ .nan) → (srt l).Pairwise (fun a b => angleCmp a b ≠ .gt))
    (a b : List (V2 (Flt f))) (ha : ∀ p ∈ a, OnGrid s B p) (hb : ∀ p ∈ b, OnGrid s B p)
    (a4 : 4 ≤ a.length) (a5 : (a.map exact).head? = (a.map exact).getLast? → 5 ≤ a.length)
    (b4 : 4 ≤ b.length) (b5 : (b.map exact).head? = (b.map exact).getLast? → 5 ≤ b.length)
    (hfa : NotFlat (a.map exact)) (hfb : NotFlat (b.map exact)) :
    ∃ hullA hullB, lineConvexHull srt a = .ok hullA ∧ lineConvexHull srt b = .ok hullB ∧
      (∀ p ∈ a, lineContainsInclusive hullA p = .ok true) ∧
      (∀ p, OnGrid s B p → ∃ r, lineContainsInclusive hullA p = .ok r ∧ (r = true ↔ InTriangleOf (a.map exact) (exact p))) ∧
      ∃ r, containsConvexHull hullA hullB = .ok r ∧ (r = true ↔ ∀ p ∈ b, InTriangleOf (a.map exact) (exact p)) := by
  have two : ∀ {l : List (V2 (Flt f))}, NotFlat (l.map exact) → ∃ p ∈ l, ∃ q ∈ l, exact p ≠ exact q := by
    intro l hl
    obtain ⟨p, hp, q, hq, hpq⟩ := hl.two
    obtain ⟨p, hp', rfl⟩ := List.mem_map.1 hp
    obtain ⟨q, hq', rfl⟩ := List.mem_map.1 hq
    exact ⟨p, hp', q, hq', hpq⟩
  have run : ∀ l : List (V2 (Flt f)), (∀ p ∈ l, OnGrid s B p) → 4 ≤ l.length →
      ((l.map exact).head? = (l.map exact).getLast? → 5 ≤ l.length) → NotFlat (l.map exact) →
      ∃ hull, lineConvexHull srt l = .ok hull ∧ IsHullLoop (l.map exact) (hull.map exact) ∧ ∀ v ∈ hull, v ∈ l := by
    intro l hl l4 l5 hfl
    obtain ⟨hull, e1, e2, H, -⟩ := C74_graham_scan_on_floats G hA srt (fun l h => ⟨hperm l, hsrt l h⟩) l hl l4 l5 (two hfl)
    rcases C36_any_arithmetic srt hperm l with e | ⟨hull', e, hm⟩
    · rw [e1] at e; cases e
    · rw [e1] at e
      cases e
      exact ⟨hull, e2, H, hm⟩
  obtain ⟨hullA, ea, HA, ma⟩ := run a ha a4 a5 hfa
  obtain ⟨hullB, eb, HB, mb⟩ := run b hb b4 b5 hfb
  have all := C93_hull_contains_on_floats G ha ma HA hfa
  refine ⟨hullA, hullB, ea, eb, ?_, ?_, ?_⟩
  · intro p hp
    obtain ⟨r, -, h1, h2⟩ := all p (ha p hp)
    rw [h1, h2.2 (inTriangle_mem (List.mem_map_of_mem hp))]
  · intro p hp
    obtain ⟨r, -, h1, h2⟩ := all p hp
    exact ⟨r, h1, h2⟩
  · have hl := HA.long hfa
    obtain ⟨r, h1, -, h2⟩ := C75_contains_convex_hull_on_floats G (fun v hv => ha v (ma v hv)) HA (by simpa using hl) hullB
      (fun v hv => hb v (mb v hv))
    refine ⟨r, h1, h2.trans ?_⟩
    have key := C93_nested_hulls HA HB hfa
    constructor
    · intro h p hp
      rw [← inLoop_iff HA hl]
      intro i x y hx hy
      refine inTriangle_orient (pts := hullB.map exact) ?_ (C63_points_are_combinations_of_the_vertices HB (exact p) (List.mem_map_of_mem hp))
      intro q hq
      obtain ⟨q, hq', rfl⟩ := List.mem_map.1 hq
      exact h q hq' i x y hx hy
    · intro h q hq
      rw [inLoop_iff HA hl]
      exact h q (mb q hq)
end

/-! ### the hypotheses are met -/

/-- there is a sort as `C93_convex_hull_then_contains_on_floats` wants it -/
theorem C93_sort_exists {f : Fmt} [Libm f] :
    ∃ srt : List (V2 (Flt f) × Flt f × Flt f) → List (V2 (Flt f) × Flt f × Flt f), (∀ l, (srt l).Perm l) ∧
      ∀ l, (∀ e ∈ l, e.2.1 ≠ .nan ∧ e.2.2 ≠ .nan) → (srt l).Pairwise (fun a b => angleCmp a b ≠ .gt) := by
  classical
  obtain ⟨srt, hs⟩ := C74_sort_exists (f := f) (V2 (Flt f))
  refine ⟨fun l => if ∀ e ∈ l, e.2.1 ≠ .nan ∧ e.2.2 ≠ .nan then srt l else l, fun l => ?_, fun l hl => ?_⟩
  · show (if _ then srt l else l).Perm l
    split
    · rename_i h; exact (hs l h).1
    · exact List.Perm.refl _
  · show (if _ then srt l else l).Pairwise _
    rw [if_pos hl]
    exact (hs l hl).2

/-- `f64`, a square of integers: all hypotheses of `C93_convex_hull_then_contains_on_floats` hold, so its points are contained -/
example : (let _ := floorAtan b64
    ∃ srt hull, lineConvexHull srt (sample.map (fun q => ipt b64 q.1 q.2)) = .ok hull ∧
      ∀ p ∈ sample.map (fun q => ipt b64 q.1 q.2), lineContainsInclusive hull p = .ok true) := by
  let _ := floorAtan b64
  obtain ⟨h1, h2⟩ := sample_floats b64 goodGrid64 (by norm_num)
  obtain ⟨srt, hs1, hs2⟩ := C93_sort_exists (f := b64)
  have nf : NotFlat ((sample.map (fun q => ipt b64 q.1 q.2)).map exact) := by
    rw [h2]
    exact ⟨⟨0, 0⟩, by simp, ⟨200, 0⟩, by simp, ⟨200, 200⟩, by simp, by simp [orient]⟩
  obtain ⟨hull, -, h3, -, h4, -⟩ := C93_convex_hull_then_contains_on_floats goodGrid64
    (C74_accurate_atan2_is_good goodGrid64 (C74_good_atan2_exists b64)) srt hs1 hs2 _ _ h1 h1 (by simp [sample]) (by rw [h2]; simp)
    (by simp [sample]) (by rw [h2]; simp) nf nf
  exact ⟨srt, hull, h3, h4⟩

/-- a square with a point inside, and a triangle in it -/
def bigSquare : List (V2 ℚ) := [⟨0, 0⟩, ⟨4, 0⟩, ⟨4, 4⟩, ⟨0, 4⟩, ⟨2, 1⟩]
def innerTriangle : List (V2 ℚ) := [⟨1, 1⟩, ⟨3, 1⟩, ⟨1, 3⟩, ⟨2, 1⟩]

example : NotFlat bigSquare ∧ NotFlat innerTriangle ∧ 4 ≤ bigSquare.length ∧ bigSquare.head? ≠ bigSquare.getLast? ∧
    grahamScan (insSort fun a b => angleCmp a b != .gt) bigSquare = .ok [⟨0, 0⟩, ⟨4, 0⟩, ⟨4, 4⟩, ⟨0, 4⟩, ⟨0, 0⟩] ∧
    containsConvexHull ([⟨0, 0⟩, ⟨4, 0⟩, ⟨4, 4⟩, ⟨0, 4⟩, ⟨0, 0⟩] : List (V2 ℚ)) [⟨1, 1⟩, ⟨3, 1⟩, ⟨1, 3⟩, ⟨1, 1⟩] = .ok true ∧
    containsConvexHull ([⟨1, 1⟩, ⟨3, 1⟩, ⟨1, 3⟩, ⟨1, 1⟩] : List (V2 ℚ)) [⟨0, 0⟩, ⟨4, 0⟩, ⟨4, 4⟩, ⟨0, 4⟩, ⟨0, 0⟩] = .ok false := by
  refine ⟨⟨⟨0, 0⟩, by simp [bigSquare], ⟨4, 0⟩, by simp [bigSquare], ⟨4, 4⟩, by simp [bigSquare], by decide +kernel⟩,
    ⟨⟨1, 1⟩, by simp [innerTriangle], ⟨3, 1⟩, by simp [innerTriangle], ⟨1, 3⟩, by simp [innerTriangle], by decide +kernel⟩,
    by decide, by decide, by decide +kernel, by decide +kernel, by decide +kernel⟩

end Verif.Props
