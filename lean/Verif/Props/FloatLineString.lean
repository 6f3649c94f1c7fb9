import Verif.Proofs.FloatUlps
/-!
# Line strings and segments in floating point
-/
set_option linter.unusedSectionVars false
set_option linter.unusedVariables false
namespace Verif.Props
open Verif Verif.Model Verif.Spec Scalar Verif.Proofs.FloatHull Verif.Proofs.FloatIntersect Verif.Proofs.FloatLinePoint Fl Flt
section
variable {f : Fmt} [Libm f]

theorem gridError_nonneg {s B : ℤ} {p : V2 (Flt f)} (h : OnGrid s B p) : 0 ≤ gridError f s B := by
  obtain ⟨a1, a2, -, -, h1, -⟩ := OnGrid.coords h
  have hB : 0 ≤ B := (abs_nonneg _).trans h1
  have : (0 : ℝ) ≤ B := by exact_mod_cast hB
  unfold gridError; positivity

/-- a point is within any error of itself -/
theorem within_self {s B : ℤ} {p : V2 (Flt f)} (h : OnGrid s B p) : Within (gridError f s B) p (exactR p) := by
  have := gridError_nonneg h
  exact ⟨h.1, h.2.1, by simpa using this, by simpa using this⟩

/-- two segments on a grid: what is reported -/
theorem segment_reports {s B : ℤ} (G : GoodGrid f s B) {a b c d : V2 (Flt f)} (ha : OnGrid s B a)
    (hb : OnGrid s B b) (hc : OnGrid s B c) (hd : OnGrid s B d)
    (h : (0 ≤ s ∧ 1024 * B ^ 4 ≤ 2 ^ f.prec) ∨ (exact c ≠ exact d ∧ exact a ≠ exact b)) :
    ReportsWithin (gridError f s B) (fun x => OnSegment2 (exactR a) (exactR b) x ∧ OnSegment2 (exactR c) (exactR d) x)
      ((Line2.mk a b).intersectionPoint ⟨c, d⟩) := by
  have ec : ∀ q : V2 (Flt f), exactR q = castV (exact q) := fun _ => rfl
  by_cases hne : exact a ≠ exact b ∧ exact c ≠ exact d
  · have h := C77_intersection_on_floats G ha hb hc hd hne.1 hne.2
    generalize (Line2.mk a b).intersectionPoint ⟨c, d⟩ = r at h
    match r, h with
    | none, h => exact h
    | some (.point p), h => exact h
    | some (.overlap o), h => exact h
  have hsm : 0 ≤ s ∧ 1024 * B ^ 4 ≤ 2 ^ f.prec := h.resolve_right (fun h => hne ⟨h.2, h.1⟩)
  obtain ⟨hs, hsm⟩ := hsm
  by_cases hab : exact a = exact b
  · have e : (Line2.mk a b).intersectionPoint ⟨c, d⟩ = intersectLinePoint ⟨c, d⟩ a := by
      unfold Line2.intersectionPoint
      simp only
      rw [grid_point_ulps G ha hb, decide_eq_true hab, if_pos rfl]
    obtain ⟨h1, h2⟩ := C78_exact_on_small_grids G hs hsm hc hd ha
    have eR : exactR b = exactR a := by rw [ec, ec, hab]
    rw [e, eR]
    by_cases hon : OnSegment2 (exactR c) (exactR d) (exactR a)
    · rw [h1 hon]
      refine ⟨exactR a, within_self ha, fun x => ⟨fun hx => Proofs.Intersect.onSeg_self hx.1, ?_⟩⟩
      rintro rfl
      exact ⟨Proofs.Intersect.onSeg_start _ _, hon⟩
    · rw [h2 hon]
      rintro x ⟨hx1, hx2⟩
      rw [Proofs.Intersect.onSeg_self hx1] at hx2
      exact hon hx2
  · have hcd : exact c = exact d := by
      by_contra hcd; exact hne ⟨hab, hcd⟩
    have e : (Line2.mk a b).intersectionPoint ⟨c, d⟩ = intersectLinePoint ⟨a, b⟩ c := by
      unfold Line2.intersectionPoint
      simp only
      rw [grid_point_ulps G ha hb, decide_eq_false hab, if_neg Bool.false_ne_true,
        grid_point_ulps G hc hd, decide_eq_true hcd, if_pos rfl]
    obtain ⟨h1, h2⟩ := C78_exact_on_small_grids G hs hsm ha hb hc
    have eR : exactR d = exactR c := by rw [ec, ec, hcd]
    rw [e, eR]
    by_cases hon : OnSegment2 (exactR a) (exactR b) (exactR c)
    · rw [h1 hon]
      refine ⟨exactR c, within_self hc, fun x => ⟨fun hx => Proofs.Intersect.onSeg_self hx.2, ?_⟩⟩
      rintro rfl
      exact ⟨hon, Proofs.Intersect.onSeg_start _ _⟩
    · rw [h2 hon]
      rintro x ⟨hx1, hx2⟩
      rw [Proofs.Intersect.onSeg_self hx2] at hx1
      exact hon hx1

theorem reports_isSome {δ : ℝ} {common : V2 ℝ → Prop} {r : Option (Intersection (Flt f))}
    (h : ReportsWithin δ common r) : r.isSome = true ↔ ∃ x, common x := by
  match r, h with
  | none, h => simpa [ReportsWithin] using h
  | some (.point p), h => obtain ⟨q, -, h⟩ := h; exact ⟨fun _ => ⟨q, (h q).2 rfl⟩, fun _ => rfl⟩
  | some (.overlap o), h =>
    obtain ⟨q0, q1, -, -, -, h⟩ := h
    exact ⟨fun _ => ⟨q0, (h q0).2 (Proofs.Intersect.onSeg_start _ _)⟩, fun _ => rfl⟩

/-- the common points of the edge `e` and the segment from `c` to `d` -/
def CommonWith (c d : V2 ℝ) (e : V2 (Flt f) × V2 (Flt f)) (x : V2 ℝ) : Prop :=
  OnSegment2 (exactR e.1) (exactR e.2) x ∧ OnSegment2 c d x

theorem edge_reports {s B : ℤ} (G : GoodGrid f s B) {line : List (V2 (Flt f))} (hl : ∀ p ∈ line, OnGrid s B p)
    {c d : V2 (Flt f)} (hc : OnGrid s B c) (hd : OnGrid s B d) (h : SmallOrProper s B line c d)
    {e : V2 (Flt f) × V2 (Flt f)} (he : e ∈ windows2 line) :
    ReportsWithin (gridError f s B) (CommonWith (exactR c) (exactR d) e) ((Line2.mk e.1 e.2).intersectionPoint ⟨c, d⟩) := by
  obtain ⟨i, hi⟩ := List.mem_iff_getElem?.1 he
  obtain ⟨h1, h2⟩ := (Intersect.windows2_get line i e.1 e.2).1 hi
  exact segment_reports G (hl _ (List.mem_of_getElem? h1)) (hl _ (List.mem_of_getElem? h2)) hc hd
    (h.imp id (fun h => ⟨h.1, h.2 i _ _ h1 h2⟩))

theorem onPolyline_windows (line : List (V2 (Flt f))) (x : V2 ℝ) :
    OnPolyline (line.map exactR) x ↔ ∃ e ∈ windows2 line, OnSegment2 (exactR e.1) (exactR e.2) x := by
  unfold OnPolyline
  simp only [List.getElem?_map, Option.map_eq_some_iff]
  constructor
  · rintro ⟨i, a, b, ⟨a', ha, rfl⟩, ⟨b', hb, rfl⟩, h⟩
    exact ⟨(a', b'), List.mem_of_getElem? ((Intersect.windows2_get line i a' b').2 ⟨ha, hb⟩), h⟩
  · rintro ⟨e, he, h⟩
    obtain ⟨i, hi⟩ := List.mem_iff_getElem?.1 he
    obtain ⟨h1, h2⟩ := (Intersect.windows2_get line i e.1 e.2).1 hi
    exact ⟨i, _, _, ⟨_, h1, rfl⟩, ⟨_, h2, rfl⟩, h⟩

/-- C82: `intersection` of a line string and a segment finds something exactly if they have a common point. -/
theorem C82_intersection_none_iff {s B : ℤ} (G : GoodGrid f s B) {line : List (V2 (Flt f))} (hl : ∀ p ∈ line, OnGrid s B p)
    {c d : V2 (Flt f)} (hc : OnGrid s B c) (hd : OnGrid s B d) (h : SmallOrProper s B line c d) :
    intersection2 line ⟨c, d⟩ = none ↔
      ∀ x : V2 ℝ, ¬ (OnPolyline (line.map exactR) x ∧ OnSegment2 (exactR c) (exactR d) x) := by
  rw [Intersect.C21_intersection_is_first, List.findSome?_eq_none_iff]
  unfold windowIter2
  constructor
  · rintro h0 x ⟨hx, ho⟩
    obtain ⟨e, he, hex⟩ := (onPolyline_windows line x).1 hx
    have h1 := edge_reports G hl hc hd h he
    rw [h0 ⟨e.1, e.2⟩ (List.mem_map.2 ⟨e, he, rfl⟩)] at h1
    exact h1 x ⟨hex, ho⟩
  · intro h0 l hlm
    obtain ⟨e, he, rfl⟩ := List.mem_map.1 hlm
    have h1 := reports_isSome (edge_reports G hl hc hd h he)
    rw [← Option.not_isSome_iff_eq_none, Bool.not_eq_true, ← Bool.not_eq_true]
    intro hs
    obtain ⟨x, hx⟩ := h1.1 hs
    exact h0 x ⟨(onPolyline_windows line x).2 ⟨e, he, hx.1⟩, hx.2⟩

/-- C82: what `intersection` returns is the intersection with the first edge that meets the segment, up to the
error bound. -/
theorem C82_intersection_is_first {s B : ℤ} (G : GoodGrid f s B) {line : List (V2 (Flt f))} (hl : ∀ p ∈ line, OnGrid s B p)
    {c d : V2 (Flt f)} (hc : OnGrid s B c) (hd : OnGrid s B d) (h : SmallOrProper s B line c d)
    {r : Intersection (Flt f)} (hr : intersection2 line ⟨c, d⟩ = some r) :
    ∃ i a b, getElem? line i = some a ∧ getElem? line (i + 1) = some b ∧
      ReportsWithin (gridError f s B)
        (fun x => OnSegment2 (exactR a) (exactR b) x ∧ OnSegment2 (exactR c) (exactR d) x) (some r) ∧
      ∀ j, j < i → ∀ a' b', getElem? line j = some a' → getElem? line (j + 1) = some b' →
        ∀ x, ¬ (OnSegment2 (exactR a') (exactR b') x ∧ OnSegment2 (exactR c) (exactR d) x) := by
  rw [Intersect.C21_intersection_is_first] at hr
  obtain ⟨l1, m, l2, hm, h1, h2⟩ := List.findSome?_eq_some_iff.1 hr
  unfold windowIter2 at hm
  obtain ⟨w1, w2', hw, e1, e2⟩ := List.map_eq_append_iff.1 hm
  obtain ⟨e, w2, rfl, e3, e4⟩ := List.map_eq_cons_iff.1 e2
  have hi : (windows2 line)[w1.length]? = some e := by rw [hw]; simp
  obtain ⟨g1, g2⟩ := (Intersect.windows2_get line w1.length e.1 e.2).1 hi
  refine ⟨w1.length, e.1, e.2, g1, g2, ?_, ?_⟩
  · have := edge_reports G hl hc hd h (List.mem_of_getElem? hi)
    rw [show (Line2.mk e.1 e.2).intersectionPoint ⟨c, d⟩ = some r by rw [← h1, ← e3]] at this
    exact this
  · intro j hj a' b' ha' hb' x hx
    have hj' := (Intersect.windows2_get line j a' b').2 ⟨ha', hb'⟩
    have hmem : (a', b') ∈ w1 := by
      rw [hw, List.getElem?_append_left hj] at hj'
      exact List.mem_of_getElem? hj'
    have h3 := h2 ⟨a', b'⟩ (by rw [← e1]; exact List.mem_map.2 ⟨(a', b'), hmem, rfl⟩)
    have h4 := edge_reports G hl hc hd h (List.mem_of_getElem? hj')
    rw [h3] at h4
    exact h4 x hx

open Classical in
/-- C82: `find_all_intersections` returns one entry for every edge that meets the segment, in the order of the edges,
and each entry is the intersection with its edge up to the error bound. -/
theorem C82_find_all {s B : ℤ} (G : GoodGrid f s B) {line : List (V2 (Flt f))} (hl : ∀ p ∈ line, OnGrid s B p)
    {c d : V2 (Flt f)} (hc : OnGrid s B c) (hd : OnGrid s B d) (h : SmallOrProper s B line c d) :
    List.Forall₂ (fun e r => ReportsWithin (gridError f s B) (CommonWith (exactR c) (exactR d) e) (some r))
      ((line.zip line.tail).filter (fun e => decide (∃ x, CommonWith (exactR c) (exactR d) e x)))
      (findAll2 line ⟨c, d⟩) := by
  have hz : ∀ l : List (V2 (Flt f)), l.zip l.tail = windows2 l := by
    intro l
    induction l with
    | nil => rfl
    | cons a l ih =>
      cases l with
      | nil => rfl
      | cons b l => simp only [List.tail_cons, List.zip_cons_cons, windows2]; rw [← ih]; rfl
  rw [hz, Intersect.C21_find_all_is_filter]
  unfold windowIter2
  have key : ∀ e ∈ windows2 line, ReportsWithin (gridError f s B) (CommonWith (exactR c) (exactR d) e)
      ((Line2.mk e.1 e.2).intersectionPoint ⟨c, d⟩) := fun e he => edge_reports G hl hc hd h he
  generalize windows2 line = ws at key
  induction ws with
  | nil => exact List.Forall₂.nil
  | cons e ws ih =>
    have h1 := key e (by simp)
    have ih := ih (fun e he => key e (by simp [he]))
    rw [List.map_cons]
    cases hr : (Line2.mk e.1 e.2).intersectionPoint ⟨c, d⟩ with
    | none =>
      rw [hr] at h1
      rw [List.filter_cons_of_neg (by simpa [ReportsWithin] using h1), List.filterMap_cons_none (by exact hr)]
      exact ih
    | some r =>
      rw [hr] at h1
      rw [List.filter_cons_of_pos (by simpa using (reports_isSome h1).1 rfl), List.filterMap_cons_some (by exact hr)]
      exact List.Forall₂.cons h1 ih

/-! ### `find_two_intersections` -/

/-- finite floats: equality is equality of the values -/
theorem beqV {p q : V2 (Flt f)} (hp : p.x.isFin = true ∧ p.y.isFin = true) (hq : q.x.isFin = true ∧ q.y.isFin = true) :
    p.beq q = true ↔ exact p = exact q := by
  show (Flt.beq p.x q.x && Flt.beq p.y q.y) = true ↔ _
  rw [is_beq (is_self hp.1) (is_self hq.1), is_beq (is_self hp.2) (is_self hq.2)]
  simp [exact]

theorem _root_.Verif.Spec.Within.fin {δ : ℝ} {p : V2 (Flt f)} {q : V2 ℝ} (h : Within δ p q) : p.x.isFin = true ∧ p.y.isFin = true := ⟨h.1, h.2.1⟩

theorem _root_.Verif.Spec.Within.congr {δ : ℝ} {p p' : V2 (Flt f)} {q : V2 ℝ} (h : Within δ p q) (hp : p'.x.isFin = true ∧ p'.y.isFin = true)
    (he : exact p' = exact p) : Within δ p' q := by
  have e : exactR p' = exactR p := by
    have ec : ∀ q : V2 (Flt f), exactR q = castV (exact q) := fun _ => rfl
    rw [ec, ec, he]
  exact ⟨hp.1, hp.2, by rw [e]; exact h.2.2.1, by rw [e]; exact h.2.2.2⟩

theorem _root_.Verif.Spec.Within.between {δ : ℝ} {p : V2 (Flt f)} {q0 q1 x : V2 ℝ} (h0 : Within δ p q0) (h1 : Within δ p q1) (hx : OnSegment2 q0 q1 x) :
    Within δ p x := by
  obtain ⟨t, t0, t1, rfl⟩ := hx
  have comb : ∀ {a u v : ℝ}, |a - u| ≤ δ → |a - v| ≤ δ → |a - (u + t * (v - u))| ≤ δ := by
    intro a u v hu hv
    rw [abs_le] at *
    constructor <;> nlinarith
  refine ⟨h0.1, h0.2.1, ?_, ?_⟩
  · have := comb h0.2.2.1 h1.2.2.1
    simpa [lerp2] using this
  · have := comb h0.2.2.2 h1.2.2.2
    simpa [lerp2] using this

/-- the list of points found so far -/
structure Found (δ : ℝ) (common : V2 ℝ → Prop) (acc : List (V2 (Flt f))) : Prop where
  len : acc.length ≤ 2
  near : ∀ p ∈ acc, ∃ x, common x ∧ Within δ p x
  diff : acc.Pairwise (fun p q => exact p ≠ exact q)

theorem contains_iff {δ : ℝ} {common : V2 ℝ → Prop} {acc : List (V2 (Flt f))} (h : Found δ common acc) {p : V2 (Flt f)}
    (hp : p.x.isFin = true ∧ p.y.isFin = true) : containsV2 acc p = true ↔ ∃ q ∈ acc, exact q = exact p := by
  unfold containsV2
  rw [List.any_eq_true]
  constructor
  · rintro ⟨q, hq, he⟩
    obtain ⟨x, -, hx⟩ := h.near q hq
    exact ⟨q, hq, (beqV hx.fin hp).1 he⟩
  · rintro ⟨q, hq, he⟩
    obtain ⟨x, -, hx⟩ := h.near q hq
    exact ⟨q, hq, (beqV hx.fin hp).2 he⟩

/-- adding a point that is not there yet -/
theorem found_push {δ : ℝ} {common : V2 ℝ → Prop} {acc : List (V2 (Flt f))} (h : Found δ common acc) (hl : acc.length < 2)
    {p : V2 (Flt f)} {x : V2 ℝ} (hx : common x) (hp : Within δ p x) :
    Found δ common (if containsV2 acc p then acc else acc ++ [p]) ∧
      (∀ q ∈ acc, q ∈ (if containsV2 acc p then acc else acc ++ [p])) ∧
      ∃ q ∈ (if containsV2 acc p then acc else acc ++ [p]), exact q = exact p := by
  by_cases hc : containsV2 acc p = true
  · rw [if_pos hc]
    exact ⟨h, fun q hq => hq, (contains_iff h hp.fin).1 hc⟩
  · rw [if_neg hc]
    refine ⟨⟨by simp; omega, ?_, ?_⟩, fun q hq => by simp [hq], p, by simp, rfl⟩
    · intro q hq
      rcases List.mem_append.1 hq with hq | hq
      · exact h.near q hq
      · rw [List.mem_singleton.1 hq]; exact ⟨x, hx, hp⟩
    · rw [List.pairwise_append]
      refine ⟨h.diff, by simp, ?_⟩
      intro a ha b hb he
      rw [List.mem_singleton.1 hb] at he
      exact hc ((contains_iff h hp.fin).2 ⟨a, ha, he⟩)

/-- one step of `find_two_intersections` -/
theorem findTwo_step {δ : ℝ} {common edge : V2 ℝ → Prop} {acc : List (V2 (Flt f))} (h : Found δ common acc) (hl : acc.length < 2)
    {r : Option (Intersection (Flt f))} (hr : ReportsWithin δ edge r) (hec : ∀ x, edge x → common x) :
    Found δ common (findTwoStep acc r) ∧ (∀ q ∈ acc, q ∈ findTwoStep acc r) ∧
      ((findTwoStep acc r).length < 2 → ∀ x, edge x → ∃ p ∈ findTwoStep acc r, Within δ p x) := by
  match r, hr with
  | none, hr => exact ⟨h, fun q hq => hq, fun _ x hx => absurd hx (hr x)⟩
  | some (.point p), hr =>
    obtain ⟨x, hx, hu⟩ := hr
    obtain ⟨h1, h2, q, hq, he⟩ := found_push h hl (hec x ((hu x).2 rfl)) hx
    refine ⟨h1, h2, fun _ y hy => ?_⟩
    rw [(hu y).1 hy]
    obtain ⟨z, -, hz⟩ := h1.near q hq
    exact ⟨q, hq, hx.congr hz.fin he⟩
  | some (.overlap o), hr =>
    obtain ⟨q0, q1, hne, w0, w1, hu⟩ := hr
    have e0 := (hu q0).2 (Proofs.Intersect.onSeg_start _ _)
    have e1 := (hu q1).2 (Proofs.Intersect.onSeg_end _ _)
    obtain ⟨h1, h2, s0, hs0, es0⟩ := found_push h hl (hec _ e0) w0
    have e : findTwoStep acc (some (.overlap o)) =
        (if (decide ((if containsV2 acc o.start then acc else acc ++ [o.start]).length < 2) &&
            !containsV2 (if containsV2 acc o.start then acc else acc ++ [o.start]) o.end) = true
          then (if containsV2 acc o.start then acc else acc ++ [o.start]) ++ [o.end]
          else (if containsV2 acc o.start then acc else acc ++ [o.start])) := rfl
    rw [e]
    generalize (if containsV2 acc o.start then acc else acc ++ [o.start]) = acc1 at *
    by_cases hlt : acc1.length < 2
    · have h3 := found_push h1 hlt (hec _ e1) w1
      have e' : (if (decide (acc1.length < 2) && !containsV2 acc1 o.end) = true then acc1 ++ [o.end] else acc1) =
          if containsV2 acc1 o.end = true then acc1 else acc1 ++ [o.end] := by
        rw [decide_eq_true hlt]
        cases containsV2 acc1 o.end <;> rfl
      rw [e']
      obtain ⟨h3, h4, s1, hs1, es1⟩ := h3
      refine ⟨h3, fun q hq => h4 q (h2 q hq), fun hl2 x hx => ?_⟩
      -- only one point, so both ends were reported as the same point
      have hs0' := h4 s0 hs0
      generalize (if containsV2 acc1 o.end = true then acc1 else acc1 ++ [o.end]) = acc2 at *
      have hlen : acc2.length = 1 := by have := List.length_pos_of_mem hs1; omega
      obtain ⟨z, hz⟩ := List.length_eq_one_iff.1 hlen
      rw [hz, List.mem_singleton] at hs1 hs0'
      subst hs0'
      subst hs1
      obtain ⟨y, -, hy⟩ := h3.near s1 (by rw [hz]; simp)
      exact ⟨s1, by rw [hz]; simp, (w0.congr hy.fin es0).between (w1.congr hy.fin es1) ((hu x).1 hx)⟩
    · have e' : (if (decide (acc1.length < 2) && !containsV2 acc1 o.end) = true then acc1 ++ [o.end] else acc1) = acc1 := by
        rw [decide_eq_false hlt]; rfl
      rw [e']
      exact ⟨h1, h2, fun hl2 => absurd hl2 hlt⟩

theorem findTwo_loop {s B : ℤ} (G : GoodGrid f s B) {c d : V2 (Flt f)} {δ : ℝ} {common : V2 ℝ → Prop}
    (ws : List (V2 (Flt f) × V2 (Flt f)))
    (hw : ∀ e ∈ ws, ReportsWithin δ (CommonWith (exactR c) (exactR d) e) ((Line2.mk e.1 e.2).intersectionPoint ⟨c, d⟩) ∧
      ∀ x, CommonWith (exactR c) (exactR d) e x → common x)
    (acc : List (V2 (Flt f))) (h : Found δ common acc) (hl : acc.length < 2) :
    let r := findTwo2.go ⟨c, d⟩ acc (ws.map (fun (a, b) => ⟨a, b⟩))
    Found δ common r ∧ (∀ q ∈ acc, q ∈ r) ∧
      (r.length < 2 → ∀ e ∈ ws, ∀ x, CommonWith (exactR c) (exactR d) e x → ∃ p ∈ r, Within δ p x) := by
  induction ws generalizing acc with
  | nil => exact ⟨h, fun q hq => hq, fun _ e he => by simp at he⟩
  | cons e ws ih =>
    intro r
    obtain ⟨h1, h2, h3⟩ := findTwo_step h hl (hw e (by simp)).1 (hw e (by simp)).2
    have er : r = if (findTwoStep acc ((Line2.mk e.1 e.2).intersectionPoint ⟨c, d⟩)).length = 2 then
        findTwoStep acc ((Line2.mk e.1 e.2).intersectionPoint ⟨c, d⟩)
      else findTwo2.go ⟨c, d⟩ (findTwoStep acc ((Line2.mk e.1 e.2).intersectionPoint ⟨c, d⟩)) (ws.map (fun (a, b) => ⟨a, b⟩)) := rfl
    generalize findTwoStep acc ((Line2.mk e.1 e.2).intersectionPoint ⟨c, d⟩) = acc' at *
    by_cases hlen : acc'.length = 2
    · rw [if_pos hlen] at er
      rw [er]
      exact ⟨h1, h2, fun hlt => by omega⟩
    · rw [if_neg hlen] at er
      have hl' : acc'.length < 2 := by have := h1.len; omega
      obtain ⟨g1, g2, g3⟩ := ih (fun e he => hw e (by simp [he])) acc' h1 hl'
      rw [er]
      refine ⟨g1, fun q hq => g2 q (h2 q hq), fun hlt e' he' x hx => ?_⟩
      rcases List.mem_cons.1 he' with rfl | he'
      · obtain ⟨p, hp, hpx⟩ := h3 hl' x hx
        exact ⟨p, g2 p hp, hpx⟩
      · exact g3 hlt e' he' x hx

/-- C82: `find_two_intersections`.  Nothing is reported exactly if there is no common point.  Every reported point is
within the error bound of a common point.  If only one point is reported, every common point is within the error bound
of it; if two are reported, they are different floats. -/
theorem C82_find_two {s B : ℤ} (G : GoodGrid f s B) {line : List (V2 (Flt f))} (hl : ∀ p ∈ line, OnGrid s B p)
    {c d : V2 (Flt f)} (hc : OnGrid s B c) (hd : OnGrid s B d) (h : SmallOrProper s B line c d) :
    let common := fun x : V2 ℝ => OnPolyline (line.map exactR) x ∧ OnSegment2 (exactR c) (exactR d) x
    match findTwo2 line ⟨c, d⟩ with
    | (none, none) => ∀ x, ¬ common x
    | (some p, none) => (∃ x, common x) ∧ ∀ x, common x → Within (gridError f s B) p x
    | (some p, some q) => (∃ x, common x ∧ Within (gridError f s B) p x) ∧ (∃ x, common x ∧ Within (gridError f s B) q x) ∧
        exact p ≠ exact q
    | (none, some _) => False := by
  intro common
  obtain ⟨h1, -, h3⟩ := findTwo_loop G (c := c) (d := d) (δ := gridError f s B) (common := common) (windows2 line)
    (fun e he => ⟨edge_reports G hl hc hd h he, fun x hx => ⟨(onPolyline_windows line x).2 ⟨e, he, hx.1⟩, hx.2⟩⟩)
    [] ⟨by simp, by simp, by simp⟩ (by simp)
  have hcov : (findTwo2.go ⟨c, d⟩ [] ((windows2 line).map (fun (a, b) => ⟨a, b⟩))).length < 2 → ∀ x, common x →
      ∃ p ∈ findTwo2.go ⟨c, d⟩ [] ((windows2 line).map (fun (a, b) => ⟨a, b⟩)), Within (gridError f s B) p x := by
    rintro hlt x ⟨hx, ho⟩
    obtain ⟨e, he, hex⟩ := (onPolyline_windows line x).1 hx
    exact h3 hlt e he x ⟨hex, ho⟩
  unfold findTwo2 windowIter2
  generalize findTwo2.go ⟨c, d⟩ [] ((windows2 line).map (fun (a, b) => ⟨a, b⟩)) = r at *
  have hlen := h1.len
  match r, h1, hcov with
  | [], h1, hcov =>
    intro x hx
    obtain ⟨p, hp, -⟩ := hcov (by simp) x hx
    simp at hp
  | [p], h1, hcov =>
    obtain ⟨x, hx, -⟩ := h1.near p (by simp)
    refine ⟨⟨x, hx⟩, fun x hx => ?_⟩
    obtain ⟨q, hq, hqx⟩ := hcov (by simp) x hx
    rw [List.mem_singleton] at hq
    subst hq; exact hqx
  | [p, q], h1, hcov =>
    refine ⟨h1.near p (by simp), h1.near q (by simp), ?_⟩
    have := h1.diff
    simpa using this
  | p :: q :: t :: rest, h1, hcov => simp at hlen

end

/-- C82, what does *not* hold: two different points can be reported for a single common point.  Here the last edge ends
on the first one, at (1, 2), where the segment starts. -/
theorem C82_two_reports_for_one_point : let _ : Libm b64 := ⟨fun _ _ => .nan⟩
    findTwo2 [ipt b64 0 0, ipt b64 49 98, ipt b64 49 0, ipt b64 1 2] ⟨ipt b64 1 2, ipt b64 0 5⟩ =
      (some ⟨Flt.ofQ false (9007199254740991/9007199254740992), Flt.ofQ false (9007199254740991/4503599627370496)⟩,
        some (ipt b64 1 2)) := by decide +kernel

/-- the same line string and segment with exact numbers: one point -/
theorem C82_one_exact_point :
    findTwo2 [(⟨0, 0⟩ : V2 ℚ), ⟨49, 98⟩, ⟨49, 0⟩, ⟨1, 2⟩] ⟨⟨1, 2⟩, ⟨0, 5⟩⟩ = (some ⟨1, 2⟩, none) := by decide +kernel

/-- the hypotheses of C82 are met by a line string with a repeated point, on the small grid of `f64` -/
example : SmallOrProper 0 1448 [ipt b64 0 0, ipt b64 49 98, ipt b64 49 98, ipt b64 1 2] (ipt b64 1 2) (ipt b64 0 5) ∧
    (∀ p ∈ [ipt b64 0 0, ipt b64 49 98, ipt b64 49 98, ipt b64 1 2], OnGrid 0 1448 p) ∧
    OnGrid 0 1448 (ipt b64 1 2) ∧ OnGrid 0 1448 (ipt b64 0 5) := by
  refine ⟨Or.inl ⟨le_rfl, smallGrid64.2⟩, ?_, (onGrid_ipt smallGrid64.1 (by decide) (by decide)).1,
    (onGrid_ipt smallGrid64.1 (by decide) (by decide)).1⟩
  intro p hp
  simp only [List.mem_cons, List.not_mem_nil, or_false] at hp
  rcases hp with rfl | rfl | rfl | rfl <;> exact (onGrid_ipt smallGrid64.1 (by decide) (by decide)).1

/-- ... and by one without, on the large grid -/
example : SmallOrProper 0 (2 ^ 23) [ipt b64 0 0, ipt b64 8000000 98, ipt b64 49 0] (ipt b64 1 2) (ipt b64 0 5) := by
  have h : ∀ e ∈ windows2 [ipt b64 0 0, ipt b64 8000000 98, ipt b64 49 0], exact e.1 ≠ exact e.2 := by decide +kernel
  have h2 : exact (ipt b64 1 2) ≠ exact (ipt b64 0 5) := by decide +kernel
  exact Or.inr ⟨h2, fun i a b ha hb => h (a, b) (List.mem_of_getElem? ((Intersect.windows2_get _ i a b).2 ⟨ha, hb⟩))⟩

end Verif.Props
