import Verif.Props.FloatSweep
import Verif.Props.FloatTiny
import Verif.Proofs.SweepShared
import Mathlib.Data.Prod.Lex
/-!
# C91: shared end points in the sweep line on floats
-/
namespace Verif.Props
open Verif Verif.Model Verif.Spec Scalar Verif.Proofs.FloatHull Verif.Proofs.FloatIntersect Verif.Proofs.FloatLinePoint Fl Flt
open Verif.SweepRaw
set_option linter.unusedSectionVars false
set_option linter.unusedVariables false
section
variable {f : Fmt} [Libm f]

/-- the place of a point: its exact coordinates, the second one first -/
def place (p : V2 (Flt f)) : ℚ ×ₗ ℚ := toLex (p.y.val, p.x.val)

theorem place_eq {p q : V2 (Flt f)} : place p = place q ↔ exact p = exact q := by
  unfold place exact
  rw [toLex_inj, Prod.mk.injEq, V2.mk.injEq]
  exact and_comm

/-- on a grid the comparison of keys is exact -/
theorem grid_sharp {s B : ℤ} (G : GoodGrid f s B) : Sharp (OnGrid s B) (place (f := f)) := by
  intro a b ha hb
  obtain ⟨a1, a2, i1, i2, i3, i4⟩ := OnGrid.coords ha
  obtain ⟨b1, b2, j1, j2, j3, j4⟩ := OnGrid.coords hb
  have hu := pow2_pos s
  have hBP : B < 2 ^ (f.prec - 3) := by
    have := G.small
    have h0 : 0 ≤ B := (abs_nonneg _).trans i3
    nlinarith
  have ul : ∀ {x y : Flt f} {k l : ℤ}, Is x (k * pow2 s) → Is y (l * pow2 s) → |k| ≤ B → |l| ≤ B →
      Scalar.ulpsEq x y = decide (x.val = y.val) := by
    intro x y k l hx hy hk hl
    have h := grid_ulps (GoodGrid.unit G) (by have := G.coarse; have := f.hprec; omega) hx hy (by omega) (by omega)
    rw [show Scalar.ulpsEq x y = decide (k = l) from h, hx.2, hy.2]
    congr 1
    rw [mul_left_inj' hu.ne', Int.cast_inj]
  unfold siteCmp
  rw [ul i2 j2 i4 j4, ul i1 j1 i3 j3, pcmp_val ha.1 hb.1, pcmp_val ha.2.1 hb.2.1]
  unfold place
  by_cases hy : a.y.val = b.y.val
  · rw [if_pos (decide_eq_true hy)]
    rcases lt_trichotomy a.x.val b.x.val with h | h | h
    · rw [if_neg (by simp [h.ne]), compare_lt_iff_lt.2 h, compare_lt_iff_lt.2 (Prod.Lex.toLex_lt_toLex.2 (Or.inr ⟨hy, h⟩))]
    · rw [if_pos (by simp [h]), compare_eq_iff_eq.2 (by rw [hy, h])]
    · rw [if_neg (by simp [h.ne']), compare_gt_iff_gt.2 h, compare_gt_iff_gt.2 (Prod.Lex.toLex_lt_toLex.2 (Or.inr ⟨hy.symm, h⟩))]
  · rw [if_neg (by simp [hy])]
    rcases lt_or_gt_of_ne hy with h | h
    · rw [compare_lt_iff_lt.2 h, compare_lt_iff_lt.2 (Prod.Lex.toLex_lt_toLex.2 (Or.inl h))]
    · rw [compare_gt_iff_gt.2 h, compare_gt_iff_gt.2 (Prod.Lex.toLex_lt_toLex.2 (Or.inl h))]

/-- a key that counts as the same is near -/
theorem same_key_near {s B : ℤ} (G : GoodGrid f s B) (hB : 1 ≤ B) {p k y : V2 (Flt f)} (hk : OnGrid s B k) (hkp : exact k = exact p)
    (hy : FiniteV2 y) (h : siteCmp k y = some .eq) : Within (mergeError f s B) y (exactR p) := by
  have e : exactR k = exactR p := by
    have ec : ∀ q : V2 (Flt f), exactR q = castV (exact q) := fun _ => rfl
    rw [ec, ec, hkp]
  have h0 : Within 0 k (exactR p) := by
    rw [← e]
    exact ⟨hk.1, hk.2.1, by simp [exactR], by simp [exactR]⟩
  have := merge_near G hB (q := exactR p) (δ := 0) (by rw [← e]; exact grid_bound hk)
    (by obtain ⟨h1, h2⟩ := merge_nonneg (f := f) (s := s) hB; linarith) h0 hy h
  rwa [zero_add] at this

/-- C91: on a grid, if the search trees can be relied on, the sweep line with end points (and without stopping early)
reports every common end point of two lines: there is an entry with both lines, at a position that is at most
`mergeError` away from the end point. -/
theorem C91_shared_end_points_on_a_grid [TreeShape (Flt f)] {s B : ℤ} (G : GoodGrid f s B) (hB : 1 ≤ B) (input : List (Line2 (Flt f)))
    (hL : ∀ l ∈ input, OnGrid s B l.start ∧ OnGrid s B l.end) (hdep : Dependable input)
    {order : Nat → List Nat → List Nat} (hord : ∀ n l, (order n l).Perm l) (fuel : Nat) (hfuel : enough input.length < fuel) :
    ∃ r, sweepIntersections order fuel false false input = .ok r ∧
      ∀ (i j : Nat) (l m : Line2 (Flt f)) (p q : V2 (Flt f)), i ≠ j → input[i]? = some l → input[j]? = some m →
        (p = l.start ∨ p = l.end) → (q = m.start ∨ q = m.end) → exact p = exact q →
        ∃ x ∈ r, Within (mergeError f s B) x.1 (exactR p) ∧ i ∈ x.2 ∧ j ∈ x.2 := by
  have hfin : ∀ l ∈ input, FiniteV2 l.start ∧ FiniteV2 l.end := fun l hl =>
    ⟨⟨(hL l hl).1.1, (hL l hl).1.2.1⟩, ⟨(hL l hl).2.1, (hL l hl).2.2.1⟩⟩
  obtain ⟨R, hR, hK⟩ := hdep.rely
  have laws := flt_laws (R := R) (stored_mem hfin) (fun _ p hp => hK p hp.stored)
  rcases plain_raw input laws hord false false fuel (fun _ => hfuel) with ⟨h0, -⟩ | ⟨-, h2⟩ | ⟨r, h1, h2⟩
  · exact absurd hR h0
  · exact absurd h2 (no_overflow G (stored_mem hL))
  refine ⟨r, h1, ?_⟩
  intro i j l m p q hij hi hj hp hq hpq
  obtain ⟨k, k1, k2, y, a1, a2, a3⟩ := plain_shared hR (grid_sharp G) input laws hL hord h1 hij hi hj hp hq (place_eq.2 hpq)
  exact ⟨y, a1, same_key_near G hB k1 (place_eq.1 k2) (h2 y a1).1 a2, a3⟩

/-- C91: the same for the indexed version; the common end point may have two numbers in the vertex table. -/
theorem C91_indexed_shared_end_points_on_a_grid [TreeShape (Flt f)] {s B : ℤ} (G : GoodGrid f s B) (hB : 1 ≤ B) (vs : List (V2 (Flt f)))
    (edges : List (Nat × Nat)) (hin : ∀ e ∈ edges, e.1 < vs.length ∧ e.2 < vs.length)
    (hL : ∀ l ∈ edgeLines vs edges, OnGrid s B l.start ∧ OnGrid s B l.end) (hdep : Dependable (edgeLines vs edges))
    {order : Nat → List Nat → List Nat} (hord : ∀ n l, (order n l).Perm l) (fuel : Nat) (hfuel : enough edges.length < fuel) :
    ∃ tab r, indexedSweepIntersections order fuel false false vs edges = .ok (tab, r) ∧
      ∀ (i j : Nat) (e e' : Nat × Nat) (p q : V2 (Flt f)), i ≠ j → edges[i]? = some e → edges[j]? = some e' →
        (vs[e.1]? = some p ∨ vs[e.2]? = some p) → (vs[e'.1]? = some q ∨ vs[e'.2]? = some q) → exact p = exact q →
        ∃ x ∈ r, ∃ t, tab[x.1]? = some t ∧ Within (mergeError f s B) t (exactR p) ∧ i ∈ x.2 ∧ j ∈ x.2 := by
  have z : V2 (Flt f) := ⟨Scalar.zero, Scalar.zero⟩
  rw [edgeLines_eq vs z edges hin] at hL hdep
  have hfin : ∀ l ∈ edges.map (lineOf vs z), FiniteV2 l.start ∧ FiniteV2 l.end := fun l hl =>
    ⟨⟨(hL l hl).1.1, (hL l hl).1.2.1⟩, ⟨(hL l hl).2.1, (hL l hl).2.2.1⟩⟩
  have hS : ∀ e ∈ edges, ∀ p, vs[e.1]? = some p ∨ vs[e.2]? = some p → OnGrid s B p := by
    intro e he p hp
    have := hL _ (List.mem_map.2 ⟨e, he, rfl⟩)
    unfold lineOf at this
    simp only [List.getD_eq_getElem?_getD] at this
    rcases hp with hp | hp <;> rw [hp] at this
    · exact this.1
    · exact this.2
  obtain ⟨R, hR, hK⟩ := hdep.rely
  have laws := flt_laws (R := R) hfin (fun _ => hK)
  rcases indexed_raw vs z edges hin laws hord false false fuel (fun _ => hfuel) with ⟨h0, -⟩ | ⟨-, h2⟩ | ⟨tab, r, h1, h0, h2⟩
  · exact absurd hR h0
  · exact absurd h2 (no_overflow G hL)
  refine ⟨tab, r, h1, ?_⟩
  intro i j e e' p q hij hi hj hp hq hpq
  obtain ⟨k, k1, k2, y, a1, t, a2, a3, a4, a5⟩ :=
    indexed_shared hR (grid_sharp G) vs z edges hin laws hS hord h1 hfuel hij hi hj hp hq (place_eq.2 hpq)
  exact ⟨y, a1, t, a2, same_key_near G hB k1 (place_eq.1 k2) a3 a4, a5⟩

/-- C91: every inner vertex of a line string on a grid is reported when its edges are swept with end points: both
edges are reported near it, in one entry. -/
theorem C91_inner_vertices_are_reported [TreeShape (Flt f)] {s B : ℤ} (G : GoodGrid f s B) (hB : 1 ≤ B) (pts : List (V2 (Flt f)))
    (hL : ∀ p ∈ pts, OnGrid s B p) (hdep : Dependable (windowIter2 pts))
    {order : Nat → List Nat → List Nat} (hord : ∀ n l, (order n l).Perm l) (fuel : Nat)
    (hfuel : enough (pts.length - 1) < fuel) :
    ∃ r, sweepIntersections order fuel false false (windowIter2 pts) = .ok r ∧
      ∀ (i : Nat) (p : V2 (Flt f)), i + 2 < pts.length → getElem? pts (i + 1) = some p →
        ∃ x ∈ r, Within (mergeError f s B) x.1 (exactR p) ∧ i ∈ x.2 ∧ i + 1 ∈ x.2 := by
  have hm := window_ends pts
  obtain ⟨r, h1, h2⟩ := C91_shared_end_points_on_a_grid G hB (windowIter2 pts) (fun l hl => ⟨hL _ (hm l hl).1, hL _ (hm l hl).2⟩)
    hdep hord fuel (by rw [window_count]; exact hfuel)
  refine ⟨r, h1, ?_⟩
  intro i p hi hp
  obtain ⟨a, ha⟩ : ∃ a, getElem? pts i = some a := ⟨_, List.getElem?_eq_getElem (by omega)⟩
  obtain ⟨b, hb⟩ : ∃ b, getElem? pts (i + 2) = some b := ⟨_, List.getElem?_eq_getElem (by omega)⟩
  have w : ∀ k x y, getElem? pts k = some x → getElem? pts (k + 1) = some y → (windowIter2 pts)[k]? = some ⟨x, y⟩ := by
    intro k x y hx hy
    rw [windowIter2, List.getElem?_map, (Intersect.windows2_get pts k x y).2 ⟨hx, hy⟩]
    rfl
  exact h2 i (i + 1) ⟨a, p⟩ ⟨p, b⟩ p p (by omega) (w i a p ha hp) (w (i + 1) p b hp hb) (Or.inr rfl) (Or.inl rfl) rfl

end

/-- the hypotheses are met, and the common end point of two segments of doubles is reported -/
example : (let _ : Libm b64 := noAtan b64
    let _ : TreeShape F64 := TreeShape.oneNode F64
    sweepIntersections (fun _ l => l) 1000000 false false
      [Line2.mk (ipt b64 0 0) (ipt b64 4 4), ⟨ipt b64 4 4, ipt b64 7 (-1)⟩] = .ok [(ipt b64 4 4, [0, 1])]) ∧
    (∀ p ∈ [ipt b64 0 0, ipt b64 4 4, ipt b64 7 (-1)], OnGrid 0 (2 ^ 23) p) ∧ enough 2 < 1000000 := by
  refine ⟨by decide +kernel, ?_, by decide⟩
  have g : ∀ k l : ℤ, |k| ≤ 7 → |l| ≤ 7 → OnGrid 0 (2 ^ 23) (ipt b64 k l) := fun k l hk hl =>
    (onGrid_ipt goodGrid64 (hk.trans (by norm_num)) (hl.trans (by norm_num))).1
  intro p hp
  simp only [List.mem_cons, List.not_mem_nil, or_false] at hp
  rcases hp with rfl | rfl | rfl <;> exact g _ _ (by norm_num) (by norm_num)

/-- the point `(x, y · 2^-54)` -/
def nearZero (x y : ℤ) : V2 F64 := ⟨Flt.ofQ false x, Flt.ofQ false (y * pow2 (-54))⟩

/-- four segments of doubles; the first and the last one have the same end point -/
def lostShared : List (Line2 F64) :=
  [⟨nearZero 0 6, ipt b64 (-4) 10⟩, ⟨nearZero 1 0, ipt b64 5 10⟩, ⟨nearZero 0 3, ipt b64 2 10⟩, ⟨nearZero 0 6, ipt b64 (-2) 10⟩]

/-- C91: off the grid a common end point may get lost: two of these four segments start in the same point (bit for bit),
and only one of them is reported, together with a third one.  (The trees have seven keys, one node; the numbers of the
lines are visited in their order.  No arctangent is computed; a dummy stands for it.) -/
theorem C91_a_common_end_point_may_be_lost :
    lostShared[0]?.map Line2.start = lostShared[3]?.map Line2.start ∧
    (∀ l ∈ lostShared, l.start.x.isFin = true ∧ l.start.y.isFin = true ∧ l.end.x.isFin = true ∧ l.end.y.isFin = true) ∧
    (let _ : Libm b64 := noAtan b64
     let _ : TreeShape F64 := TreeShape.oneNode F64
     sweepIntersections (fun _ l => l) 1000 false false lostShared = .ok [(nearZero 0 3, [2, 3])]) :=
  ⟨by decide +kernel, by decide +kernel, by decide +kernel⟩

/-- the shape of a tree of std with twelve keys, the last of which has been inserted at the end: the first six keys and the
last five ones are in a leaf each, the root has the key between them; trees with fewer keys have one node -/
@[reducible] def twelveKeys : TreeShape F64 :=
  ⟨fun _ _ keys _ lo hi => if keys.length = 12 ∧ lo = 0 ∧ hi = 12 then 6 else 0⟩

/-- six segments of doubles with twelve end points; no two of them meet -/
def internalLines : List (Line2 F64) :=
  [⟨nearZero (-8) 6, ipt b64 (-8) 1⟩, ⟨nearZero (-5) 3, ipt b64 (-5) 2⟩, ⟨nearZero 0 0, ipt b64 0 3⟩, ⟨nearZero 1 0, ipt b64 1 4⟩,
    ⟨nearZero (-7) 6, nearZero (-6) 6⟩, ⟨nearZero 2 0, ipt b64 2 5⟩]

/-- C79: the sweep line may fail with `InternalError` on finite doubles: the first key of the queue is not found when it
is to be removed, because the comparison of keys is not transitive (`(-8, 6)` is after `(0, 0)` and before `(-5, 3)`, which
is before `(0, 0)`; the second coordinates are multiples of `2^-54`) and the search begins with the key in the root.  With a
tree of one node (as with `pop_first`) it finds that the segments do not meet. -/
theorem C79_an_internal_error_is_possible :
    (∀ l ∈ internalLines, l.start.x.isFin = true ∧ l.start.y.isFin = true ∧ l.end.x.isFin = true ∧ l.end.y.isFin = true) ∧
    (let _ : Libm b64 := noAtan b64
     siteCmp (nearZero 0 0) (nearZero (-8) 6) = some .lt ∧ siteCmp (nearZero (-8) 6) (nearZero (-5) 3) = some .lt ∧
     siteCmp (nearZero 0 0) (nearZero (-5) 3) = some .gt) ∧
    (let _ : Libm b64 := noAtan b64
     let _ : TreeShape F64 := twelveKeys
     sweepIntersections (fun _ l => l) 1000 false false internalLines = .error .internal) ∧
    (let _ : Libm b64 := noAtan b64
     let _ : TreeShape F64 := TreeShape.oneNode F64
     sweepIntersections (fun _ l => l) 1000 false false internalLines = .ok []) :=
  ⟨by decide +kernel, by decide +kernel, by decide +kernel, by decide +kernel⟩

end Verif.Props
