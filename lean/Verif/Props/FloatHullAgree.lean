import Verif.Props.HullContain
import Verif.Props.FloatHullPar
import Verif.Props.FloatBoxHull
import Verif.Props.HullMore
/-!
# C111: the convex hull functions agree in floating point
-/
namespace Verif.Props.HullAgree
open Verif Verif.Model Verif.Spec Verif.Hull Verif.Props Scalar Verif.Proofs.Transfer Verif.Proofs.FloatHull
set_option linter.unusedSectionVars false
section
variable {f : Fmt} [Libm f]

/-- a sort as `graham_scan` wants it: it permutes its argument, and sorts it if there is no NaN -/
def GoodSort {ι : Type} (srt : List (ι × Flt f × Flt f) → List (ι × Flt f × Flt f)) : Prop :=
  (∀ l, (srt l).Perm l) ∧ ∀ l, (∀ e ∈ l, e.2.1 ≠ .nan ∧ e.2.2 ≠ .nan) → (srt l).Pairwise (fun a b => angleCmp a b ≠ .gt)

/-- an input that `graham_scan` accepts: enough points on the grid, not all equal -/
structure GoodInput (s B : ℤ) (input : List (V2 (Flt f))) : Prop where
  grid : ∀ p ∈ input, OnGrid s B p
  four : 4 ≤ input.length
  five : (input.map exact).head? = (input.map exact).getLast? → 5 ≤ input.length
  two : ∃ a ∈ input, ∃ b ∈ input, exact a ≠ exact b

theorem scan {s B : ℤ} (G : GoodGrid f s B) (hA : AtanOk f s B) {srt : List (V2 (Flt f) × Flt f × Flt f) → List (V2 (Flt f) × Flt f × Flt f)}
    (hs : GoodSort srt) {input : List (V2 (Flt f))} (hi : GoodInput s B input) :
    ∃ hull, grahamScan srt input = .ok hull ∧ lineConvexHull srt input = .ok hull ∧ (∀ v ∈ hull, v ∈ input) ∧
      IsHullLoop (input.map exact) (hull.map exact) ∧ StartsLowest (input.map exact) (hull.map exact) := by
  obtain ⟨hull, e1, e2, H, S⟩ := C74_graham_scan_on_floats G hA srt (fun l h => ⟨hs.1 l, hs.2 l h⟩) input hi.grid hi.four hi.five hi.two
  rcases C36_any_arithmetic srt hs.1 input with e | ⟨hull', e, hm⟩
  · rw [e1] at e; cases e
  · rw [e1] at e
    cases e
    exact ⟨hull, e1, e2, hm, H, S⟩

/-- **C111** on a good grid of floats `graham_scan` and `LineString2::convex_hull` return the same corners if points are added that are
convex combinations of the points, if points are reordered, repeated, or have another sign of zero. -/
theorem C111_inner_points_do_not_matter {s B : ℤ} (G : GoodGrid f s B) (hA : AtanOk f s B)
    (srt srt' : List (V2 (Flt f) × Flt f × Flt f) → List (V2 (Flt f) × Flt f × Flt f)) (hs : GoodSort srt) (hs' : GoodSort srt')
    (input more : List (V2 (Flt f))) (hi : GoodInput s B input) (hm : GoodInput s B more)
    (hsub : ∀ p ∈ input, exact p ∈ more.map exact) (hin : ∀ p ∈ more, InTriangleOf (input.map exact) (exact p)) :
    ∃ hull hull', grahamScan srt input = .ok hull ∧ grahamScan srt' more = .ok hull' ∧ lineConvexHull srt input = .ok hull ∧
      lineConvexHull srt' more = .ok hull' ∧ hull.map exact = hull'.map exact := by
  obtain ⟨h, e, e2, -, H, S⟩ := scan G hA hs hi
  obtain ⟨h', e', e2', -, H', S'⟩ := scan G hA hs' hm
  have hsub' : ∀ p ∈ input.map exact, p ∈ more.map exact := by
    intro p hp
    obtain ⟨q, hq, rfl⟩ := List.mem_map.1 hp
    exact hsub q hq
  have hin' : ∀ p ∈ more.map exact, InTriangleOf (input.map exact) p := by
    intro p hp
    obtain ⟨q, hq, rfl⟩ := List.mem_map.1 hp
    exact hin q hq
  exact ⟨h, h', e, e', e2, e2', C62_hull_is_unique (fun _ => Iff.rfl) (hullLoop_more H hsub' hin') (startsLowest_more S hin') H' S'⟩

/-- **C111** in particular only the set of the points matters: not their order, their repetitions, the direction of the line string, its
first point, the sort, the sign of zeros. -/
theorem C111_only_the_set_matters {s B : ℤ} (G : GoodGrid f s B) (hA : AtanOk f s B)
    (srt srt' : List (V2 (Flt f) × Flt f × Flt f) → List (V2 (Flt f) × Flt f × Flt f)) (hs : GoodSort srt) (hs' : GoodSort srt')
    (input input' : List (V2 (Flt f))) (hi : GoodInput s B input) (hi' : GoodInput s B input')
    (he : ∀ p, p ∈ input.map exact ↔ p ∈ input'.map exact) :
    ∃ hull hull', grahamScan srt input = .ok hull ∧ grahamScan srt' input' = .ok hull' ∧ lineConvexHull srt input = .ok hull ∧
      lineConvexHull srt' input' = .ok hull' ∧ hull.map exact = hull'.map exact :=
  C111_inner_points_do_not_matter G hA srt srt' hs hs' input input' hi hi' (fun _ hp => (he _).1 (List.mem_map_of_mem hp))
    (fun _ hp => inTriangle_mem ((he _).2 (List.mem_map_of_mem hp)))

/-- **C111** `graham_scan_wo_atan2` and, without repeated points, `gift_wrap` return the same corners as `graham_scan`. -/
theorem C111_functions_agree {s B : ℤ} (G : GoodGrid f s B) (hA : AtanOk f s B)
    (srt : List (V2 (Flt f) × Flt f × Flt f) → List (V2 (Flt f) × Flt f × Flt f)) (hs : GoodSort srt)
    (srt2 : V2 (Flt f) → List (V2 (Flt f)) → Option (List (V2 (Flt f))))
    (hsrt2 : ∀ o l, OnGrid s B o → (∀ a ∈ l, OnGrid s B a ∧ LeftOrBelow (exact o) (exact a)) →
      ∃ r, srt2 o l = some r ∧ r.Perm l ∧ r.Pairwise (fun a b => orientCmp o a b ≠ some .gt))
    (input : List (V2 (Flt f))) (hi : GoodInput s B input) (fuel : Nat) (hf : (input.length + 1) * (input.length + 1) < fuel) :
    ∃ hull hull', grahamScan srt input = .ok hull ∧ grahamScanWoAtan2 srt2 input = .ok hull' ∧ hull.map exact = hull'.map exact ∧
      ((input.map exact).tail.Nodup → ((input.map exact).head? ≠ (input.map exact).getLast? → (input.map exact).Nodup) →
        ∃ hull'', giftWrap fuel input = .ok hull'' ∧ hull''.map exact = hull.map exact) := by
  obtain ⟨h, e, -, -, H, S⟩ := scan G hA hs hi
  obtain ⟨h', e', H', S'⟩ := C73_graham_scan_wo_atan2_on_floats G srt2 hsrt2 input hi.grid hi.four hi.five hi.two
  refine ⟨h, h', e, e', C62_hull_is_unique (fun _ => Iff.rfl) H S H' S', fun nd nd2 => ?_⟩
  obtain ⟨h'', e'', -, H'', S''⟩ := C72_gift_wrap_on_floats G input hi.grid hi.four hi.five nd nd2 fuel hf
  exact ⟨h'', e'', C62_hull_is_unique (fun _ => Iff.rfl) H'' S'' H S⟩

/-- **C111** `indexed_graham_scan` and `indexed_gift_wrap` return the same indices. -/
theorem C111_indexed_functions_agree {s B : ℤ} (G : GoodGrid f s B) (hA : AtanOk f s B)
    (srt : List (Nat × Flt f × Flt f) → List (Nat × Flt f × Flt f)) (hs : GoodSort srt)
    (vertices : List (V2 (Flt f))) (hin : ∀ p ∈ vertices, OnGrid s B p) (indices : List Nat)
    (pt : Nat → V2 (Flt f)) (hpt : ∀ i ∈ indices, vertices[i]? = some (pt i)) (h4 : 4 ≤ indices.length)
    (h5 : indices.head? = indices.getLast? → 5 ≤ indices.length)
    (hdiff : ∀ i ∈ indices, ∀ j ∈ indices, exact (pt i) = exact (pt j) → i = j)
    (hnd : indices.dropLast.Nodup) (hnd2 : indices.head? ≠ indices.getLast? → indices.Nodup)
    (fuel : Nat) (hf : (indices.length + 1) * (indices.length + 1) < fuel) :
    ∃ hull, indexedGrahamScan srt vertices indices = .ok hull ∧ indexedGiftWrap fuel vertices indices = .ok hull := by
  obtain ⟨g, eg, mg, HG, SG⟩ := C72_indexed_gift_wrap_on_floats G vertices hin indices pt hpt h4 h5 hdiff hnd hnd2 fuel hf
  have hne : ∃ i ∈ indices, ∃ j ∈ indices, i ≠ j := by
    have l := hnd
    match indices, h4, l with
    | a :: b :: c :: d :: rest, _, l =>
      refine ⟨a, by simp, b, by simp, ?_⟩
      rintro rfl
      simp [List.dropLast] at l
  obtain ⟨h, e, mh, H, S⟩ := C85_indexed_graham_scan_on_floats G hA srt (fun l h => ⟨hs.1 l, hs.2 l h⟩) vertices hin indices pt hpt h4 h5
    hdiff hne
  have key := C62_hull_is_unique (fun _ => Iff.rfl) H S HG SG
  have : h = g := by
    apply List.ext_getElem?
    intro i
    have k := congrArg (fun l => getElem? l i) key
    simp only [List.getElem?_map] at k
    cases hh : getElem? h i with
    | none => cases hg : getElem? g i with
      | none => rfl
      | some b => rw [hh, hg] at k; cases k
    | some a => cases hg : getElem? g i with
      | none => rw [hh, hg] at k; cases k
      | some b =>
        rw [hh, hg] at k
        simp only [Option.map_some, Option.some.injEq] at k
        rw [hdiff a (mh a (List.mem_of_getElem? hh)) b (mg b (List.mem_of_getElem? hg)) k]
  exact ⟨h, e, this ▸ eg⟩

theorem hull_input {s B : ℤ} {input hull : List (V2 (Flt f))} (hi : GoodInput s B input) (hm : ∀ v ∈ hull, v ∈ input)
    (H : IsHullLoop (input.map exact) (hull.map exact)) (hl : 5 ≤ hull.length) : GoodInput s B hull := by
  refine ⟨fun p hp => hi.grid p (hm p hp), by omega, fun _ => hl, ?_⟩
  have nd := H.once
  match hull, hl, nd with
  | p :: q :: r :: rest, _, nd =>
    refine ⟨q, by simp, r, by simp, ?_⟩
    intro e
    simp [e] at nd

/-- **C111** the hull of a hull of at least four corners is that hull. -/
theorem C111_hull_of_hull {s B : ℤ} (G : GoodGrid f s B) (hA : AtanOk f s B)
    (srt srt' : List (V2 (Flt f) × Flt f × Flt f) → List (V2 (Flt f) × Flt f × Flt f)) (hs : GoodSort srt) (hs' : GoodSort srt')
    (input : List (V2 (Flt f))) (hi : GoodInput s B input) (hull : List (V2 (Flt f))) (hh : grahamScan srt input = .ok hull)
    (hl : 5 ≤ hull.length) : ∃ hull', grahamScan srt' hull = .ok hull' ∧ hull'.map exact = hull.map exact := by
  obtain ⟨h, e, -, hm, H, S⟩ := scan G hA hs hi
  rw [hh] at e
  cases e
  obtain ⟨a, b, ea, eb, -, -, k⟩ := C111_inner_points_do_not_matter G hA srt' srt hs' hs hull input (hull_input hi hm H hl) hi
    (fun p hp => List.mem_map_of_mem (hm p hp)) (fun p hp => C63_points_are_combinations_of_the_vertices H _ (List.mem_map_of_mem hp))
  rw [hh] at eb
  cases eb
  exact ⟨a, ea, k⟩

/-- **C111** the hull of two sets of points together is the hull of the corners of their hulls. -/
theorem C111_union_of_hulls {s B : ℤ} (G : GoodGrid f s B) (hA : AtanOk f s B)
    (srt : List (V2 (Flt f) × Flt f × Flt f) → List (V2 (Flt f) × Flt f × Flt f)) (hs : GoodSort srt)
    (a b : List (V2 (Flt f))) (ha : GoodInput s B a) (hb : GoodInput s B b) :
    ∃ hullA hullB hull hull', grahamScan srt a = .ok hullA ∧ grahamScan srt b = .ok hullB ∧ grahamScan srt (a ++ b) = .ok hull ∧
      grahamScan srt (hullA ++ hullB) = .ok hull' ∧ hull'.map exact = hull.map exact := by
  obtain ⟨hA', ea, -, ma, HA, SA⟩ := scan G hA hs ha
  obtain ⟨hB', eb, -, mb, HB, SB⟩ := scan G hA hs hb
  have la := HA.len
  have lb := HB.len
  rw [List.length_map] at la lb
  have a4 := ha.four
  have b4 := hb.four
  have gi : GoodInput s B (a ++ b) := by
    refine ⟨fun p hp => (List.mem_append.1 hp).elim (ha.grid p) (hb.grid p), by rw [List.length_append]; omega,
      fun _ => by rw [List.length_append]; omega, ?_⟩
    obtain ⟨x, hx, y, hy, hxy⟩ := ha.two
    exact ⟨x, List.mem_append_left _ hx, y, List.mem_append_left _ hy, hxy⟩
  have gh : GoodInput s B (hA' ++ hB') := by
    refine ⟨fun p hp => (List.mem_append.1 hp).elim (fun h => ha.grid p (ma p h)) (fun h => hb.grid p (mb p h)),
      by rw [List.length_append]; omega, fun _ => by rw [List.length_append]; omega, ?_⟩
    have nd := HA.once
    match hA', la, nd with
    | p :: q :: r :: rest, _, nd =>
      refine ⟨q, by simp, r, by simp, ?_⟩
      intro e
      simp [e] at nd
  obtain ⟨x, y, ex, ey, -, -, k⟩ := C111_inner_points_do_not_matter G hA srt srt hs hs (hA' ++ hB') (a ++ b) gh gi
    (fun p hp => List.mem_map_of_mem (by
      rcases List.mem_append.1 hp with h | h
      · exact List.mem_append_left _ (ma p h)
      · exact List.mem_append_right _ (mb p h)))
    (fun p hp => by
      rw [List.map_append]
      rcases List.mem_append.1 hp with h | h
      · exact inTriangle_of_subset (fun q hq => List.mem_append_left _ hq)
          (C63_points_are_combinations_of_the_vertices HA _ (List.mem_map_of_mem h))
      · exact inTriangle_of_subset (fun q hq => List.mem_append_right _ hq)
          (C63_points_are_combinations_of_the_vertices HB _ (List.mem_map_of_mem h)))
  exact ⟨hA', hB', y, x, ea, eb, ey, ex, k⟩

/-- **C111** a hull has the same box as the points that it was computed from. -/
theorem C111_same_box {s B : ℤ} (G : GoodGrid f s B) (hA : AtanOk f s B)
    (srt : List (V2 (Flt f) × Flt f × Flt f) → List (V2 (Flt f) × Flt f × Flt f)) (hs : GoodSort srt)
    (input : List (V2 (Flt f))) (hi : GoodInput s B input) :
    ∃ hull lo hi lo' hi', grahamScan srt input = .ok hull ∧ (Aabb2.withPoints input).minMax = some (lo, hi) ∧
      (Aabb2.withPoints hull).minMax = some (lo', hi') ∧ exact lo' = exact lo ∧ exact hi' = exact hi := by
  obtain ⟨h, e, -, hm, H, S⟩ := scan G hA hs hi
  have toQ : ∀ pts : List (V2 (Flt f)), (∀ q ∈ pts, OnGrid s B q) → pts ≠ [] → ∃ lo hi, (Aabb2.withPoints pts).minMax = some (lo, hi) ∧
      (Aabb2.withPoints (pts.map exact)).minMax = some (exact lo, exact hi) := by
    intro pts hg hne
    obtain ⟨lo, hi, e, -, -, hb, ⟨a, ha, ea⟩, ⟨b, hb', eb⟩, ⟨c, hc, ec⟩, ⟨d, hd, ed⟩⟩ := BoxHull.box_on_grid hg hne
    refine ⟨lo, hi, e, ?_⟩
    have hB := Aabb.C30_box2_is_bounding_box (.withPoints (pts.map exact) : Hist2 ℚ)
    simp only [Hist2.run, Hist2.fed] at hB
    obtain ⟨w, ew⟩ : ∃ w, w = Aabb2.withPoints (pts.map exact) := ⟨_, rfl⟩
    rw [← ew] at hB ⊢
    obtain ⟨_ | ⟨⟨m1, m2⟩, ⟨v1, v2⟩⟩⟩ := w
    · simp [IsBoundingBox2, hne] at hB
    · have mx : ∀ q ∈ pts, ∀ g : Flt f, q.x = g → g.val ∈ (pts.map exact).map (·.x) := by
        rintro q hq g rfl
        exact List.mem_map_of_mem (List.mem_map_of_mem hq)
      have my : ∀ q ∈ pts, ∀ g : Flt f, q.y = g → g.val ∈ (pts.map exact).map (·.y) := by
        rintro q hq g rfl
        exact List.mem_map_of_mem (List.mem_map_of_mem hq)
      obtain ⟨a1, a2⟩ := Proofs.Aabb.range_unique hB.1 (lo2 := lo.x.val) (hi2 := hi.x.val) (ys := (pts.map exact).map (·.x))
        ⟨mx a ha _ ea, mx c hc _ ec, by
          simp only [List.map_map, List.mem_map, Function.comp]
          rintro _ ⟨q, hq, rfl⟩
          exact ⟨(hb q hq).1, (hb q hq).2.2.1⟩⟩ (fun _ => Iff.rfl)
      obtain ⟨b1, b2⟩ := Proofs.Aabb.range_unique hB.2 (lo2 := lo.y.val) (hi2 := hi.y.val) (ys := (pts.map exact).map (·.y))
        ⟨my b hb' _ eb, my d hd _ ed, by
          simp only [List.map_map, List.mem_map, Function.comp]
          rintro _ ⟨q, hq, rfl⟩
          exact ⟨(hb q hq).2.1, (hb q hq).2.2.2⟩⟩ (fun _ => Iff.rfl)
      simp only at a1 a2 b1 b2
      simp only [exact, a1, a2, b1, b2]
  have hne : input ≠ [] := by rintro rfl; exact absurd hi.four (by simp)
  have hne' : h ≠ [] := by rintro rfl; exact absurd H.len (by simp)
  obtain ⟨lo, hi', e1, e2⟩ := toQ input hi.grid hne
  obtain ⟨lo', hi'', e1', e2'⟩ := toQ h (fun q hq => hi.grid q (hm q hq)) hne'
  rw [C63_same_bounding_box H, e2] at e2'
  simp only [Option.some.injEq, Prod.mk.injEq] at e2'
  exact ⟨h, lo, hi', lo', hi'', e, e1, e1', e2'.1.symm, e2'.2.symm⟩

end

/-! ### the hypotheses are met -/

/-- the integer points of `l` as doubles -/
def dbl (l : List (ℤ × ℤ)) : List (V2 F64) := l.map (fun q => ipt b64 q.1 q.2)

theorem dbl_good (l : List (ℤ × ℤ)) (h : ∀ q ∈ l, |q.1| ≤ 1000 ∧ |q.2| ≤ 1000) (h5 : 5 ≤ l.length)
    (h2 : ∃ a ∈ l, ∃ b ∈ l, a ≠ b) :
    GoodInput 0 (2 ^ 23) (dbl l) ∧ (dbl l).map exact = l.map (fun q => (⟨q.1, q.2⟩ : V2 ℚ)) := by
  have e : ∀ q ∈ l, OnGrid 0 (2 ^ 23) (ipt b64 q.1 q.2) ∧ exact (ipt b64 q.1 q.2) = ⟨q.1, q.2⟩ := fun q hq =>
    onGrid_ipt goodGrid64 ((h q hq).1.trans (by norm_num)) ((h q hq).2.trans (by norm_num))
  refine ⟨⟨?_, ?_, fun _ => ?_, ?_⟩, ?_⟩
  · intro p hp
    obtain ⟨q, hq, rfl⟩ := List.mem_map.1 hp
    exact (e q hq).1
  · simp only [dbl, List.length_map]; omega
  · simpa only [dbl, List.length_map] using h5
  · obtain ⟨a, ha, b, hb, hab⟩ := h2
    refine ⟨_, List.mem_map_of_mem ha, _, List.mem_map_of_mem hb, ?_⟩
    rw [(e a ha).2, (e b hb).2]
    intro k
    apply hab
    simp only [V2.mk.injEq, Int.cast_inj] at k
    exact Prod.ext k.1 k.2
  · rw [dbl, List.map_map]
    exact List.map_congr_left (fun q hq => (e q hq).2)

/-- a house, and the same with points on its edges, inside of it, and repeated, in another order -/
def house : List (ℤ × ℤ) := [(0, 0), (4, 0), (4, 4), (2, 6), (0, 4)]
def house2 : List (ℤ × ℤ) := [(2, 6), (2, 0), (0, 0), (4, 0), (3, 5), (4, 4), (2, 6), (0, 4), (2, 2)]

example : (let _ := floorAtan b64
    ∃ srt hull hull', grahamScan srt (dbl house) = .ok hull ∧ grahamScan srt (dbl house2) = .ok hull' ∧
      hull.map exact = hull'.map exact ∧ ∃ hull'', giftWrap 100 (dbl house) = .ok hull'' ∧ hull''.map exact = hull.map exact) := by
  let _ := floorAtan b64
  obtain ⟨srt, h1, h2⟩ := C93_sort_exists (f := b64)
  obtain ⟨srt2, hs2⟩ := C73_sort_exists goodGrid64
  have hA := C74_accurate_atan2_is_good goodGrid64 (C74_good_atan2_exists b64)
  obtain ⟨g, e⟩ := dbl_good house (by decide) (by decide) (by decide)
  obtain ⟨g', e'⟩ := dbl_good house2 (by decide) (by decide) (by decide)
  have sub : ∀ p, p ∈ (dbl house).map exact → p ∈ (dbl house2).map exact := by
    rw [e, e']
    intro p hp
    obtain ⟨q, hq, rfl⟩ := List.mem_map.1 hp
    exact List.mem_map_of_mem ((by decide : ∀ q ∈ house, q ∈ house2) q hq)
  obtain ⟨hull, hull', k1, k2, -, -, k3⟩ := C111_inner_points_do_not_matter goodGrid64 hA srt srt ⟨h1, h2⟩ ⟨h1, h2⟩ _ _ g g'
    (fun p hp => sub _ (List.mem_map_of_mem hp)) (by
      intro p hp
      have : exact p ∈ (dbl house2).map exact := List.mem_map_of_mem hp
      rw [e'] at this
      rw [e]
      have tri : ∀ x ∈ house, ∀ y ∈ house, (⟨((x.1 + y.1 : ℤ) : ℚ) / 2, ((x.2 + y.2 : ℤ) : ℚ) / 2⟩ : V2 ℚ) = exact p →
          InTriangleOf (house.map (fun q => (⟨q.1, q.2⟩ : V2 ℚ))) (exact p) := by
        intro x hx y hy k
        refine ⟨_, List.mem_map_of_mem hx, _, List.mem_map_of_mem hy, _, List.mem_map_of_mem hy, 1 / 2, 1 / 2, 0, by norm_num,
          by norm_num, le_refl _, by norm_num, ?_, ?_⟩ <;> rw [← k] <;> dsimp only <;> push_cast <;> ring
      simp only [house2, List.map_cons, List.map_nil, List.mem_cons, List.not_mem_nil, or_false] at this
      rcases this with h | h | h | h | h | h | h | h | h
      · exact tri (2, 6) (by decide) (2, 6) (by decide) (by rw [h]; norm_num)
      · exact tri (0, 0) (by decide) (4, 0) (by decide) (by rw [h]; norm_num)
      · exact tri (0, 0) (by decide) (0, 0) (by decide) (by rw [h]; norm_num)
      · exact tri (4, 0) (by decide) (4, 0) (by decide) (by rw [h]; norm_num)
      · exact tri (2, 6) (by decide) (4, 4) (by decide) (by rw [h]; norm_num)
      · exact tri (4, 4) (by decide) (4, 4) (by decide) (by rw [h]; norm_num)
      · exact tri (2, 6) (by decide) (2, 6) (by decide) (by rw [h]; norm_num)
      · exact tri (0, 4) (by decide) (0, 4) (by decide) (by rw [h]; norm_num)
      · exact tri (0, 0) (by decide) (4, 4) (by decide) (by rw [h]; norm_num))
  refine ⟨srt, hull, hull', k1, k2, k3, ?_⟩
  obtain ⟨a, b, q1, q2, q3, q4⟩ := C111_functions_agree goodGrid64 hA srt ⟨h1, h2⟩ srt2 hs2 _ g 100 (by simp [dbl, house])
  rw [k1] at q1
  cases q1
  exact q4 (by rw [e]; decide) (fun _ => by rw [e]; decide)

end Verif.Props.HullAgree
