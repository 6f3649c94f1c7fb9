import Verif.Proofs.SweepMove
import Verif.Props.SweepRename
import Verif.Props.AffineInv
/-!
# C94: the sweep on moved and scaled lines, in any position
-/
set_option linter.unusedSectionVars false
set_option linter.unusedVariables false
set_option linter.unusedSimpArgs false
namespace Verif.Props
open Verif Verif.Spec Verif.Model Verif.Sweep Verif.Proofs.Intersect

section
variable {K : Type} [Scalar K] [Field K] [LinearOrder K] [ExactScalar K] [ExactSqrt K] {ι ι' : Type}

theorem moveScale_apply (s e g : K) (p : V2 K) : (moveScale s e g).map p = ⟨s * p.x + e, s * p.y + g⟩ := by
  simp only [moveScale, Affine2.map, zero_mul, add_zero, zero_add]

theorem moveScale_det {s : K} (hs : 0 < s) (e g : K) : (moveScale s e g).det ≠ 0 := by
  have := ExactScalar.toIsStrictOrderedRing (K := K)
  simp only [moveScale, Affine2.det]
  have := mul_pos hs hs
  intro h
  linarith

theorem moveScale_meet {s : K} (hs : 0 < s) (e g : K) (l m : Line2 K) :
    (mapLine (moveScale s e g).map l).intersectionPoint (mapLine (moveScale s e g).map m) = none ∧ l.intersectionPoint m = none ∨
    ∃ i i', (mapLine (moveScale s e g).map l).intersectionPoint (mapLine (moveScale s e g).map m) = some i' ∧
      l.intersectionPoint m = some i ∧ i'.single = (moveScale s e g).map i.single := by
  have := ExactScalar.toIsStrictOrderedRing (K := K)
  have h := AffineInv.C94_intersection_point (moveScale s e g) (moveScale_det hs e g) l m
  change AffineInv.ImageReport _ _ ((mapLine (moveScale s e g).map l).intersectionPoint (mapLine (moveScale s e g).map m)) at h
  generalize e1 : l.intersectionPoint m = a at h
  generalize e2 : (mapLine (moveScale s e g).map l).intersectionPoint (mapLine (moveScale s e g).map m) = b at h
  cases h with
  | none => exact Or.inl ⟨rfl, rfl⟩
  | point p => exact Or.inr ⟨_, _, rfl, rfl, rfl⟩
  | overlap p q => exact Or.inr ⟨_, _, rfl, rfl, rfl⟩
  | swapped p q =>
    exfalso
    have h1 := Intersect.overlap_sorted _ _ _ e1
    have h2 := Intersect.overlap_sorted _ _ _ e2
    simp only [moveScale_apply] at h1 h2
    rcases h1 with h1 | ⟨h1, h1'⟩
    · have := mul_lt_mul_of_pos_left h1 hs
      rcases h2 with h2 | ⟨h2, -⟩ <;> linarith
    · have := mul_lt_mul_of_pos_left h1' hs
      rcases h2 with h2 | ⟨-, h2⟩
      · rw [h1] at h2; exact lt_irrefl _ h2
      · linarith

theorem moveScale_sweepMap {s : K} (hs : 0 < s) (e g : K) : SweepMap (moveScale s e g).map (fun x => s * x + e) := by
  have := ExactScalar.toIsStrictOrderedRing (K := K)
  have lt : ∀ a b c : K, s * a + c < s * b + c ↔ a < b := fun a b c => by
    rw [add_lt_add_iff_right, mul_lt_mul_iff_right₀ hs]
  have eq : ∀ a b c : K, s * a + c = s * b + c ↔ a = b := fun a b c => by
    rw [add_left_inj, mul_right_inj' hs.ne']
  refine ⟨fun p q h => AffineInv.map_inj _ (moveScale_det hs e g) h, fun p => ⟨⟨(p.x - e) / s, (p.y - g) / s⟩, ?_⟩, ?_,
    moveScale_meet hs e g, ?_, fun x y => lt x y e, fun p => by rw [moveScale_apply], ?_⟩
  · rw [moveScale_apply]
    apply v2_ext
    · simp only; field_simp; ring
    · simp only; field_simp; ring
  · intro p q
    unfold SweepBefore
    simp only [moveScale_apply, lt, eq]
  · intro sweep l
    unfold sweeplineIntersection mapLine
    simp only [exact_simp, moveScale_apply]
    simp only [lt, eq]
    by_cases h1 : l.start.y = l.end.y
    · simp only [h1, if_true]
      by_cases h2 : sweep.x < l.end.x
      · simp [h2]
      · simp [h2]
    · by_cases h2 : l.start.x = l.end.x
      · simp [h1, h2]
      · simp only [h1, h2, if_false, Option.map_some, Option.some_inj, Prod.mk.injEq]
        have hx : l.end.x - l.start.x ≠ 0 := sub_ne_zero.2 (Ne.symm h2)
        have hy : l.end.y - l.start.y ≠ 0 := sub_ne_zero.2 (Ne.symm h1)
        have e1 : (s * l.end.y + g - (s * l.start.y + g)) / (s * l.end.x + e - (s * l.start.x + e)) =
            (l.end.y - l.start.y) / (l.end.x - l.start.x) := by
          rw [show s * l.end.y + g - (s * l.start.y + g) = s * (l.end.y - l.start.y) by ring,
            show s * l.end.x + e - (s * l.start.x + e) = s * (l.end.x - l.start.x) by ring, mul_div_mul_left _ _ hs.ne']
        rw [e1]
        refine ⟨?_, rfl⟩
        have hsl : (l.end.y - l.start.y) / (l.end.x - l.start.x) ≠ 0 := div_ne_zero hy hx
        generalize (l.end.y - l.start.y) / (l.end.x - l.start.x) = w at hsl
        field_simp
        ring
  · intro l
    unfold bothSlope mapLine
    simp only [exact_simp, moveScale_apply]
    simp only [eq]
    by_cases h1 : l.end.y = l.start.y
    · simp [h1]
    · simp only [h1, if_false]
      rw [show s * l.end.y + g - (s * l.start.y + g) = s * (l.end.y - l.start.y) by ring,
        show s * l.end.x + e - (s * l.start.x + e) = s * (l.end.x - l.start.x) by ring, mul_div_mul_left _ _ hs.ne']

theorem evMap_move {L : List (Line2 K)} {f : V2 K → V2 K} {x : K → K} (hf : SweepMap f x) {G : V2 K × ι → Prop} {G' : V2 K × ι' → Prop}
    {m : SiteMap K ι SiteEvent} {m' : SiteMap K ι' SiteEvent}
    (h : EvMap (Begins L) (Ends L) G m) (h' : EvMap (Begins (L.map (mapLine f))) (Ends (L.map (mapLine f))) G' m') : SameEvM f m m' := by
  have hA : ∀ i p, Begins (L.map (mapLine f)) i (f p) ↔ Begins L i p := by
    intro i p
    unfold Begins
    rw [List.getElem?_map]
    cases L[i]? with
    | none => simp
    | some l => simp [(hf.lo l).1, hf.eq]
  have hD : ∀ i p, Ends (L.map (mapLine f)) i (f p) ↔ Ends L i p := by
    intro i p
    unfold Ends
    rw [List.getElem?_map]
    cases L[i]? with
    | none => simp
    | some l => simp [(hf.lo l).2, hf.eq]
  constructor
  · intro p
    constructor
    · rintro ⟨e, he, rfl⟩
      rcases h.some e he with h0 | h0
      · obtain ⟨i, hi⟩ := List.exists_mem_of_ne_nil _ h0
        exact h'.all i _ (Or.inl ((hA _ _).2 ((h.add e he i).1 hi)))
      · obtain ⟨i, hi⟩ := List.exists_mem_of_ne_nil _ h0
        exact h'.all i _ (Or.inr ((hD _ _).2 ((h.drop e he i).1 hi)))
    · rintro ⟨e, he, hp⟩
      rcases h'.some e he with h0 | h0
      · obtain ⟨i, hi⟩ := List.exists_mem_of_ne_nil _ h0
        exact h.all i _ (Or.inl ((hA _ _).1 (hp ▸ (h'.add e he _).1 hi)))
      · obtain ⟨i, hi⟩ := List.exists_mem_of_ne_nil _ h0
        exact h.all i _ (Or.inr ((hD _ _).1 (hp ▸ (h'.drop e he _).1 hi)))
  · intro p i
    constructor
    · rintro ⟨e, he, -, hi⟩; rw [h.inter e he] at hi; cases hi
    · rintro ⟨e, he, -, hi⟩; rw [h'.inter e he] at hi; cases hi

/-- **C94**: the sweep on moved and (uniformly, positively) scaled lines gives the moved and scaled positions, with the same lines,
for every input in any position and with every setting. -/
theorem C94_sweep_moved_and_scaled {s : K} (hs : 0 < s) (e g : K) (B B' : TreeShape K) (order order' : Nat → List Nat → List Nat)
    (hord : ∀ n l, (order n l).Perm l) (hord' : ∀ n l, (order' n l).Perm l) (ign stop : Bool) (input : List (Line2 K))
    (fuel fuel' : Nat) (hf : 2 * input.length + input.length * input.length < fuel)
    (hf' : 2 * input.length + input.length * input.length < fuel') :
    ∃ r, (haveI := B; sweepIntersections order fuel ign stop input = .ok r) ∧
      (haveI := B'; sweepIntersections order' fuel' ign stop (input.map (moveScale s e g).line) =
        .ok (r.map fun x => ((moveScale s e g).map x.1, x.2))) := by
  have hm := moveScale_sweepMap hs e g
  have hl : (input.map (moveScale s e g).line).map rearranged = (input.map rearranged).map (mapLine (moveScale s e g).map) := by
    rw [List.map_map, List.map_map]
    refine List.map_congr_left fun l _ => ?_
    have := hm.lo l
    simp only [Function.comp, rearranged]
    change (⟨lo (mapLine (moveScale s e g).map l), Sweep.hi (mapLine (moveScale s e g).map l)⟩ : Line2 K) = _
    rw [this.1, this.2]
    rfl
  obtain ⟨d, h1, h2, h3, h4, h5⟩ := haveI := B; withLines_ok ign stop input
  obtain ⟨d', h1', h2', h3', h4', h5'⟩ := haveI := B'; withLines_ok ign stop (input.map (moveScale s e g).line)
  have hinv := Inv.init ign (EvMap.einv (σ := Unit) (T := fun _ => True) (Valid := fun _ _ => True) (tab := ()) trivial h5)
  have hinv' := Inv.init ign (EvMap.einv (σ := Unit) (T := fun _ => True) (Valid := fun _ _ => True) (tab := ()) trivial h5')
  obtain ⟨t, g1, -⟩ := haveI := B; plain_run order hord ign stop input fuel hf h5
  obtain ⟨t', g1', -⟩ := haveI := B'; plain_run order' hord' ign stop (input.map (moveScale s e g).line) fuel' (by
    rw [List.length_map]; exact hf') h5'
  rw [hl] at hinv' h5' g1' h4'
  have := sweepLoop_move hm B B' (plainOps_ok (input.map rearranged)) (plainOps_ok _) (sound_of _) (sound_of _)
    (fun sweep => sites_cand _ sweep) (fun sweep => sites_cand _ sweep) hord hord' fuel fuel' _ _ _ _ _ _ (fun p => Iff.rfl) hinv hinv'
    (evMap_move hm h5 h5') (fun p v => by simp) t t' g1 g1'
  refine ⟨plainResult t.result, ?_, ?_⟩
  · unfold sweepIntersections sweepCompute
    rw [h1]
    simp only [bind, Except.bind, h2, h3, h4, g1]
    rfl
  · unfold sweepIntersections sweepCompute
    rw [h1']
    simp only [bind, Except.bind, h2', h3', h4', g1']
    rw [show (plainResult t.result).map (fun x => ((moveScale s e g).map x.1, x.2)) = plainResult t'.result from this.symm]
    rfl

/-- **C94**, the indexed version -/
theorem C94_indexed_sweep_moved_and_scaled {s : K} (hs : 0 < s) (e g : K) (B B' : TreeShape K) (order order' : Nat → List Nat → List Nat)
    (hord : ∀ n l, (order n l).Perm l) (hord' : ∀ n l, (order' n l).Perm l) (ign stop : Bool) (vs : List (V2 K)) (edges : List (Nat × Nat))
    (hin : ∀ e ∈ edges, e.1 < vs.length ∧ e.2 < vs.length)
    (fuel fuel' : Nat) (hf : 2 * edges.length + edges.length * edges.length < fuel)
    (hf' : 2 * edges.length + edges.length * edges.length < fuel') :
    ∃ tab r tab' r', (haveI := B; indexedSweepIntersections order fuel ign stop vs edges = .ok (tab, r)) ∧
      (haveI := B'; indexedSweepIntersections order' fuel' ign stop (vs.map (moveScale s e g).map) edges = .ok (tab', r')) ∧
      placed tab' r' = (placed tab r).map (fun x => (x.1.map (moveScale s e g).map, x.2)) := by
  have hm := moveScale_sweepMap hs e g
  have hin' : ∀ ed ∈ edges, EdgeOk (vs.map (moveScale s e g).map) ed := fun ed hed => by
    unfold EdgeOk; rw [List.length_map]; exact hin ed hed
  have hl : edges.map (edgeLine (vs.map (moveScale s e g).map) ⟨0, 0⟩) =
      (edges.map (edgeLine vs ⟨0, 0⟩)).map (mapLine (moveScale s e g).map) := by
    rw [List.map_map]
    refine List.map_congr_left fun ed hed => ?_
    obtain ⟨i1, i2⟩ := hin ed hed
    simp only [Function.comp, edgeLine, mapLine, List.getElem?_map, List.getElem?_eq_getElem i1, List.getElem?_eq_getElem i2, Option.map_some,
      Option.getD_some]
  obtain ⟨d, h1, h2, h3, h4, h5, h6⟩ := haveI := B; withEdges_ok vs ⟨0, 0⟩ ign stop edges hin
  obtain ⟨d', h1', h2', h3', h4', h5', h6'⟩ := haveI := B'; withEdges_ok (vs.map (moveScale s e g).map) ⟨0, 0⟩ ign stop edges hin'
  have hinv := Inv.init ign
    (EvMap.einv (σ := List (V2 K)) (T := fun tab => vs <+: tab) (Valid := IsVertex) (tab := vs) (List.prefix_refl _) h6)
  have hinv' := Inv.init ign
    (EvMap.einv (σ := List (V2 K)) (T := fun tab => vs.map (moveScale s e g).map <+: tab) (Valid := IsVertex)
      (tab := vs.map (moveScale s e g).map) (List.prefix_refl _) h6')
  obtain ⟨t, g1, -, g2⟩ := haveI := B; indexed_run order hord ign stop vs ⟨0, 0⟩ edges hin fuel hf h6
  obtain ⟨t', g1', -, g2'⟩ := haveI := B'; indexed_run order' hord' ign stop (vs.map (moveScale s e g).map) ⟨0, 0⟩ edges hin' fuel' hf' h6'
  have ho' := indexedOps_ok (vs.map (moveScale s e g).map) ⟨0, 0⟩ edges hin'
  rw [hl] at hinv' h6' ho'
  have := sweepLoop_move hm B B' (indexedOps_ok vs ⟨0, 0⟩ edges hin) ho' (sound_of _) (sound_of _)
    (fun sweep => sites_cand _ sweep) (fun sweep => sites_cand _ sweep) hord hord' fuel fuel' _ _ _ _ _ _ (fun p => Iff.rfl) hinv hinv'
    (evMap_move hm h6 h6') (fun p v => by simp) t t' g1 g1'
  refine ⟨t.tab, t.result.map (fun r => (r.1.2, r.2)), t'.tab, t'.result.map (fun r => (r.1.2, r.2)), ?_, ?_, ?_⟩
  · unfold indexedSweepIntersections indexedSweepCompute
    rw [h1]
    simp only [bind, Except.bind, h2, h3, h4, h5, g1]
  · unfold indexedSweepIntersections indexedSweepCompute
    rw [h1']
    simp only [bind, Except.bind, h2', h3', h4', h5', g1']
  · rw [placed_eq g2, placed_eq g2', this]
    unfold mapResult
    rw [List.map_map, List.map_map]
    rfl

/-- **C94**: moving and scaling a line string of ten or more points does not change whether it intersects itself (for shorter ones it
can, see C94_self_intersection_depends_on_coordinates). -/
theorem C94_long_self_intersection {s : K} (hs : 0 < s) (e g : K) (B B' : TreeShape K) (order order' : Nat → List Nat → List Nat)
    (hord : ∀ n l, (order n l).Perm l) (hord' : ∀ n l, (order' n l).Perm l) (line : List (V2 K)) (fuel fuel' : Nat)
    (hf : 2 * line.length + line.length * line.length < fuel)
    (hf' : 2 * line.length + line.length * line.length < fuel') :
    ∃ b, (haveI := B; isSelfIntersectingLong order fuel line = .ok b) ∧
      (haveI := B'; isSelfIntersectingLong order' fuel' (line.map (moveScale s e g).map) = .ok b) := by
  have hlen : (windowIter2 line).length ≤ line.length := by
    rw [windowIter2, List.length_map, Intersect.windows2_length]
    omega
  have hmul := Nat.mul_le_mul hlen hlen
  have hw : windowIter2 (line.map (moveScale s e g).map) = (windowIter2 line).map (moveScale s e g).line := by
    have key : ∀ l : List (V2 K), windows2 (l.map (moveScale s e g).map) =
        (windows2 l).map (fun p => ((moveScale s e g).map p.1, (moveScale s e g).map p.2)) := by
      intro l
      induction l with
      | nil => rfl
      | cons a l ih =>
        cases l with
        | nil => rfl
        | cons b l =>
          simp only [List.map_cons, windows2] at ih ⊢
          rw [ih]
    unfold windowIter2
    rw [key, List.map_map, List.map_map]
    rfl
  obtain ⟨r, h1, h2⟩ := C94_sweep_moved_and_scaled hs e g B B' order order' hord hord' true true (windowIter2 line) fuel fuel' (by omega) (by omega)
  refine ⟨decide (r.length > 0), ?_, ?_⟩
  · unfold isSelfIntersectingLong; rw [h1]; rfl
  · unfold isSelfIntersectingLong; rw [hw, h2]
    simp only [bind, Except.bind, List.length_map]

end

/-- a concrete case, with a vertical and a horizontal line: twice as large, moved by (3, -1) -/
theorem C94_sweep_example : ∀ T ∈ shapes, haveI : TreeShape FQ := T
    sweepIntersections keepOrder 50 false false [seg 0 0 4 4, seg 1 (-1) 1 6, seg 0 2 5 2] =
      .ok [(⟨.fin 1, .fin 1⟩, [0, 1]), (⟨.fin 1, .fin 2⟩, [1, 2]), (⟨.fin 2, .fin 2⟩, [0, 2])] ∧
    sweepIntersections backwards 50 false false [seg 3 (-1) 11 7, seg 5 (-3) 5 11, seg 3 3 13 3] =
      .ok [(⟨.fin 5, .fin 1⟩, [0, 1]), (⟨.fin 5, .fin 3⟩, [1, 2]), (⟨.fin 7, .fin 3⟩, [0, 2])] := by decide +kernel

end Verif.Props
