import Verif.Proofs.SweepRename
import Verif.Props.SweepDirection
import Verif.Props.Direction
/-!
# C102: the order in which lines and edges are given

`Renumbered π a b`: what is at `i` in `a` is at `π i` in `b`.
-/
set_option linter.unusedSectionVars false
set_option linter.unusedVariables false
set_option linter.unusedSimpArgs false
namespace Verif.Props
open Verif Verif.Spec Verif.Model Verif.Sweep Verif.Proofs.Intersect

section
variable {K : Type} [Scalar K] [Field K] [LinearOrder K] [ExactScalar K] [ExactSqrt K] {ι ι' : Type}

theorem evMap_renumber {A D A' D' : Nat → V2 K → Prop} {G : V2 K × ι → Prop} {G' : V2 K × ι' → Prop} {m : SiteMap K ι SiteEvent}
    {m' : SiteMap K ι' SiteEvent} {π : Equiv.Perm Nat} (hA : ∀ i p, A i p ↔ A' (π i) p) (hD : ∀ i p, D i p ↔ D' (π i) p)
    (h : EvMap A D G m) (h' : EvMap A' D' G' m') : SameEvR π m m' := by
  constructor
  · intro p
    constructor
    · rintro ⟨e, he, rfl⟩
      rcases h.some e he with h0 | h0
      · obtain ⟨i, hi⟩ := List.exists_mem_of_ne_nil _ h0
        exact h'.all (π i) _ (Or.inl ((hA _ _).1 ((h.add e he i).1 hi)))
      · obtain ⟨i, hi⟩ := List.exists_mem_of_ne_nil _ h0
        exact h'.all (π i) _ (Or.inr ((hD _ _).1 ((h.drop e he i).1 hi)))
    · rintro ⟨e, he, rfl⟩
      rcases h'.some e he with h0 | h0
      · obtain ⟨j, hj⟩ := List.exists_mem_of_ne_nil _ h0
        obtain ⟨i, rfl⟩ := π.surjective j
        exact h.all i _ (Or.inl ((hA _ _).2 ((h'.add e he _).1 hj)))
      · obtain ⟨j, hj⟩ := List.exists_mem_of_ne_nil _ h0
        obtain ⟨i, rfl⟩ := π.surjective j
        exact h.all i _ (Or.inr ((hD _ _).2 ((h'.drop e he _).1 hj)))
  · intro p i
    constructor
    · rintro ⟨e, he, -, hi⟩; rw [h.inter e he] at hi; cases hi
    · rintro ⟨e, he, -, hi⟩; rw [h'.inter e he] at hi; cases hi

theorem begins_renumber {L L' : List (Line2 K)} {π : Equiv.Perm Nat} (h : Renumbered π L L') (i : Nat) (p : V2 K) :
    Begins L i p ↔ Begins L' (π i) p := by unfold Begins; rw [h i]

theorem ends_renumber {L L' : List (Line2 K)} {π : Equiv.Perm Nat} (h : Renumbered π L L') (i : Nat) (p : V2 K) :
    Ends L i p ↔ Ends L' (π i) p := by unfold Ends; rw [h i]

theorem plain_renumber (B B' : TreeShape K) (order order' : Nat → List Nat → List Nat) (hord : ∀ n l, (order n l).Perm l)
    (hord' : ∀ n l, (order' n l).Perm l) (ign stop : Bool) (π : Equiv.Perm Nat) (input input' : List (Line2 K))
    (hR : Renumbered π (input.map rearranged) (input'.map rearranged)) (fuel fuel' : Nat)
    (hf : 2 * input.length + input.length * input.length < fuel)
    (hf' : 2 * input'.length + input'.length * input'.length < fuel') :
    ∃ r, (haveI := B; sweepIntersections order fuel ign stop input = .ok r) ∧
      (haveI := B'; sweepIntersections order' fuel' ign stop input' = .ok (renumberResult π r)) := by
  obtain ⟨d, h1, h2, h3, h4, h5⟩ := haveI := B; withLines_ok ign stop input
  obtain ⟨d', h1', h2', h3', h4', h5'⟩ := haveI := B'; withLines_ok ign stop input'
  have hinv := Inv.init ign (EvMap.einv (σ := Unit) (T := fun _ => True) (Valid := fun _ _ => True) (tab := ()) trivial h5)
  have hinv' := Inv.init ign (EvMap.einv (σ := Unit) (T := fun _ => True) (Valid := fun _ _ => True) (tab := ()) trivial h5')
  obtain ⟨s, g1, -⟩ := haveI := B; plain_run order hord ign stop input fuel hf h5
  obtain ⟨s', g1', -⟩ := haveI := B'; plain_run order' hord' ign stop input' fuel' hf' h5'
  have := sweepLoop_renumber B B' hR (plainOps_ok (input.map rearranged)) (plainOps_ok (input'.map rearranged)) (sound_of _) (sound_of _)
    (fun sweep => sites_cand _ sweep) (fun sweep => sites_cand _ sweep) hord hord' fuel fuel' _ _ _ _ _ hinv hinv'
    (evMap_renumber (begins_renumber hR) (ends_renumber hR) h5 h5') (fun p v => by simp) s s' g1 g1'
  refine ⟨plainResult s.result, ?_, ?_⟩
  · unfold sweepIntersections sweepCompute
    rw [h1]
    simp only [bind, Except.bind, h2, h3, h4, g1]
    rfl
  · unfold sweepIntersections sweepCompute
    rw [h1']
    simp only [bind, Except.bind, h2', h3', h4', g1']
    rw [← this]
    rfl

/-- **C102**: `compute` finds the same positions whatever the order in which the lines are given, and at each position the same
lines under their new numbers (for every hash order and tree shape, and with every setting of the two options). -/
theorem C102_line_order (B B' : TreeShape K) (order order' : Nat → List Nat → List Nat) (hord : ∀ n l, (order n l).Perm l)
    (hord' : ∀ n l, (order' n l).Perm l) (ign stop : Bool) (π : Equiv.Perm Nat) (input input' : List (Line2 K))
    (hR : Renumbered π input input') (fuel fuel' : Nat)
    (hf : 2 * input.length + input.length * input.length < fuel)
    (hf' : 2 * input'.length + input'.length * input'.length < fuel') :
    ∃ r, (haveI := B; sweepIntersections order fuel ign stop input = .ok r) ∧
      (haveI := B'; sweepIntersections order' fuel' ign stop input' =
        .ok (r.map fun x => (x.1, (x.2.map π).insertionSort (· ≤ ·)))) :=
  plain_renumber B B' order order' hord hord' ign stop π input input' (hR.map _) fuel fuel' hf hf'

/-- **C102**: … and whatever the direction of each line -/
theorem C102_line_order_and_direction (B B' : TreeShape K) (order order' : Nat → List Nat → List Nat) (hord : ∀ n l, (order n l).Perm l)
    (hord' : ∀ n l, (order' n l).Perm l) (ign stop : Bool) (π : Equiv.Perm Nat) (input input' : List (Line2 K))
    (hR : ∀ i, input'[π i]? = input[i]? ∨ input'[π i]? = (input[i]?).map (fun l => ⟨l.end, l.start⟩)) (fuel fuel' : Nat)
    (hf : 2 * input.length + input.length * input.length < fuel)
    (hf' : 2 * input'.length + input'.length * input'.length < fuel') :
    ∃ r, (haveI := B; sweepIntersections order fuel ign stop input = .ok r) ∧
      (haveI := B'; sweepIntersections order' fuel' ign stop input' =
        .ok (r.map fun x => (x.1, (x.2.map π).insertionSort (· ≤ ·)))) := by
  have turn : ∀ l : Line2 K, rearranged (⟨l.end, l.start⟩ : Line2 K) = rearranged l := by
    intro l
    by_cases h : l.start = l.end
    · obtain ⟨a, b⟩ := l; simp only at h; subst h; rfl
    · have := ends_apart l h
      unfold rearranged lo Sweep.hi
      simp only
      by_cases hc : siteCmp l.start l.end = some .lt
      · have hc' := this.1 hc
        simp [hc, hc']
      · have hc' : siteCmp l.end l.start = some .lt := by
          by_contra hc'
          exact hc (this.2 hc')
        simp [hc, hc']
  refine plain_renumber B B' order order' hord hord' ign stop π input input' (fun i => ?_) fuel fuel' hf hf'
  rw [List.getElem?_map, List.getElem?_map]
  rcases hR i with h | h
  · rw [h]
  · rw [h, Option.map_map]
    congr 1
    funext l
    exact turn l

/-- **C102**: for every rearrangement of the lines there is such a numbering, so the positions found, and how many lines meet
at each of them, do not depend on the order of the lines. -/
theorem C102_permuted_lines (B B' : TreeShape K) (order order' : Nat → List Nat → List Nat) (hord : ∀ n l, (order n l).Perm l)
    (hord' : ∀ n l, (order' n l).Perm l) (ign stop : Bool) (input input' : List (Line2 K))
    (hp : input.Perm input') (fuel fuel' : Nat)
    (hf : 2 * input.length + input.length * input.length < fuel)
    (hf' : 2 * input'.length + input'.length * input'.length < fuel') :
    ∃ r r', (haveI := B; sweepIntersections order fuel ign stop input = .ok r) ∧
      (haveI := B'; sweepIntersections order' fuel' ign stop input' = .ok r') ∧
      r'.map (fun x => (x.1, x.2.length)) = r.map (fun x => (x.1, x.2.length)) ∧
      r'.map (fun x => (x.1, Multiset.ofList (x.2.map (input'[·]?)))) = r.map (fun x => (x.1, Multiset.ofList (x.2.map (input[·]?)))) := by
  obtain ⟨π, hR⟩ := renumbered_of_perm hp
  obtain ⟨r, h1, h2⟩ := C102_line_order B B' order order' hord hord' ign stop π input input' hR fuel fuel' hf hf'
  refine ⟨r, _, h1, h2, ?_, ?_⟩
  · rw [List.map_map]
    refine List.map_congr_left fun x _ => ?_
    simp
  · rw [List.map_map]
    refine List.map_congr_left fun x _ => ?_
    simp only [Function.comp, Prod.mk.injEq, true_and]
    refine Quot.sound ?_
    refine ((List.perm_insertionSort _ _).map _).trans ?_
    rw [List.map_map]
    refine List.Perm.of_eq (List.map_congr_left fun i _ => ?_)
    exact hR i

/-- **C102**: `is_self_intersecting` of a line string that is long enough for the sweep (ten points and more) does not depend on
the direction of the line string. -/
theorem C102_long_line_string_direction (B B' : TreeShape K) (order order' : Nat → List Nat → List Nat) (hord : ∀ n l, (order n l).Perm l)
    (hord' : ∀ n l, (order' n l).Perm l) (line : List (V2 K)) (fuel fuel' : Nat)
    (hf : 2 * line.length + line.length * line.length < fuel)
    (hf' : 2 * line.length + line.length * line.length < fuel') :
    ∃ b, (haveI := B; isSelfIntersectingLong order fuel line = .ok b) ∧
      (haveI := B'; isSelfIntersectingLong order' fuel' line.reverse = .ok b) := by
  have hlen : (windowIter2 line).length ≤ line.length := by
    rw [windowIter2, List.length_map, Intersect.windows2_length]
    omega
  have hmul := Nat.mul_le_mul hlen hlen
  have hseg := (Intersect.C101_segments line []).1
  have hlen' : (windowIter2 line.reverse).length = (windowIter2 line).length := by rw [hseg]; simp
  obtain ⟨π, hπ, -⟩ := renumbered_reverse (windowIter2 line)
  obtain ⟨r, h1, h2⟩ := C102_line_order_and_direction B B' order order' hord hord' true true π (windowIter2 line) (windowIter2 line.reverse)
    (fun i => Or.inr (by rw [hseg, ← List.map_reverse, List.getElem?_map, hπ i])) fuel fuel' (by omega) (by rw [hlen']; omega)
  refine ⟨decide (r.length > 0), ?_, ?_⟩
  · unfold isSelfIntersectingLong; rw [h1]; rfl
  · unfold isSelfIntersectingLong; rw [h2]
    simp only [bind, Except.bind, List.length_map]

/-- the positions of the ends of the edges -/
def edgeEnds (vs : List (V2 K)) (edges : List (Nat × Nat)) : List (Option (V2 K) × Option (V2 K)) := edges.map (fun e => (vs[e.1]?, vs[e.2]?))

/-- **C102**, indexed version: the same positions with the same edges, whatever the order of the edges and of the vertices -/
theorem C102_edge_order (B B' : TreeShape K) (order order' : Nat → List Nat → List Nat) (hord : ∀ n l, (order n l).Perm l)
    (hord' : ∀ n l, (order' n l).Perm l) (ign stop : Bool) (π : Equiv.Perm Nat) (vs vs' : List (V2 K)) (edges edges' : List (Nat × Nat))
    (hin : ∀ e ∈ edges, e.1 < vs.length ∧ e.2 < vs.length) (hin' : ∀ e ∈ edges', e.1 < vs'.length ∧ e.2 < vs'.length)
    (hR : Renumbered π (edgeEnds vs edges) (edgeEnds vs' edges')) (fuel fuel' : Nat)
    (hf : 2 * edges.length + edges.length * edges.length < fuel)
    (hf' : 2 * edges'.length + edges'.length * edges'.length < fuel') :
    ∃ tab r tab' r', (haveI := B; indexedSweepIntersections order fuel ign stop vs edges = .ok (tab, r)) ∧
      (haveI := B'; indexedSweepIntersections order' fuel' ign stop vs' edges' = .ok (tab', r')) ∧
      placed tab' r' = (placed tab r).map (fun x => (x.1, (x.2.map π).insertionSort (· ≤ ·))) := by
  have hR2 : Renumbered π (edges.map (edgeLine vs ⟨0, 0⟩)) (edges'.map (edgeLine vs' ⟨0, 0⟩)) := by
    have := hR.map (fun e => (⟨e.1.getD ⟨0, 0⟩, e.2.getD ⟨0, 0⟩⟩ : Line2 K))
    unfold edgeEnds at this
    rw [List.map_map, List.map_map] at this
    exact this
  obtain ⟨d, h1, h2, h3, h4, h5, h6⟩ := haveI := B; withEdges_ok vs ⟨0, 0⟩ ign stop edges hin
  obtain ⟨d', h1', h2', h3', h4', h5', h6'⟩ := haveI := B'; withEdges_ok vs' ⟨0, 0⟩ ign stop edges' hin'
  have hinv := Inv.init ign
    (EvMap.einv (σ := List (V2 K)) (T := fun tab => vs <+: tab) (Valid := IsVertex) (tab := vs) (List.prefix_refl _) h6)
  have hinv' := Inv.init ign
    (EvMap.einv (σ := List (V2 K)) (T := fun tab => vs' <+: tab) (Valid := IsVertex) (tab := vs') (List.prefix_refl _) h6')
  obtain ⟨s, g1, -, g2⟩ := haveI := B; indexed_run order hord ign stop vs ⟨0, 0⟩ edges hin fuel hf h6
  obtain ⟨s', g1', -, g2'⟩ := haveI := B'; indexed_run order' hord' ign stop vs' ⟨0, 0⟩ edges' hin' fuel' hf' h6'
  have := sweepLoop_renumber B B' hR2 (indexedOps_ok vs ⟨0, 0⟩ edges hin) (indexedOps_ok vs' ⟨0, 0⟩ edges' hin') (sound_of _) (sound_of _)
    (fun sweep => sites_cand _ sweep) (fun sweep => sites_cand _ sweep) hord hord' fuel fuel' _ _ _ _ _ hinv hinv'
    (evMap_renumber (begins_renumber hR2) (ends_renumber hR2) h6 h6') (fun p v => by simp) s s' g1 g1'
  refine ⟨s.tab, s.result.map (fun r => (r.1.2, r.2)), s'.tab, s'.result.map (fun r => (r.1.2, r.2)), ?_, ?_, ?_⟩
  · unfold indexedSweepIntersections indexedSweepCompute
    rw [h1]
    simp only [bind, Except.bind, h2, h3, h4, h5, g1]
  · unfold indexedSweepIntersections indexedSweepCompute
    rw [h1']
    simp only [bind, Except.bind, h2', h3', h4', h5', g1']
  · rw [placed_eq g2, placed_eq g2', this]
    unfold renumberResult
    rw [List.map_map, List.map_map]
    rfl

end

/-- the hypotheses are met: three lines in two orders -/
example : Renumbered (Equiv.swap 0 2) [seg 0 0 4 4, seg 4 0 0 4, seg 1 (-1) 1 6] [seg 1 (-1) 1 6, seg 4 0 0 4, seg 0 0 4 4] := by
  intro i
  match i with
  | 0 => rw [Equiv.swap_apply_left]; rfl
  | 1 => rfl
  | 2 => rw [Equiv.swap_apply_right]; rfl
  | n + 3 => rw [Equiv.swap_apply_of_ne_of_ne (by omega) (by omega)]; rfl

/-- **C102**: what the theorem says for the lines of the example -/
theorem C102_example : ∀ T ∈ shapes, haveI : TreeShape FQ := T
    sweepIntersections keepOrder 50 false false [seg 0 0 4 4, seg 4 0 0 4, seg 1 (-1) 1 6] =
      .ok [(⟨.fin 1, .fin 1⟩, [0, 2]), (⟨.fin 2, .fin 2⟩, [0, 1]), (⟨.fin 1, .fin 3⟩, [1, 2])] ∧
    sweepIntersections backwards 50 false false [seg 1 (-1) 1 6, seg 4 0 0 4, seg 0 0 4 4] =
      .ok [(⟨.fin 1, .fin 1⟩, [0, 2]), (⟨.fin 2, .fin 2⟩, [1, 2]), (⟨.fin 1, .fin 3⟩, [0, 1])] := by decide +kernel

/-- … and edges over a vertex table, with the edges swapped and the vertices turned around -/
example : Renumbered (Equiv.swap 0 1) (edgeEnds ([⟨0, 0⟩, ⟨4, 4⟩, ⟨5, 1⟩] : List (V2 ℝ)) [(0, 1), (1, 2)])
    (edgeEnds ([⟨5, 1⟩, ⟨4, 4⟩, ⟨0, 0⟩] : List (V2 ℝ)) [(1, 0), (2, 1)]) := by
  intro i
  match i with
  | 0 => rw [Equiv.swap_apply_left]; rfl
  | 1 => rw [Equiv.swap_apply_right]; rfl
  | n + 2 => rw [Equiv.swap_apply_of_ne_of_ne (by omega) (by omega)]; rfl

end Verif.Props
