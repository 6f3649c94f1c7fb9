import Verif.Proofs.SweepOrder
import Verif.Proofs.SweepCore
import Verif.Spec.Instances
import Verif.Props.Sweep
/-!
# C60, C61: the result of the sweep line algorithm does not depend on the hash set, and stopping at the first intersection gives
the first one

`order n l` is the order in which the hash set with the elements `l` is iterated when `n` rounds are left.
-/
set_option linter.unusedSectionVars false
set_option linter.unusedVariables false
set_option linter.unusedSimpArgs false
namespace Verif.Props
open Verif Verif.Spec Verif.Model Verif.Sweep Verif.Proofs.Intersect

section
variable {K : Type} [Scalar K] [Field K] [LinearOrder K] [ExactScalar K] [ExactSqrt K] {ι ι' : Type}

theorem evMap_same {A D : Nat → V2 K → Prop} {G : V2 K × ι → Prop} {G' : V2 K × ι' → Prop} {m : SiteMap K ι SiteEvent}
    {m' : SiteMap K ι' SiteEvent} (h : EvMap A D G m) (h' : EvMap A D G' m') : SameEv m m' := by
  constructor
  · intro p
    constructor
    · rintro ⟨e, he, rfl⟩
      rcases h.some e he with h0 | h0
      · obtain ⟨i, hi⟩ := List.exists_mem_of_ne_nil _ h0
        exact h'.all i _ (Or.inl ((h.add e he i).1 hi))
      · obtain ⟨i, hi⟩ := List.exists_mem_of_ne_nil _ h0
        exact h'.all i _ (Or.inr ((h.drop e he i).1 hi))
    · rintro ⟨e, he, rfl⟩
      rcases h'.some e he with h0 | h0
      · obtain ⟨i, hi⟩ := List.exists_mem_of_ne_nil _ h0
        exact h.all i _ (Or.inl ((h'.add e he i).1 hi))
      · obtain ⟨i, hi⟩ := List.exists_mem_of_ne_nil _ h0
        exact h.all i _ (Or.inr ((h'.drop e he i).1 hi))
  · intro p i
    constructor
    · rintro ⟨e, he, -, hi⟩; rw [h.inter e he] at hi; cases hi
    · rintro ⟨e, he, -, hi⟩; rw [h'.inter e he] at hi; cases hi

/-- a run of the plain version -/
theorem plain_run [TreeShape K] (order : Nat → List Nat → List Nat) (hord : ∀ n l, (order n l).Perm l) (ign stop : Bool)
    (input : List (Line2 K)) (fuel : Nat) (hf : 2 * input.length + input.length * input.length < fuel)
    {events : SiteMap K Unit SiteEvent}
    (hev : EvMap (Begins (input.map rearranged)) (Ends (input.map rearranged)) (fun _ => True) events) :
    ∃ s, sweepLoop (plainOps (input.map rearranged)) order ign stop fuel ⟨(), events, [], []⟩ = .ok s ∧
      (stop = true → s.result.length ≤ 1) := by
  have he := EvMap.einv (σ := Unit) (T := fun _ => True) (Valid := fun _ _ => True) (tab := ()) trivial hev
  have hinv := Inv.init ign he
  have hlen := sites_length (input.map rearranged)
  rw [List.length_map] at hlen
  obtain ⟨s, A, H, g1, g2, -, g4, g5⟩ := sweepLoop_ok (plainOps_ok (input.map rearranged)) (sound_of _)
    (fun sweep => sites_cand _ sweep) (stop := stop) hord (fun _ _ _ => True) (by intros; trivial) fuel _ _ _ hinv trivial
    (fun _ => rfl) (by simp only [List.length_nil]; omega)
  exact ⟨s, g1, g5⟩

/-- C60: `compute` gives the same result whatever the order in which the hash set of active lines is iterated, and whatever the
shapes `B`, `B'` of the search trees -/
theorem C60_independent_of_hash_order (B B' : TreeShape K) (order order' : Nat → List Nat → List Nat) (hord : ∀ n l, (order n l).Perm l)
    (hord' : ∀ n l, (order' n l).Perm l) (ign stop : Bool) (input : List (Line2 K)) (fuel fuel' : Nat)
    (hf : 2 * input.length + input.length * input.length < fuel)
    (hf' : 2 * input.length + input.length * input.length < fuel') :
    ∃ r, (haveI := B; sweepIntersections order fuel ign stop input = .ok r) ∧
      (haveI := B'; sweepIntersections order' fuel' ign stop input = .ok r) := by
  obtain ⟨d, h1, h2, h3, h4, h5⟩ := haveI := B; withLines_ok ign stop input
  obtain ⟨d', h1', h2', h3', h4', h5'⟩ := haveI := B'; withLines_ok ign stop input
  have hinv := Inv.init ign (EvMap.einv (σ := Unit) (T := fun _ => True) (Valid := fun _ _ => True) (tab := ()) trivial h5)
  have hinv' := Inv.init ign (EvMap.einv (σ := Unit) (T := fun _ => True) (Valid := fun _ _ => True) (tab := ()) trivial h5')
  obtain ⟨s, g1, -⟩ := haveI := B; plain_run order hord ign stop input fuel hf h5
  obtain ⟨s', g1', -⟩ := haveI := B'; plain_run order' hord' ign stop input fuel' hf' h5'
  have := sweepLoop_same B B' (plainOps_ok (input.map rearranged)) (plainOps_ok (input.map rearranged)) (sound_of _)
    (fun sweep => sites_cand _ sweep) hord hord' fuel fuel' _ _ _ _ _ hinv hinv' (evMap_same h5 h5') (fun p v => by simp) s s' g1 g1'
  refine ⟨plainResult s.result, ?_, ?_⟩
  · unfold sweepIntersections sweepCompute
    rw [h1]
    simp only [bind, Except.bind, h2, h3, h4, g1]
    rfl
  · unfold sweepIntersections sweepCompute
    rw [h1']
    simp only [bind, Except.bind, h2', h3', h4', g1']
    rw [this]
    rfl

/-- C60: neither does `is_self_intersecting` of a long line string -/
theorem C60_self_intersecting_independent (B B' : TreeShape K) (order order' : Nat → List Nat → List Nat) (hord : ∀ n l, (order n l).Perm l)
    (hord' : ∀ n l, (order' n l).Perm l) (line : List (V2 K)) (fuel fuel' : Nat)
    (hf : 2 * line.length + line.length * line.length < fuel)
    (hf' : 2 * line.length + line.length * line.length < fuel') :
    ∃ b, (haveI := B; isSelfIntersectingLong order fuel line = .ok b) ∧
      (haveI := B'; isSelfIntersectingLong order' fuel' line = .ok b) := by
  have hlen : (windowIter2 line).length ≤ line.length := by
    rw [windowIter2, List.length_map, Intersect.windows2_length]
    omega
  have hmul := Nat.mul_le_mul hlen hlen
  obtain ⟨r, h1, h2⟩ := C60_independent_of_hash_order B B' order order' hord hord' true true (windowIter2 line) fuel fuel' (by omega) (by omega)
  refine ⟨decide (r.length > 0), ?_, ?_⟩
  · unfold isSelfIntersectingLong; rw [h1]; rfl
  · unfold isSelfIntersectingLong; rw [h2]; rfl

/-- C61: with `stop_at_first_intersection` the result is the first entry of the full result (nothing if that is empty) -/
theorem C61_first_of_the_full_result [TreeShape K] (order order' : Nat → List Nat → List Nat) (hord : ∀ n l, (order n l).Perm l)
    (hord' : ∀ n l, (order' n l).Perm l) (ign : Bool) (input : List (Line2 K)) (fuel fuel' : Nat)
    (hf : 2 * input.length + input.length * input.length < fuel)
    (hf' : 2 * input.length + input.length * input.length < fuel') :
    ∃ r, sweepIntersections order fuel ign false input = .ok r ∧
      sweepIntersections order' fuel' ign true input = .ok (r.take 1) := by
  obtain ⟨r, e1, e2⟩ := C60_independent_of_hash_order inferInstance inferInstance order order' hord hord' ign false input fuel fuel' hf hf'
  refine ⟨r, e1, ?_⟩
  obtain ⟨d, h1, h2, h3, h4, h5⟩ := withLines_ok ign false input
  obtain ⟨d', k1, k2, k3, k4, k5⟩ := withLines_ok ign true input
  have hinv := Inv.init ign (EvMap.einv (σ := Unit) (T := fun _ => True) (Valid := fun _ _ => True) (tab := ()) trivial h5)
  have hinv' := Inv.init ign (EvMap.einv (σ := Unit) (T := fun _ => True) (Valid := fun _ _ => True) (tab := ()) trivial k5)
  obtain ⟨s, g1, -⟩ := plain_run order' hord' ign false input fuel' hf' h5
  obtain ⟨t, g2, g3⟩ := plain_run order' hord' ign true input fuel' hf' h5
  obtain ⟨t', g4, -⟩ := plain_run order' hord' ign true input fuel' hf' k5
  have x1 := sweepLoop_first (plainOps_ok (input.map rearranged)) (sound_of _) (fun sweep => sites_cand _ sweep) hord' fuel' _ _ _ hinv rfl
    t s g2 g1 (g3 rfl)
  have x2 := sweepLoop_same inferInstance inferInstance (plainOps_ok (input.map rearranged)) (plainOps_ok (input.map rearranged)) (sound_of _)
    (fun sweep => sites_cand _ sweep) hord' hord' fuel' fuel' _ _ _ _ _ hinv' hinv (evMap_same k5 h5) (fun p v => Iff.rfl) t' t g4 g2
  have x3 : r = plainResult s.result := by
    unfold sweepIntersections sweepCompute at e2
    rw [h1] at e2
    simp only [bind, Except.bind, h2, h3, h4, g1, Except.ok.injEq] at e2
    exact e2.symm
  unfold sweepIntersections sweepCompute
  rw [k1]
  simp only [bind, Except.bind, k2, k3, k4, g4]
  rw [x3, ← x1, ← x2]
  rfl

/-- a run of the indexed version -/
theorem indexed_run [TreeShape K] (order : Nat → List Nat → List Nat) (hord : ∀ n l, (order n l).Perm l) (ign stop : Bool)
    (vs : List (V2 K)) (z : V2 K) (edges : List (Nat × Nat)) (hE : ∀ e ∈ edges, EdgeOk vs e) (fuel : Nat)
    (hf : 2 * edges.length + edges.length * edges.length < fuel) {events : SiteMap K Nat SiteEvent}
    (hev : EvMap (Begins (edges.map (edgeLine vs z))) (Ends (edges.map (edgeLine vs z))) (IsVertex vs) events) :
    ∃ s, sweepLoop (indexedOps edges) order ign stop fuel ⟨vs, events, [], []⟩ = .ok s ∧
      (stop = true → s.result.length ≤ 1) ∧ ∀ x ∈ s.result, s.tab[x.1.2]? = some x.1.1 := by
  have he := EvMap.einv (σ := List (V2 K)) (T := fun tab => vs <+: tab) (Valid := IsVertex) (tab := vs) (List.prefix_refl _) hev
  have hinv := Inv.init ign he
  have hlen := sites_length (edges.map (edgeLine vs z))
  rw [List.length_map] at hlen
  obtain ⟨s, A, H, g1, g2, -, g4, g5⟩ := sweepLoop_ok (indexedOps_ok vs z edges hE) (sound_of _)
    (fun sweep => sites_cand _ sweep) (stop := stop) hord (fun _ _ _ => True) (by intros; trivial) fuel _ _ _ hinv trivial
    (fun _ => rfl) (by simp only [List.length_nil]; omega)
  refine ⟨s, g1, g5, ?_⟩
  intro x hx
  obtain ⟨h, hh, -, rfl⟩ := (g2.res x).1 hx
  exact (g2.hist h hh).2.1

/-- the vertices of a result, with the reported lines -/
def placed (tab : List (V2 K)) (r : List (Nat × List Nat)) : List (Option (V2 K) × List Nat) :=
  r.map (fun x => (tab[x.1]?, x.2))

theorem placed_eq {tab : List (V2 K)} {r : SiteMap K Nat (List Nat)} (h : ∀ x ∈ r, tab[x.1.2]? = some x.1.1) :
    placed tab (r.map (fun r => (r.1.2, r.2))) = (plainResult r).map (fun x => (some x.1, x.2)) := by
  unfold placed plainResult
  rw [List.map_map, List.map_map]
  refine List.map_congr_left fun x hx => ?_
  simp only [Function.comp, h x hx]

/-- C60, indexed version: the same positions with the same lines (the new vertices may be numbered differently) -/
theorem C60_indexed_independent_of_hash_order (B B' : TreeShape K) (order order' : Nat → List Nat → List Nat) (hord : ∀ n l, (order n l).Perm l)
    (hord' : ∀ n l, (order' n l).Perm l) (ign stop : Bool) (vs : List (V2 K)) (edges : List (Nat × Nat))
    (hin : ∀ e ∈ edges, e.1 < vs.length ∧ e.2 < vs.length) (fuel fuel' : Nat)
    (hf : 2 * edges.length + edges.length * edges.length < fuel)
    (hf' : 2 * edges.length + edges.length * edges.length < fuel') :
    ∃ tab r tab' r', (haveI := B; indexedSweepIntersections order fuel ign stop vs edges = .ok (tab, r)) ∧
      (haveI := B'; indexedSweepIntersections order' fuel' ign stop vs edges = .ok (tab', r')) ∧ placed tab r = placed tab' r' := by
  obtain ⟨d, h1, h2, h3, h4, h5, h6⟩ := haveI := B; withEdges_ok vs ⟨0, 0⟩ ign stop edges hin
  obtain ⟨d', h1', h2', h3', h4', h5', h6'⟩ := haveI := B'; withEdges_ok vs ⟨0, 0⟩ ign stop edges hin
  have hinv := Inv.init ign
    (EvMap.einv (σ := List (V2 K)) (T := fun tab => vs <+: tab) (Valid := IsVertex) (tab := vs) (List.prefix_refl _) h6)
  have hinv' := Inv.init ign
    (EvMap.einv (σ := List (V2 K)) (T := fun tab => vs <+: tab) (Valid := IsVertex) (tab := vs) (List.prefix_refl _) h6')
  obtain ⟨s, g1, -, g2⟩ := haveI := B; indexed_run order hord ign stop vs ⟨0, 0⟩ edges hin fuel hf h6
  obtain ⟨s', g1', -, g2'⟩ := haveI := B'; indexed_run order' hord' ign stop vs ⟨0, 0⟩ edges hin fuel' hf' h6'
  have := sweepLoop_same B B' (indexedOps_ok vs ⟨0, 0⟩ edges hin) (indexedOps_ok vs ⟨0, 0⟩ edges hin) (sound_of _)
    (fun sweep => sites_cand _ sweep) hord hord' fuel fuel' _ _ _ _ _ hinv hinv' (evMap_same h6 h6') (fun p v => by simp) s s' g1 g1'
  refine ⟨s.tab, s.result.map (fun r => (r.1.2, r.2)), s'.tab, s'.result.map (fun r => (r.1.2, r.2)), ?_, ?_, ?_⟩
  · unfold indexedSweepIntersections indexedSweepCompute
    rw [h1]
    simp only [bind, Except.bind, h2, h3, h4, h5, g1]
  · unfold indexedSweepIntersections indexedSweepCompute
    rw [h1']
    simp only [bind, Except.bind, h2', h3', h4', h5', g1']
  · rw [placed_eq g2, placed_eq g2', this]

/-- C61, indexed version -/
theorem C61_indexed_first_of_the_full_result [TreeShape K] (order order' : Nat → List Nat → List Nat) (hord : ∀ n l, (order n l).Perm l)
    (hord' : ∀ n l, (order' n l).Perm l) (ign : Bool) (vs : List (V2 K)) (edges : List (Nat × Nat))
    (hin : ∀ e ∈ edges, e.1 < vs.length ∧ e.2 < vs.length) (fuel fuel' : Nat)
    (hf : 2 * edges.length + edges.length * edges.length < fuel)
    (hf' : 2 * edges.length + edges.length * edges.length < fuel') :
    ∃ tab r tab' r', indexedSweepIntersections order fuel ign false vs edges = .ok (tab, r) ∧
      indexedSweepIntersections order' fuel' ign true vs edges = .ok (tab', r') ∧
      placed tab' r' = (placed tab r).take 1 := by
  obtain ⟨d, h1, h2, h3, h4, h5, h6⟩ := withEdges_ok vs ⟨0, 0⟩ ign false edges hin
  obtain ⟨d', k1, k2, k3, k4, k5, k6⟩ := withEdges_ok vs ⟨0, 0⟩ ign true edges hin
  have hinv := Inv.init ign
    (EvMap.einv (σ := List (V2 K)) (T := fun tab => vs <+: tab) (Valid := IsVertex) (tab := vs) (List.prefix_refl _) h6)
  have hinv' := Inv.init ign
    (EvMap.einv (σ := List (V2 K)) (T := fun tab => vs <+: tab) (Valid := IsVertex) (tab := vs) (List.prefix_refl _) k6)
  obtain ⟨s, g1, -, f1⟩ := indexed_run order hord ign false vs ⟨0, 0⟩ edges hin fuel hf h6
  obtain ⟨t, g2, g3, -⟩ := indexed_run order hord ign true vs ⟨0, 0⟩ edges hin fuel hf h6
  obtain ⟨t', g4, -, f2⟩ := indexed_run order' hord' ign true vs ⟨0, 0⟩ edges hin fuel' hf' k6
  have x1 := sweepLoop_first (indexedOps_ok vs ⟨0, 0⟩ edges hin) (sound_of _) (fun sweep => sites_cand _ sweep) hord fuel _ _ _ hinv rfl
    t s g2 g1 (g3 rfl)
  have x2 := sweepLoop_same inferInstance inferInstance (indexedOps_ok vs ⟨0, 0⟩ edges hin) (indexedOps_ok vs ⟨0, 0⟩ edges hin) (sound_of _)
    (fun sweep => sites_cand _ sweep) hord' hord fuel' fuel _ _ _ _ _ hinv' hinv (evMap_same k6 h6) (fun p v => Iff.rfl) t' t g4 g2
  refine ⟨s.tab, s.result.map (fun r => (r.1.2, r.2)), t'.tab, t'.result.map (fun r => (r.1.2, r.2)), ?_, ?_, ?_⟩
  · unfold indexedSweepIntersections indexedSweepCompute
    rw [h1]
    simp only [bind, Except.bind, h2, h3, h4, h5, g1]
  · unfold indexedSweepIntersections indexedSweepCompute
    rw [k1]
    simp only [bind, Except.bind, k2, k3, k4, k5, g4]
  · rw [placed_eq f1, placed_eq f2, x2, x1, List.map_take]

/-- C60: the plain and the indexed version find the same positions with the same lines if every edge goes upwards (from the
first to the second point in sweep order) -/
theorem C60_plain_and_indexed_agree (B B' : TreeShape K) (order order' : Nat → List Nat → List Nat) (hord : ∀ n l, (order n l).Perm l)
    (hord' : ∀ n l, (order' n l).Perm l) (ign stop : Bool) (vs : List (V2 K)) (edges : List (Nat × Nat)) (input : List (Line2 K))
    (hlen : input.length = edges.length)
    (hl : ∀ (i : Nat) (e : Nat × Nat) (l : Line2 K), edges[i]? = some e → input[i]? = some l →
      vs[e.1]? = some l.start ∧ vs[e.2]? = some l.end ∧ SweepBefore l.start l.end) (fuel fuel' : Nat)
    (hf : 2 * edges.length + edges.length * edges.length < fuel)
    (hf' : 2 * edges.length + edges.length * edges.length < fuel') :
    ∃ tab r r', (haveI := B; indexedSweepIntersections order fuel ign stop vs edges = .ok (tab, r)) ∧
      (haveI := B'; sweepIntersections order' fuel' ign stop input = .ok r') ∧ placed tab r = r'.map (fun x => (some x.1, x.2)) := by
  have hin : ∀ e ∈ edges, EdgeOk vs e := by
    intro e he
    obtain ⟨i, hi⟩ := List.mem_iff_getElem?.1 he
    have hi' : i < input.length := by rw [hlen]; exact (List.getElem?_eq_some_iff.1 hi).1
    obtain ⟨h1, h2, -⟩ := hl i e _ hi (List.getElem?_eq_getElem hi')
    exact ⟨(List.getElem?_eq_some_iff.1 h1).1, (List.getElem?_eq_some_iff.1 h2).1⟩
  have hL : edges.map (edgeLine vs ⟨0, 0⟩) = input.map rearranged := by
    refine List.ext_getElem? fun i => ?_
    rw [List.getElem?_map, List.getElem?_map]
    by_cases hi : i < input.length
    · have hi' : i < edges.length := by omega
      rw [List.getElem?_eq_getElem hi, List.getElem?_eq_getElem hi']
      obtain ⟨h1, h2, h3⟩ := hl i _ _ (List.getElem?_eq_getElem hi') (List.getElem?_eq_getElem hi)
      simp only [Option.map_some, Option.some_inj]
      unfold edgeLine rearranged lo Sweep.hi
      rw [h1, h2, if_pos (siteCmp_lt h3), if_pos (siteCmp_lt h3)]
      rfl
    · rw [List.getElem?_eq_none (by omega), List.getElem?_eq_none (by omega)]; rfl
  obtain ⟨d, h1, h2, h3, h4, h5, h6⟩ := haveI := B; withEdges_ok vs ⟨0, 0⟩ ign stop edges hin
  obtain ⟨d', k1, k2, k3, k4, k5⟩ := haveI := B'; withLines_ok ign stop input
  have hinv := Inv.init ign
    (EvMap.einv (σ := List (V2 K)) (T := fun tab => vs <+: tab) (Valid := IsVertex) (tab := vs) (List.prefix_refl _) h6)
  have hinv' := Inv.init ign (EvMap.einv (σ := Unit) (T := fun _ => True) (Valid := fun _ _ => True) (tab := ()) trivial k5)
  obtain ⟨s, g1, -, g2⟩ := haveI := B; indexed_run order hord ign stop vs ⟨0, 0⟩ edges hin fuel hf h6
  obtain ⟨s', g1', -⟩ := haveI := B'; plain_run order' hord' ign stop input fuel' (by rw [hlen]; exact hf') k5
  have ho := indexedOps_ok vs ⟨0, 0⟩ edges hin
  rw [hL] at ho h6 hinv
  have := sweepLoop_same B B' ho (plainOps_ok (input.map rearranged)) (sound_of _)
    (fun sweep => sites_cand _ sweep) hord hord' fuel fuel' _ _ _ _ _ hinv hinv' (evMap_same h6 k5) (fun p v => by simp) s s' g1 g1'
  refine ⟨s.tab, s.result.map (fun r => (r.1.2, r.2)), plainResult s'.result, ?_, ?_, ?_⟩
  · unfold indexedSweepIntersections indexedSweepCompute
    rw [h1]
    simp only [bind, Except.bind, h2, h3, h4, h5, g1]
  · unfold sweepIntersections sweepCompute
    rw [k1]
    simp only [bind, Except.bind, k2, k3, k4, g1']
    rfl
  · rw [placed_eq g2, this]

end

/-- the hash set iterated backwards -/
def backwards (_ : Nat) (l : List Nat) : List Nat := l.reverse

/-- C60, C61: five lines with three crossings, two orders of the hash set, and the run that stops -/
example : ∀ T ∈ shapes, haveI : TreeShape FQ := T
    sweepIntersections keepOrder 50 false false [seg 0 0 4 4, seg 4 0 0 4, seg 1 (-1) 1 6, seg 3 (-2) 3 7, seg (-1) 1 (-2) 9] =
      .ok [(⟨.fin 1, .fin 1⟩, [0, 2]), (⟨.fin 3, .fin 1⟩, [1, 3]), (⟨.fin 2, .fin 2⟩, [0, 1]), (⟨.fin 1, .fin 3⟩, [1, 2]),
        (⟨.fin 3, .fin 3⟩, [0, 3])] ∧
    sweepIntersections backwards 50 false false [seg 0 0 4 4, seg 4 0 0 4, seg 1 (-1) 1 6, seg 3 (-2) 3 7, seg (-1) 1 (-2) 9] =
      .ok [(⟨.fin 1, .fin 1⟩, [0, 2]), (⟨.fin 3, .fin 1⟩, [1, 3]), (⟨.fin 2, .fin 2⟩, [0, 1]), (⟨.fin 1, .fin 3⟩, [1, 2]),
        (⟨.fin 3, .fin 3⟩, [0, 3])] ∧
    sweepIntersections backwards 50 false true [seg 0 0 4 4, seg 4 0 0 4, seg 1 (-1) 1 6, seg 3 (-2) 3 7, seg (-1) 1 (-2) 9] =
      .ok [(⟨.fin 1, .fin 1⟩, [0, 2])] := by decide +kernel

/-- both orders are permutations -/
example : (∀ n l, (keepOrder n l).Perm l) ∧ ∀ n l, (backwards n l).Perm l := ⟨fun _ _ => .refl _, fun _ l => l.reverse_perm⟩

end Verif.Props
