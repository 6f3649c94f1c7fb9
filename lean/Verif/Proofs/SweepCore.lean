import Verif.Proofs.SweepInit
/-!
# The sweep line algorithm: what a finished run knows
-/
set_option linter.unusedSectionVars false
set_option linter.unusedVariables false
set_option linter.unusedSimpArgs false
namespace Verif.Sweep
open Verif Verif.Spec Verif.Model Verif.Proofs.Intersect

section
variable {K : Type} [Scalar K] [Field K] [LinearOrder K] [ExactScalar K] [ExactSqrt K] {ι σ V : Type}

/-- everything the invariant says about the result of the lines `L` -/
structure Final (L : List (Line2 K)) (ign stop : Bool) (H : SiteMap K ι SiteEvent) (res : SiteMap K ι (List Nat)) : Prop where
  sorted : Sorted res
  few : stop = true → res.length ≤ 1
  hist : ∀ h ∈ H, EvOk L h.1.1 h.2
  res : ∀ r, r ∈ res ↔ ∃ h ∈ H, Reportable ign h.2 ∧ r = (h.1, allAt h.2)
  ends : stop = false → ∀ (i : Nat) (l : Line2 K), L[i]? = some l → ∀ p, (p = l.start ∨ p = l.end) → ∃ h ∈ H, h.1.1 = p

theorem final_of {L : List (Line2 K)} {T : σ → Prop} {Valid : σ → V2 K × ι → Prop} {Q : List (V2 K)} {ign stop : Bool}
    {After : V2 K → Prop} {H : SiteMap K ι SiteEvent} {s : SweepState K ι σ} (h : Inv L T Valid Q ign After H s)
    (h1 : s.events = [] ∨ (stop = true ∧ s.result ≠ [])) (h2 : stop = true → s.result.length ≤ 1) :
    Final L ign stop H s.result := by
  refine ⟨h.resSorted, h2, fun e he => (h.hist e he).2.2.1, h.res, ?_⟩
  intro hst i l hl p hp
  rw [ends_iff] at hp
  refine h.histEnds i l hl p hp fun ha => ?_
  obtain ⟨e, he, -⟩ := h.einv.ends i l hl p hp ha
  rcases h1 with h1 | ⟨h1, -⟩
  · simp only [h1] at he; cases he
  · rw [hst] at h1; cases h1

theorem plain_core [TreeShape K] (order : Nat → List Nat → List Nat) (hord : ∀ n l, (order n l).Perm l) (ign stop : Bool)
    (input : List (Line2 K)) (fuel : Nat) (hf : 2 * input.length + input.length * input.length < fuel) :
    ∃ r H, sweepIntersections order fuel ign stop input = .ok (r.map (fun r => (r.1.1, r.2))) ∧
      Final (ι := Unit) (input.map rearranged) ign stop H r := by
  obtain ⟨d, h1, h2, h3, h4, h5⟩ := withLines_ok ign stop input
  have he := EvMap.einv (σ := Unit) (T := fun _ => True) (Valid := fun _ _ => True) (tab := ()) trivial h5
  have hinv := Inv.init ign he
  have hlen := sites_length (input.map rearranged)
  rw [List.length_map] at hlen
  obtain ⟨s, A, H, g1, g2, -, g4, g5⟩ := sweepLoop_ok (plainOps_ok (input.map rearranged)) (sound_of _)
    (fun sweep => sites_cand _ sweep) (stop := stop) hord (fun _ _ _ => True) (by intros; trivial) fuel _ _ _ hinv trivial
    (fun _ => rfl) (by simp only [List.length_nil]; omega)
  refine ⟨s.result, H, ?_, final_of g2 g4 g5⟩
  unfold sweepIntersections sweepCompute
  rw [h1]
  simp only [bind, Except.bind, h2, h3, h4, g1]

theorem indexed_core [TreeShape K] (order : Nat → List Nat → List Nat) (hord : ∀ n l, (order n l).Perm l) (ign stop : Bool)
    (vs : List (V2 K)) (z : V2 K) (edges : List (Nat × Nat)) (hE : ∀ e ∈ edges, EdgeOk vs e) (fuel : Nat)
    (hf : 2 * edges.length + edges.length * edges.length < fuel) :
    ∃ tab r H, indexedSweepIntersections order fuel ign stop vs edges = .ok (tab, r.map (fun r => (r.1.2, r.2))) ∧
      vs <+: tab ∧ (∀ x ∈ r, tab[x.1.2]? = some x.1.1) ∧
      Final (ι := Nat) (edges.map (edgeLine vs z)) ign stop H r := by
  obtain ⟨d, h1, h2, h3, h4, h5, h6⟩ := withEdges_ok vs z ign stop edges hE
  have he := EvMap.einv (σ := List (V2 K)) (T := fun tab => vs <+: tab) (Valid := IsVertex) (tab := vs) (List.prefix_refl _) h6
  have hinv := Inv.init ign he
  have hlen := sites_length (edges.map (edgeLine vs z))
  rw [List.length_map] at hlen
  obtain ⟨s, A, H, g1, g2, -, g4, g5⟩ := sweepLoop_ok (indexedOps_ok vs z edges hE) (sound_of _)
    (fun sweep => sites_cand _ sweep) (stop := stop) hord (fun _ _ _ => True) (by intros; trivial) fuel _ _ _ hinv trivial
    (fun _ => rfl) (by simp only [List.length_nil]; omega)
  refine ⟨s.tab, s.result, H, ?_, g2.einv.tab, ?_, final_of g2 g4 g5⟩
  · unfold indexedSweepIntersections indexedSweepCompute
    rw [h1]
    simp only [bind, Except.bind, h2, h3, h4, h5, g1]
  · intro x hx
    obtain ⟨h, hh, -, rfl⟩ := (g2.res x).1 hx
    exact (g2.hist h hh).2.1

/-! ## consequences -/

theorem mem_allAt (e : SiteEvent) (i : Nat) : i ∈ allAt e ↔ i ∈ e.drop ∨ i ∈ e.add ∨ i ∈ e.inter := by
  unfold allAt
  rw [List.mem_insertionSort, List.mem_append, List.mem_append]

theorem allAt_length (e : SiteEvent) : (allAt e).length = e.drop.length + e.add.length + e.inter.length := by
  unfold allAt
  rw [List.length_insertionSort, List.length_append, List.length_append]; omega

theorem EvOk.on {L : List (Line2 K)} {p : V2 K} {e : SiteEvent} (h : EvOk L p e) {i : Nat} (hi : i ∈ allAt e) :
    ∃ l, L[i]? = some l ∧ OnSegment2 l.start l.end p := by
  rcases (mem_allAt e i).1 hi with hi | hi | hi
  · obtain ⟨l, hl, hp⟩ := (h.drop i).1 hi
    exact ⟨l, hl, hp ▸ on_hi l⟩
  · obtain ⟨l, hl, hp⟩ := (h.add i).1 hi
    exact ⟨l, hl, hp ▸ on_lo l⟩
  · obtain ⟨l, hl, hp, -⟩ := h.inter i hi
    exact ⟨l, hl, hp⟩

theorem EvOk.end_mem {L : List (Line2 K)} {p : V2 K} {e : SiteEvent} (h : EvOk L p e) {i : Nat} {l : Line2 K}
    (hl : L[i]? = some l) (hp : p = l.start ∨ p = l.end) : i ∈ e.drop ∨ i ∈ e.add := by
  rw [ends_iff] at hp
  rcases hp with hp | hp
  · exact Or.inr ((h.add i).2 ⟨l, hl, hp.symm⟩)
  · exact Or.inl ((h.drop i).2 ⟨l, hl, hp.symm⟩)

theorem two_of_mem {a b : List Nat} {i j : Nat} (hij : i ≠ j) (hi : i ∈ a ∨ i ∈ b) (hj : j ∈ a ∨ j ∈ b) :
    2 ≤ a.length + b.length := by
  have : [i, j] ⊆ a ++ b := by
    intro k hk
    rw [List.mem_append]
    simp at hk
    rcases hk with rfl | rfl
    · exact hi
    · exact hj
  have hnd : [i, j].Nodup := by simp [hij]
  have := (hnd.subperm this).length_le
  simpa using this

/-- two lines with a common end point are reported together, if end points count -/
theorem Final.shared {L : List (Line2 K)} {H : SiteMap K ι SiteEvent} {res : SiteMap K ι (List Nat)}
    (h : Final L false false H res) {i j : Nat} (hij : i ≠ j) {l m : Line2 K} (hl : L[i]? = some l) (hm : L[j]? = some m)
    {p : V2 K} (hp : p = l.start ∨ p = l.end) (hp' : p = m.start ∨ p = m.end) :
    ∃ r ∈ res, r.1.1 = p ∧ i ∈ r.2 ∧ j ∈ r.2 := by
  obtain ⟨e, he, rfl⟩ := h.ends rfl i l hl p hp
  have hE := h.hist e he
  have h1 := hE.end_mem hl hp
  have h2 := hE.end_mem hm hp'
  refine ⟨(e.1, allAt e.2), (h.res _).2 ⟨e, he, ?_, rfl⟩, rfl, ?_, ?_⟩
  · have := two_of_mem hij h1 h2
    unfold Reportable
    simp only [Bool.false_eq_true, if_false]
    omega
  · rw [mem_allAt]; tauto
  · rw [mem_allAt]; tauto

/-- the lines at an event that do not begin and end there are different -/
theorem EvOk.nodup {L : List (Line2 K)} {p : V2 K} {e : SiteEvent} (h : EvOk L p e)
    (hz : ∀ i ∈ allAt e, ∀ l, L[i]? = some l → l.start ≠ l.end) : (allAt e).Nodup := by
  unfold allAt
  refine (List.perm_insertionSort _ _).nodup_iff.2 ?_
  refine List.Nodup.append h.dropN (List.Nodup.append h.addN h.interN ?_) ?_
  · intro i hi hi'
    obtain ⟨l, hl, hp⟩ := (h.add i).1 hi
    obtain ⟨l', hl', -, hne⟩ := h.inter i hi'
    rw [hl] at hl'
    simp only [Option.some_inj] at hl'
    subst hl'
    have := (ends_iff l p).2 (Or.inl hp.symm)
    tauto
  · intro i hi hi'
    obtain ⟨l, hl, hp⟩ := (h.drop i).1 hi
    rcases List.mem_append.1 hi' with hi' | hi'
    · obtain ⟨l', hl', hp'⟩ := (h.add i).1 hi'
      rw [hl] at hl'
      simp only [Option.some_inj] at hl'
      subst hl'
      refine hz i ((mem_allAt e i).2 (Or.inl hi)) l hl ?_
      rcases (lo_hi l).2 with ⟨h1, h2⟩ | ⟨h1, h2⟩
      · rw [← h1, ← h2, hp, hp']
      · rw [← h1, ← h2, hp, hp']
    · obtain ⟨l', hl', -, hne⟩ := h.inter i hi'
      rw [hl] at hl'
      simp only [Option.some_inj] at hl'
      subst hl'
      have := (ends_iff l p).2 (Or.inr hp.symm)
      tauto

/-- an event with a line through its interior has a second line -/
theorem EvOk.interior {L : List (Line2 K)} {p : V2 K} {e : SiteEvent} (h : EvOk L p e) (hne : e.inter ≠ []) :
    ∃ i j, i ≠ j ∧ i ∈ allAt e ∧ j ∈ allAt e ∧ ∃ l, L[i]? = some l ∧ OnSegment2 l.start l.end p ∧ p ≠ l.start ∧ p ≠ l.end := by
  obtain ⟨i, hi⟩ := List.exists_mem_of_ne_nil _ hne
  obtain ⟨l, hl, hint⟩ := h.inter i hi
  have hi' : i ∈ allAt e := (mem_allAt e i).2 (Or.inr (Or.inr hi))
  have hend : i ∉ e.add ∧ i ∉ e.drop := by
    constructor
    · intro h'
      obtain ⟨l', hl', hp'⟩ := (h.add i).1 h'
      rw [hl] at hl'
      simp only [Option.some_inj] at hl'
      subst hl'
      have := (ends_iff l p).2 (Or.inl hp'.symm)
      have := hint.2
      tauto
    · intro h'
      obtain ⟨l', hl', hp'⟩ := (h.drop i).1 h'
      rw [hl] at hl'
      simp only [Option.some_inj] at hl'
      subst hl'
      have := (ends_iff l p).2 (Or.inr hp'.symm)
      have := hint.2
      tauto
  by_cases ha : e.add = []
  · by_cases hd : e.drop = []
    · have h2 := h.two ha hd
      have hN := h.interN
      match hli : e.inter with
      | [] => rw [hli] at h2; simp at h2
      | [a] => rw [hli] at h2; simp at h2
      | a :: b :: t =>
        rw [hli] at hN
        have hab : a ≠ b := by
          rintro rfl; simp at hN
        have hma : a ∈ e.inter := by rw [hli]; simp
        have hmb : b ∈ e.inter := by rw [hli]; simp
        obtain ⟨l, hl, hint⟩ := h.inter a hma
        exact ⟨a, b, hab, (mem_allAt e a).2 (Or.inr (Or.inr hma)), (mem_allAt e b).2 (Or.inr (Or.inr hmb)), l, hl, hint.1, hint.2.1, hint.2.2⟩
    · obtain ⟨j, hj⟩ := List.exists_mem_of_ne_nil _ hd
      refine ⟨i, j, ?_, hi', (mem_allAt e j).2 (Or.inl hj), l, hl, hint.1, hint.2.1, hint.2.2⟩
      rintro rfl; exact hend.2 hj
  · obtain ⟨j, hj⟩ := List.exists_mem_of_ne_nil _ ha
    refine ⟨i, j, ?_, hi', (mem_allAt e j).2 (Or.inr (Or.inl hj)), l, hl, hint.1, hint.2.1, hint.2.2⟩
    rintro rfl; exact hend.1 hj

/-- what a reported event says -/
theorem Final.entry {L : List (Line2 K)} {ign stop : Bool} {H : SiteMap K ι SiteEvent} {res : SiteMap K ι (List Nat)}
    (h : Final L ign stop H res) {r : (V2 K × ι) × List Nat} (hr : r ∈ res) :
    (∀ i ∈ r.2, ∃ l, L[i]? = some l ∧ OnSegment2 l.start l.end r.1.1) ∧ 2 ≤ r.2.length ∧ r.2.Pairwise (· ≤ ·) ∧
    ((∀ i ∈ r.2, ∀ l, L[i]? = some l → l.start ≠ l.end) → r.2.Nodup) ∧
    (ign = true → ∃ i j, i ≠ j ∧ i ∈ r.2 ∧ j ∈ r.2 ∧
      ∃ l, L[i]? = some l ∧ OnSegment2 l.start l.end r.1.1 ∧ r.1.1 ≠ l.start ∧ r.1.1 ≠ l.end) := by
  obtain ⟨e, he, hrep, rfl⟩ := (h.res r).1 hr
  have hE := h.hist e he
  simp only
  refine ⟨fun i hi => hE.on hi, ?_, List.pairwise_insertionSort _ _, hE.nodup, ?_⟩
  · unfold Reportable at hrep
    split at hrep
    · obtain ⟨i, j, hij, hi, hj, -⟩ := hE.interior hrep
      have : [i, j] ⊆ allAt e.2 := by
        intro k hk
        simp at hk
        rcases hk with rfl | rfl
        · exact hi
        · exact hj
      have hnd : [i, j].Nodup := by simp [hij]
      simpa using (hnd.subperm this).length_le
    · rw [allAt_length]; omega
  · rintro rfl
    unfold Reportable at hrep
    simp only [if_true] at hrep
    exact hE.interior hrep

end
end Verif.Sweep
