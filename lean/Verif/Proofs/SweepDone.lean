import Verif.Proofs.SweepStep
import Verif.Proofs.SweepCore
/-!
# The sweep line algorithm in general position: all crossings are found
-/
set_option linter.unusedSectionVars false
set_option linter.unusedVariables false
set_option linter.unusedSimpArgs false
namespace Verif.Sweep
open Verif Verif.Spec Verif.Model Verif.Proofs.Intersect

section
variable {K : Type} [Scalar K] [Field K] [LinearOrder K] [ExactScalar K] [ExactSqrt K] {ι σ V : Type}
variable {L : List (Line2 K)}

/-- the crossings that are not still to come have been handled -/
def Done (L : List (Line2 K)) (After : V2 K → Prop) (H : SiteMap K ι SiteEvent) : Prop :=
  ∀ i j l m p, i ≠ j → L[i]? = some l → L[j]? = some m → IsOn l p → IsOn m p → ¬ IsEnd l p → ¬ After p →
    ∃ h ∈ H, h.1.1 = p ∧ i ∈ h.2.inter ∧ (j ∈ h.2.inter ∨ j ∈ h.2.drop)

/-- what is known about the last event -/
def Last (L : List (Line2 K)) (After : V2 K → Prop) (s : SweepState K ι σ) : SiteMap K ι SiteEvent → Prop
  | [] => After = fun _ => True
  | h :: _ => After = SweepBefore h.1.1 ∧ Adj L h.1.1 s.active s.events

/-- the invariant in general position -/
def GInv (L : List (Line2 K)) (After : V2 K → Prop) (H : SiteMap K ι SiteEvent) (s : SweepState K ι σ) : Prop :=
  Last L After s H ∧ Done L After H

variable {T : σ → Prop} {Valid : σ → V2 K × ι → Prop} {Q : List (V2 K)} {ign : Bool}

theorem Inv.act_gp (gp : SweepPosition L) {After : V2 K → Prop} {H : SiteMap K ι SiteEvent} {s : SweepState K ι σ}
    (h : Inv L T Valid Q ign After H s) (i : Nat) :
    i ∈ s.active ↔ ∃ l, L[i]? = some l ∧ ¬ After (lo l) ∧ After (hi l) := by
  rw [h.act]
  constructor
  · rintro ⟨l, hl, h1, h2 | h2⟩
    · exact ⟨l, hl, h1, h2⟩
    · have := lo_y (gp.slanted l (List.mem_of_getElem? hl))
      rw [h2] at this
      exact absurd this (lt_irrefl _)
  · rintro ⟨l, hl, h1, h2⟩
    exact ⟨l, hl, h1, Or.inl h2⟩

theorem GInv.step [TreeShape K] {ops : SweepOps K ι σ} (gp : SweepPosition L) {After : V2 K → Prop} {H : SiteMap K ι SiteEvent} {s s' : SweepState K ι σ}
    {key : V2 K × ι} {e : SiteEvent} {rest : SiteMap K ι SiteEvent} {order : List Nat → List Nat} (hord : ∀ l, (order l).Perm l)
    (h : Inv L T Valid Q ign After H s) (hg : GInv L After H s) (hev : s.events = (key, e) :: rest)
    (h' : Inv L T Valid Q ign (SweepBefore key.1) ((key, e) :: H) s') (hf : StepFacts ops L order key e rest s s') :
    GInv L (SweepBefore key.1) ((key, e) :: H) s' := by
  have hk : (key, e) ∈ s.events := hev ▸ List.mem_cons_self
  have hsorted := h.einv.sorted
  simp only [hev] at hsorted
  obtain ⟨hs1, hs2⟩ := List.pairwise_cons.1 hsorted
  have hafter : After key.1 := h.einv.after _ hk
  have hE : EvOk L key.1 e := h.einv.ev _ hk
  have hcome : ∀ (i : Nat) (l : Line2 K), L[i]? = some l → ∀ p, (p = lo l ∨ p = hi l) → After p →
      p = key.1 ∨ SweepBefore key.1 p := by
    intro i l hl p hp ha
    obtain ⟨e0, he0, hp0⟩ := h.einv.ends i l hl p hp ha
    simp only [hev] at he0
    rcases List.mem_cons.1 he0 with rfl | he0
    · exact Or.inl hp0.symm
    · exact Or.inr (hp0 ▸ hs1 e0 he0)
  have hq : ∀ p i, Queued s.events p i → (p = key.1 ∧ i ∈ e.inter) ∨ (SweepBefore key.1 p ∧ Queued rest p i) := by
    rintro p i ⟨e0, he0, hp0, hi0⟩
    rw [hev] at he0
    rcases List.mem_cons.1 he0 with rfl | he0
    · exact Or.inl ⟨hp0.symm, hi0⟩
    · exact Or.inr ⟨hp0 ▸ hs1 e0 he0, e0, he0, hp0, hi0⟩
  have hends : ∀ i ∈ s.active, ∀ l, L[i]? = some l → hi l = key.1 ∨ SweepBefore key.1 (hi l) := by
    intro i hi l hl
    obtain ⟨l', hl', -, h2⟩ := (h.act_gp gp i).1 hi
    obtain rfl := some_eq hl' hl
    exact hcome i l' hl _ (Or.inr rfl) h2
  have hprev : s.active = [] ∨ ∃ k0, After = SweepBefore k0 ∧ Special L k0 ∧ SweepBefore k0 key.1 ∧
      (∀ i, i ∈ s.active ↔ ∃ l, Act L k0 i l) ∧ Adj L k0 s.active s.events := by
    cases H with
    | nil =>
      left
      have hA : After = fun _ => True := hg.1
      rw [List.eq_nil_iff_forall_not_mem]
      intro i hi
      obtain ⟨l, hl, h1, -⟩ := (h.act_gp gp i).1 hi
      rw [hA] at h1
      exact h1 trivial
    | cons h0 H =>
      right
      obtain ⟨hA, hadj⟩ := hg.1
      refine ⟨h0.1.1, hA, event_special (h.hist h0 List.mem_cons_self).2.2.1, by rw [← hA]; exact hafter, ?_, hadj⟩
      intro i
      rw [h.act_gp gp i, hA]
      exact ⟨fun ⟨l, h1, h2, h3⟩ => ⟨l, h1, h2, h3⟩, fun ⟨l, h1, h2, h3⟩ => ⟨l, h1, h2, h3⟩⟩
  obtain ⟨act, hact⟩ : ∃ a, s.active.filter (fun i => !e.drop.contains i) = a := ⟨_, rfl⟩
  have hactm : ∀ i, i ∈ act ↔ i ∈ s.active ∧ i ∉ e.drop := by
    intro i
    rw [← hact, List.mem_filter]
    simp
  have c : Ctx L key.1 e s.events rest s'.events s.active s'.active (order act) := by
    refine ⟨gp, hE, ?_, hends, hq, ?_, ?_, ?_, ?_, ?_, hf.grow, ?_, ?_⟩
    · rcases hprev with h0 | ⟨k0, -, h0⟩
      · exact Or.inl h0
      · exact Or.inr ⟨k0, h0⟩
    · intro i
      rw [h'.act_gp gp i]
      exact ⟨fun ⟨l, h1, h2, h3⟩ => ⟨l, h1, h2, h3⟩, fun ⟨l, h1, h2, h3⟩ => ⟨l, h1, h2, h3⟩⟩
    · intro i l hAl
      by_cases hlk : lo l = key.1
      · exact Or.inl hlk
      · right
        refine ⟨(h.act_gp gp i).2 ⟨l, hAl.get, ?_, h.up _ _ hafter hAl.hi⟩, ?_⟩
        · intro ha
          rcases hcome i l hAl.get _ (Or.inl rfl) ha with h4 | h4
          · exact hlk h4
          · exact hAl.lo h4
        · intro hd
          obtain ⟨l', hl', hp⟩ := (hE.drop i).1 hd
          obtain rfl := some_eq hl' hAl.get
          have := hAl.hi
          rw [hp] at this
          exact before_irrefl _ this
    · intro i hiA hd
      obtain ⟨l, hl, h1, h2⟩ := (h.act_gp gp i).1 hiA
      refine (h'.act_gp gp i).2 ⟨l, hl, fun hb => h1 (h.up _ _ hafter hb), ?_⟩
      rcases hends i hiA l hl with h3 | h3
      · exact absurd ((hE.drop i).2 ⟨l, hl, h3⟩) hd
      · exact h3
    · refine (hord act).nodup_iff.2 ?_
      rw [← hact]; exact h.actN.filter _
    · intro i
      rw [(hord act).mem_iff, hactm]
    · intro i hd
      obtain ⟨l, hl, hp⟩ := (hE.drop i).1 hd
      have hlo := lo_y (gp.slanted l (List.mem_of_getElem? hl))
      rw [hp] at hlo
      refine (h.act_gp gp i).2 ⟨l, hl, fun ha => ?_, hp ▸ hafter⟩
      rcases hcome i l hl _ (Or.inl rfl) ha with h4 | h4
      · rw [h4] at hlo; exact lt_irrefl _ hlo
      · exact not_lt.2 (before_y h4) hlo
    · have := hf.found
      rw [hact] at this
      exact this
  refine ⟨⟨rfl, c.adj⟩, ?_⟩
  intro i j l m p hij hl hm hpl hpm hnl hnb
  by_cases ha : After p
  · have hpk : p = key.1 ∨ SweepBefore p key.1 := by
      rcases before_total p key.1 with hb | hb | hb
      · exact Or.inr hb
      · exact Or.inl hb
      · exact absurd hb hnb
    have hmem : ∀ (i : Nat) (l : Line2 K), L[i]? = some l → IsOn l p → p ≠ lo l → i ∈ s.active := by
      intro i l hl hpl hnl
      have hsl := gp.slanted l (List.mem_of_getElem? hl)
      have g1 := above_lo hsl hpl hnl
      refine (h.act_gp gp i).2 ⟨l, hl, fun hal => ?_, ?_⟩
      · rcases hcome i l hl _ (Or.inl rfl) hal with h4 | h4
        · exact hnb (h4 ▸ Or.inl g1)
        · exact hnb (before_trans h4 (Or.inl g1))
      · by_cases hph : p = hi l
        · exact hph ▸ ha
        · have hne : ¬ IsEnd l p := by rw [IsEnd, ends_iff]; tauto
          exact h.up _ _ ha (Or.inl (on_strict hsl hpl hne).2)
    have hi := hmem i l hl hpl (by rintro rfl; exact hnl (lo_isEnd l))
    have hj := hmem j m hm hpm (by
      rintro rfl
      exact hnl (gp.noT j i m l _ hij.symm hm hl hpl (lo_isFirst (gp.slanted m (List.mem_of_getElem? hm)))))
    rcases hprev with h0 | ⟨k0, hA, hk0, hkk, hact0, hadj⟩
    · rw [h0] at hi; cases hi
    · have hTi : Through L s.active i p := ⟨hi, l, hl, hpl, hnl⟩
      have hMj : Meets L s.active j p := ⟨hj, m, hm, hpm⟩
      have hfc := first_crossing gp hk0 hact0 hadj (k' := key.1)
        (fun n o ho => hends n ((hact0 n).2 ⟨o, ho⟩) o ho.get)
        (fun q n hqn => by
          rcases hq q n hqn with h1 | h1
          · exact Or.inl h1.1
          · exact Or.inr h1.1) (p := p) ⟨i, j, hij, hTi, hMj⟩ (by rw [← hA]; exact ha) hpk
      have hin : ∀ n, Through L s.active n p → n ∈ e.inter := by
        intro n hn
        rcases hq p n (hfc.2 n hn) with h1 | h1
        · exact h1.2
        · rw [hfc.1] at h1; exact absurd h1.1 (before_irrefl _)
      refine ⟨(key, e), List.mem_cons_self, hfc.1.symm, hin i hTi, ?_⟩
      by_cases hnm : IsEnd m p
      · right
        rw [IsEnd, ends_iff] at hnm
        rcases hnm with hnm | hnm
        · rw [hnm] at hpl hnl
          exact absurd (gp.noT j i m l _ hij.symm hm hl hpl (lo_isFirst (gp.slanted m (List.mem_of_getElem? hm)))) hnl
        · exact (hE.drop j).2 ⟨m, hm, hnm.symm.trans hfc.1⟩
      · exact Or.inl (hin j ⟨hj, m, hm, hpm, hnm⟩)
  · obtain ⟨h0, hh0, g⟩ := hg.2 i j l m p hij hl hm hpl hpm hnl ha
    exact ⟨h0, List.mem_cons_of_mem _ hh0, g⟩

theorem GInv.init (s : SweepState K ι σ) : GInv L (fun _ => True) [] s :=
  ⟨rfl, fun i j l m p _ _ _ _ _ _ h => absurd trivial h⟩

/-- the crossings that a finished run has handled -/
structure Complete (L : List (Line2 K)) (ign stop : Bool) (H : SiteMap K ι SiteEvent) (res : SiteMap K ι (List Nat)) : Prop where
  cross : (stop = false ∨ res = []) → ∀ i j l m p, i ≠ j → L[i]? = some l → L[j]? = some m → IsOn l p → IsOn m p → ¬ IsEnd l p →
    ∃ h ∈ H, h.1.1 = p ∧ i ∈ h.2.inter ∧ (j ∈ h.2.inter ∨ j ∈ h.2.drop)
  /-- what has been reported is the first part of what happens -/
  first : ∀ r ∈ res, ∀ i j l m p, i ≠ j → L[i]? = some l → L[j]? = some m → IsOn l p → IsOn m p → ¬ IsEnd l p →
    ¬ SweepBefore r.1.1 p → ∃ h ∈ H, h.1.1 = p ∧ i ∈ h.2.inter ∧ (j ∈ h.2.inter ∨ j ∈ h.2.drop)

theorem complete_of (gp : SweepPosition L) {stop : Bool} {After : V2 K → Prop} {H : SiteMap K ι SiteEvent} {s : SweepState K ι σ}
    (h : Inv L T Valid Q ign After H s) (hg : GInv L After H s)
    (h1 : s.events = [] ∨ (stop = true ∧ s.result ≠ [])) : Complete L ign stop H s.result := by
  constructor
  · intro hst i j l m p hij hl hm hpl hpm hnl
    refine hg.2 i j l m p hij hl hm hpl hpm hnl fun ha => ?_
    have g2 := (on_strict (gp.slanted l (List.mem_of_getElem? hl)) hpl hnl).2
    obtain ⟨e, he, -⟩ := h.einv.ends i l hl _ (Or.inr rfl) (h.up _ _ ha (Or.inl g2))
    rcases h1 with h1 | ⟨h1, h2⟩
    · simp only [h1] at he; cases he
    · rcases hst with hst | hst
      · rw [hst] at h1; cases h1
      · exact h2 hst
  · intro r hr i j l m p hij hl hm hpl hpm hnl hb
    refine hg.2 i j l m p hij hl hm hpl hpm hnl fun ha => ?_
    obtain ⟨h0, hh0, -, rfl⟩ := (h.res r).1 hr
    have := (h.hist h0 hh0).1
    rcases before_total h0.1.1 p with h3 | h3 | h3
    · exact hb h3
    · exact this (h3 ▸ ha)
    · exact this (h.up _ _ ha h3)

theorem plain_complete [TreeShape K] (order : Nat → List Nat → List Nat) (hord : ∀ n l, (order n l).Perm l) (ign stop : Bool)
    (input : List (Line2 K)) (gp : SweepPosition (input.map rearranged)) (fuel : Nat)
    (hf : 2 * input.length + input.length * input.length < fuel) :
    ∃ r H, sweepIntersections order fuel ign stop input = .ok (r.map (fun r => (r.1.1, r.2))) ∧
      Final (ι := Unit) (input.map rearranged) ign stop H r ∧ Complete (input.map rearranged) ign stop H r := by
  obtain ⟨d, h1, h2, h3, h4, h5⟩ := withLines_ok ign stop input
  have he := EvMap.einv (σ := Unit) (T := fun _ => True) (Valid := fun _ _ => True) (tab := ()) trivial h5
  have hinv := Inv.init ign he
  have hlen := sites_length (input.map rearranged)
  rw [List.length_map] at hlen
  obtain ⟨s, A, H, g1, g2, g3, g4, g5⟩ := sweepLoop_ok (plainOps_ok (input.map rearranged)) (sound_of _)
    (fun sweep => sites_cand _ sweep) (stop := stop) hord (GInv (input.map rearranged))
    (fun After H s key e rest s' n a b c d f => GInv.step gp (hord n) a b c d f) fuel _ _ _ hinv (GInv.init _)
    (fun _ => rfl) (by simp only [List.length_nil]; omega)
  refine ⟨s.result, H, ?_, final_of g2 g4 g5, complete_of gp g2 g3 g4⟩
  unfold sweepIntersections sweepCompute
  rw [h1]
  simp only [bind, Except.bind, h2, h3, h4, g1]

theorem indexed_complete [TreeShape K] (order : Nat → List Nat → List Nat) (hord : ∀ n l, (order n l).Perm l) (ign stop : Bool)
    (vs : List (V2 K)) (z : V2 K) (edges : List (Nat × Nat)) (hE : ∀ e ∈ edges, EdgeOk vs e)
    (gp : SweepPosition (edges.map (edgeLine vs z))) (fuel : Nat)
    (hf : 2 * edges.length + edges.length * edges.length < fuel) :
    ∃ tab r H, indexedSweepIntersections order fuel ign stop vs edges = .ok (tab, r.map (fun r => (r.1.2, r.2))) ∧
      vs <+: tab ∧ (∀ x ∈ r, tab[x.1.2]? = some x.1.1) ∧
      Final (ι := Nat) (edges.map (edgeLine vs z)) ign stop H r ∧ Complete (edges.map (edgeLine vs z)) ign stop H r := by
  obtain ⟨d, h1, h2, h3, h4, h5, h6⟩ := withEdges_ok vs z ign stop edges hE
  have he := EvMap.einv (σ := List (V2 K)) (T := fun tab => vs <+: tab) (Valid := IsVertex) (tab := vs) (List.prefix_refl _) h6
  have hinv := Inv.init ign he
  have hlen := sites_length (edges.map (edgeLine vs z))
  rw [List.length_map] at hlen
  obtain ⟨s, A, H, g1, g2, g3, g4, g5⟩ := sweepLoop_ok (indexedOps_ok vs z edges hE) (sound_of _)
    (fun sweep => sites_cand _ sweep) (stop := stop) hord (GInv (edges.map (edgeLine vs z)))
    (fun After H s key e rest s' n a b c d f => GInv.step gp (hord n) a b c d f) fuel _ _ _ hinv (GInv.init _)
    (fun _ => rfl) (by simp only [List.length_nil]; omega)
  refine ⟨s.tab, s.result, H, ?_, g2.einv.tab, ?_, final_of g2 g4 g5, complete_of gp g2 g3 g4⟩
  · unfold indexedSweepIntersections indexedSweepCompute
    rw [h1]
    simp only [bind, Except.bind, h2, h3, h4, h5, g1]
  · intro x hx
    obtain ⟨h, hh, -, rfl⟩ := (g2.res x).1 hx
    exact (g2.hist h hh).2.1

end
end Verif.Sweep
