import Verif.Proofs.SweepCand
/-!
# The sweep line algorithm: two runs with different orders report the same
-/
set_option linter.unusedSectionVars false
set_option linter.unusedVariables false
set_option linter.unusedSimpArgs false
namespace Verif.Sweep
open Verif Verif.Spec Verif.Model Verif.Proofs.Intersect

section
variable {K : Type} [Scalar K] [Field K] [LinearOrder K] [ExactScalar K] {ι ι' σ σ' V : Type}

/-- the two queues have the same events -/
structure SameEv (a : SiteMap K ι SiteEvent) (b : SiteMap K ι' SiteEvent) : Prop where
  pos : ∀ p, (∃ e ∈ a, e.1.1 = p) ↔ ∃ e ∈ b, e.1.1 = p
  queued : ∀ p i, Queued a p i ↔ Queued b p i

/-- the two histories report the same -/
def SameHist (ign : Bool) (a : SiteMap K ι SiteEvent) (b : SiteMap K ι' SiteEvent) : Prop :=
  ∀ p v, (∃ h ∈ a, h.1.1 = p ∧ Reportable ign h.2 ∧ allAt h.2 = v) ↔ ∃ h ∈ b, h.1.1 = p ∧ Reportable ign h.2 ∧ allAt h.2 = v

/-- positions and lines of a result -/
def plainResult (r : SiteMap K ι (List Nat)) : List (V2 K × List Nat) := r.map (fun r => (r.1.1, r.2))

theorem mem_plainResult {r : SiteMap K ι (List Nat)} {p : V2 K} {v : List Nat} :
    (p, v) ∈ plainResult r ↔ ∃ k ∈ r, k.1.1 = p ∧ k.2 = v := by
  unfold plainResult
  simp [List.mem_map, Prod.ext_iff]

theorem sorted_ext {a b : List (V2 K × List Nat)} (ha : a.Pairwise (fun a b => SweepBefore a.1 b.1))
    (hb : b.Pairwise (fun a b => SweepBefore a.1 b.1)) (h : ∀ x, x ∈ a ↔ x ∈ b) : a = b := by
  have hna : a.Nodup := ha.imp (fun h he => before_ne h (congrArg Prod.fst he))
  have hnb : b.Nodup := hb.imp (fun h he => before_ne h (congrArg Prod.fst he))
  have hp : a.Perm b := (List.perm_ext_iff_of_nodup hna hnb).2 h
  refine List.Perm.eq_of_pairwise (le := fun a b => SweepBefore a.1 b.1) ?_ ha hb hp
  intro x y _ _ h1 h2
  exact absurd (before_trans h1 h2) (before_irrefl _)

theorem Inv.plainResult_eq {L : List (Line2 K)} {T : σ → Prop} {Valid : σ → V2 K × ι → Prop} {T' : σ' → Prop}
    {Valid' : σ' → V2 K × ι' → Prop} {Q : List (V2 K)} {ign : Bool} {A A' : V2 K → Prop} {H : SiteMap K ι SiteEvent}
    {H' : SiteMap K ι' SiteEvent} {s : SweepState K ι σ} {s' : SweepState K ι' σ'} (h : Inv L T Valid Q ign A H s)
    (h' : Inv L T' Valid' Q ign A' H' s') (hh : SameHist ign H H') : plainResult s.result = plainResult s'.result := by
  refine sorted_ext (List.pairwise_map.2 h.resSorted) (List.pairwise_map.2 h'.resSorted) ?_
  rintro ⟨p, v⟩
  rw [mem_plainResult, mem_plainResult]
  have e1 : (∃ k ∈ s.result, k.1.1 = p ∧ k.2 = v) ↔ ∃ h ∈ H, h.1.1 = p ∧ Reportable ign h.2 ∧ allAt h.2 = v := by
    constructor
    · rintro ⟨k, hk, rfl, rfl⟩
      obtain ⟨h0, hh0, hr, rfl⟩ := (h.res k).1 hk
      exact ⟨h0, hh0, rfl, hr, rfl⟩
    · rintro ⟨h0, hh0, rfl, hr, rfl⟩
      exact ⟨(h0.1, allAt h0.2), (h.res _).2 ⟨h0, hh0, hr, rfl⟩, rfl, rfl⟩
  have e2 : (∃ k ∈ s'.result, k.1.1 = p ∧ k.2 = v) ↔ ∃ h ∈ H', h.1.1 = p ∧ Reportable ign h.2 ∧ allAt h.2 = v := by
    constructor
    · rintro ⟨k, hk, rfl, rfl⟩
      obtain ⟨h0, hh0, hr, rfl⟩ := (h'.res k).1 hk
      exact ⟨h0, hh0, rfl, hr, rfl⟩
    · rintro ⟨h0, hh0, rfl, hr, rfl⟩
      exact ⟨(h0.1, allAt h0.2), (h'.res _).2 ⟨h0, hh0, hr, rfl⟩, rfl, rfl⟩
  rw [e1, e2]
  exact hh p v

/-- the first events are at the same place, with the same lines -/
theorem SameEv.head {L : List (Line2 K)} {k : V2 K × ι} {k' : V2 K × ι'} {e e' : SiteEvent} {r : SiteMap K ι SiteEvent}
    {r' : SiteMap K ι' SiteEvent} (h : SameEv ((k, e) :: r) ((k', e') :: r')) (hs : Sorted ((k, e) :: r)) (hs' : Sorted ((k', e') :: r'))
    (hE : EvOk L k.1 e) (hE' : EvOk L k'.1 e') :
    k.1 = k'.1 ∧ e.add.Perm e'.add ∧ e.drop.Perm e'.drop ∧ e.inter.Perm e'.inter ∧ SameEv r r' := by
  obtain ⟨a1, a2⟩ := List.pairwise_cons.1 hs
  obtain ⟨b1, b2⟩ := List.pairwise_cons.1 hs'
  have hk : k.1 = k'.1 := by
    obtain ⟨x, hx, hxp⟩ := (h.pos k.1).1 ⟨_, List.mem_cons_self, rfl⟩
    obtain ⟨y, hy, hyp⟩ := (h.pos k'.1).2 ⟨_, List.mem_cons_self, rfl⟩
    rcases List.mem_cons.1 hx with rfl | hx
    · exact hxp.symm
    rcases List.mem_cons.1 hy with rfl | hy
    · exact hyp
    have g1 := b1 x hx
    have g2 := a1 y hy
    simp only at g1 g2
    rw [hxp] at g1
    rw [hyp] at g2
    exact absurd (before_trans g1 g2) (before_irrefl _)
  have hq : ∀ i, Queued ((k, e) :: r) k.1 i ↔ i ∈ e.inter := by
    intro i
    constructor
    · rintro ⟨x, hx, hp, hi⟩
      rcases List.mem_cons.1 hx with rfl | hx
      · exact hi
      · have := a1 x hx; simp only at this; rw [hp] at this; exact absurd this (before_irrefl _)
    · intro hi; exact ⟨_, List.mem_cons_self, rfl, hi⟩
  have hq' : ∀ i, Queued ((k', e') :: r') k'.1 i ↔ i ∈ e'.inter := by
    intro i
    constructor
    · rintro ⟨x, hx, hp, hi⟩
      rcases List.mem_cons.1 hx with rfl | hx
      · exact hi
      · have := b1 x hx; simp only at this; rw [hp] at this; exact absurd this (before_irrefl _)
    · intro hi; exact ⟨_, List.mem_cons_self, rfl, hi⟩
  refine ⟨hk, ?_, ?_, ?_, ?_⟩
  · refine (List.perm_ext_iff_of_nodup hE.addN hE'.addN).2 fun i => ?_
    rw [hE.add, hE'.add, hk]
  · refine (List.perm_ext_iff_of_nodup hE.dropN hE'.dropN).2 fun i => ?_
    rw [hE.drop, hE'.drop, hk]
  · refine (List.perm_ext_iff_of_nodup hE.interN hE'.interN).2 fun i => ?_
    rw [← hq, ← hq', ← hk]
    exact h.queued _ _
  · constructor
    · intro p
      constructor
      · rintro ⟨x, hx, rfl⟩
        obtain ⟨y, hy, hyp⟩ := (h.pos x.1.1).1 ⟨x, List.mem_cons_of_mem _ hx, rfl⟩
        rcases List.mem_cons.1 hy with rfl | hy
        · have := a1 x hx; simp only at this hyp; rw [hk, hyp] at this; exact absurd this (before_irrefl _)
        · exact ⟨y, hy, hyp⟩
      · rintro ⟨x, hx, rfl⟩
        obtain ⟨y, hy, hyp⟩ := (h.pos x.1.1).2 ⟨x, List.mem_cons_of_mem _ hx, rfl⟩
        rcases List.mem_cons.1 hy with rfl | hy
        · have := b1 x hx; simp only at this hyp; rw [← hk, hyp] at this; exact absurd this (before_irrefl _)
        · exact ⟨y, hy, hyp⟩
    · intro p i
      constructor
      · rintro ⟨x, hx, rfl, hi⟩
        obtain ⟨y, hy, hyp, hyi⟩ := (h.queued x.1.1 i).1 ⟨x, List.mem_cons_of_mem _ hx, rfl, hi⟩
        rcases List.mem_cons.1 hy with rfl | hy
        · have := a1 x hx; simp only at this hyp; rw [hk, hyp] at this; exact absurd this (before_irrefl _)
        · exact ⟨y, hy, hyp, hyi⟩
      · rintro ⟨x, hx, rfl, hi⟩
        obtain ⟨y, hy, hyp, hyi⟩ := (h.queued x.1.1 i).2 ⟨x, List.mem_cons_of_mem _ hx, rfl, hi⟩
        rcases List.mem_cons.1 hy with rfl | hy
        · have := b1 x hx; simp only at this hyp; rw [← hk, hyp] at this; exact absurd this (before_irrefl _)
        · exact ⟨y, hy, hyp, hyi⟩

theorem exactly_half {L : List (Line2 K)} {sweep : V2 K} {P : List (Nat × Nat)} {P' : List (Nat × Nat)}
    (hP : ∀ p, p ∈ P → p ∈ P') {r s : SiteMap K ι SiteEvent} {r' s' : SiteMap K ι' SiteEvent} (h : SameEv r r')
    (hx : Exactly L sweep P r s) (hx' : Exactly L sweep P' r' s') (hg' : Grow r' s')
    (hf' : ∀ i j, (i, j) ∈ P' → ∀ l m, L[i]? = some l → L[j]? = some m → ∀ p, Cand sweep l m p →
      (p ≠ l.start → p ≠ l.end → Queued s' p i) ∧ (p ≠ m.start → p ≠ m.end → Queued s' p j)) :
    (∀ p, (∃ e ∈ s, e.1.1 = p) → ∃ e ∈ s', e.1.1 = p) ∧ ∀ p i, Queued s p i → Queued s' p i := by
  constructor
  · rintro p ⟨e, he, rfl⟩
    rcases hx.only e he with h0 | ⟨i, j, l, m, hij, hl, hm, hc⟩
    · obtain ⟨x, hx0, hxp⟩ := (h.pos _).1 h0
      obtain ⟨y, hy, hyk, -⟩ := hg' x hx0
      exact ⟨y, hy, by rw [hyk]; exact hxp⟩
    · exact hx'.here i j l m _ (hP _ hij) hl hm hc
  · intro p k hq
    rcases hx.queued p k hq with h0 | ⟨i, j, l, m, hij, hl, hm, hc, hk⟩
    · exact ((h.queued p k).1 h0).mono hg'
    · obtain ⟨f1, f2⟩ := hf' i j (hP _ hij) l m hl hm p hc
      rcases hk with ⟨rfl, h1, h2⟩ | ⟨rfl, h1, h2⟩
      · exact f1 h1 h2
      · exact f2 h1 h2

/-- two runs report the same, whatever the shapes of the search trees (`B`, `B'`) and the orders of the hash sets -/
theorem sweepLoop_same (B B' : TreeShape K) {ops : SweepOps K ι σ} {ops' : SweepOps K ι' σ'} {L : List (Line2 K)} {T : σ → Prop}
    {Valid : σ → V2 K × ι → Prop} {T' : σ' → Prop} {Valid' : σ' → V2 K × ι' → Prop}
    (ho : OpsOk ops L T Valid) (ho' : OpsOk ops' L T' Valid') (hL : Sound L) {Q : List (V2 K)}
    (hQ : ∀ sweep, ∀ l ∈ L, ∀ m ∈ L, ∀ p, Cand sweep l m p → p ∈ Q) {ign stop : Bool} {order order' : Nat → List Nat → List Nat}
    (hord : ∀ n l, (order n l).Perm l) (hord' : ∀ n l, (order' n l).Perm l) :
    ∀ (fuel fuel' : Nat) (After : V2 K → Prop) (H : SiteMap K ι SiteEvent) (H' : SiteMap K ι' SiteEvent)
      (s : SweepState K ι σ) (s' : SweepState K ι' σ'),
      Inv L T Valid Q ign After H s → Inv L T' Valid' Q ign After H' s' → SameEv s.events s'.events → SameHist ign H H' →
      ∀ t t', (haveI := B; sweepLoop ops order ign stop fuel s = .ok t) → (haveI := B'; sweepLoop ops' order' ign stop fuel' s' = .ok t') →
        plainResult t.result = plainResult t'.result := by
  intro fuel
  induction fuel with
  | zero => intro fuel' After H H' s s' h h' he hh t t' ht ht'; cases ht
  | succ fuel ih =>
    intro fuel' After H H' s s' h h' he hh t t' ht ht'
    cases fuel' with
    | zero => cases ht'
    | succ fuel' =>
    unfold sweepLoop at ht ht'
    cases hev : s.events with
    | nil =>
      have hev' : s'.events = [] := by
        cases h0 : s'.events with
        | nil => rfl
        | cons x xs =>
          obtain ⟨y, hy, -⟩ := (he.pos x.1.1).2 ⟨x, by rw [h0]; exact List.mem_cons_self, rfl⟩
          rw [hev] at hy; cases hy
      rw [hev] at ht
      rw [hev'] at ht'
      simp only [Except.ok.injEq] at ht ht'
      subst ht; subst ht'
      exact h.plainResult_eq h' hh
    | cons ke rest =>
      obtain ⟨key, e⟩ := ke
      cases hev' : s'.events with
      | nil =>
        obtain ⟨y, hy, -⟩ := (he.pos key.1).1 ⟨(key, e), by rw [hev]; exact List.mem_cons_self, rfl⟩
        rw [hev'] at hy; cases hy
      | cons ke' rest' =>
      obtain ⟨key', e'⟩ := ke'
      obtain ⟨u, h1, h2, h3⟩ := haveI := B; handleEvent_ok ho hL hQ (hord fuel) h hev
      obtain ⟨u', h1', h2', h3'⟩ := haveI := B'; handleEvent_ok ho' hL hQ (hord' fuel') h' hev'
      have hE : EvOk L key.1 e := h.einv.ev (key, e) (by simp only [hev]; exact List.mem_cons_self)
      have hE' : EvOk L key'.1 e' := h'.einv.ev (key', e') (by simp only [hev']; exact List.mem_cons_self)
      have hs0 := h.einv.sorted
      have hs0' := h'.einv.sorted
      simp only [hev] at hs0
      simp only [hev'] at hs0'
      rw [hev, hev'] at he
      obtain ⟨hk, p1, p2, p3, hr⟩ := he.head hs0 hs0' hE hE'
      -- the same lines are on the sweep line
      have hact : ∀ i, i ∈ s.active ↔ i ∈ s'.active := fun i => by rw [h.act, h'.act]
      have hact' : ∀ i, i ∈ order fuel (s.active.filter (fun i => !e.drop.contains i)) ↔
          i ∈ order' fuel' (s'.active.filter (fun i => !e'.drop.contains i)) := by
        intro i
        rw [(hord _ _).mem_iff, (hord' _ _).mem_iff, List.mem_filter, List.mem_filter, hact]
        simp [p2.mem_iff]
      have hpairs := sweepPairs_congr L key.1 hact' p1 p3
      obtain ⟨-, -, gr1, f1, x1⟩ := h3
      obtain ⟨-, -, gr1', f1', x1'⟩ := h3'
      rw [← hk] at x1' f1'
      obtain ⟨q1, q2⟩ := exactly_half (fun p hp => (hpairs p).1 hp) hr x1 x1' gr1' f1'
      have hr' : SameEv rest' rest := ⟨fun p => (hr.pos p).symm, fun p i => (hr.queued p i).symm⟩
      obtain ⟨q1', q2'⟩ := exactly_half (fun p hp => (hpairs p).2 hp) hr' x1' x1 gr1 f1
      have he2 : SameEv u.events u'.events := ⟨fun p => ⟨q1 p, q1' p⟩, fun p i => ⟨q2 p i, q2' p i⟩⟩
      have hrep : Reportable ign e ↔ Reportable ign e' := by
        unfold Reportable
        rw [p1.length_eq, p2.length_eq, p3.length_eq]
        cases ign
        · exact Iff.rfl
        · simp only [if_true, ne_eq]
          rw [← List.length_eq_zero_iff, ← List.length_eq_zero_iff, p3.length_eq]
      have hall : allAt e = allAt e' := sort_eq (p2.append (p1.append p3))
      have hh2 : SameHist ign ((key, e) :: H) ((key', e') :: H') := by
        intro p v
        simp only [List.mem_cons, exists_eq_or_imp]
        rw [hk, hall, hrep]
        exact or_congr Iff.rfl (hh p v)
      have hres := h2.plainResult_eq h2' hh2
      have hemp : u.result.isEmpty = u'.result.isEmpty := by
        have := congrArg List.isEmpty hres
        unfold plainResult at this
        simpa using this
      rw [hev] at ht
      rw [hev'] at ht'
      have pop := @popFirst_sorted _ _ _ _ _ _ _ B _ _ _ hs0
      have pop' := @popFirst_sorted _ _ _ _ _ _ _ B' _ _ _ hs0'
      simp only [pop, pop', h1, h1', bind, Except.bind] at ht ht'
      rw [← hemp] at ht'
      by_cases hc : (!u.result.isEmpty && stop) = true
      · rw [if_pos hc] at ht ht'
        simp only [Except.ok.injEq] at ht ht'
        subst ht; subst ht'
        exact hres
      · rw [if_neg hc] at ht ht'
        rw [← hk] at h2'
        exact ih fuel' _ _ _ u u' h2 h2' he2 hh2 t t' ht ht'

/-- what was reported before is the first part of the final result -/
theorem sweepLoop_prefix [TreeShape K] {ops : SweepOps K ι σ} {L : List (Line2 K)} {T : σ → Prop} {Valid : σ → V2 K × ι → Prop}
    (ho : OpsOk ops L T Valid) (hL : Sound L) {Q : List (V2 K)}
    (hQ : ∀ sweep, ∀ l ∈ L, ∀ m ∈ L, ∀ p, Cand sweep l m p → p ∈ Q) {ign stop : Bool} {order : Nat → List Nat → List Nat}
    (hord : ∀ n l, (order n l).Perm l) :
    ∀ (fuel : Nat) (After : V2 K → Prop) (H : SiteMap K ι SiteEvent) (s : SweepState K ι σ),
      Inv L T Valid Q ign After H s → ∀ t, sweepLoop ops order ign stop fuel s = .ok t → plainResult s.result <+: plainResult t.result := by
  intro fuel
  induction fuel with
  | zero => intro After H s h t ht; cases ht
  | succ fuel ih =>
    intro After H s h t ht
    unfold sweepLoop at ht
    cases hev : s.events with
    | nil =>
      rw [hev] at ht
      simp only [Except.ok.injEq] at ht
      subst ht
      exact List.prefix_refl _
    | cons ke rest =>
      obtain ⟨key, e⟩ := ke
      obtain ⟨u, h1, h2, h3⟩ := handleEvent_ok ho hL hQ (hord fuel) h hev
      have hk : After key.1 := h.einv.after (key, e) (by simp only [hev]; exact List.mem_cons_self)
      have hpre : plainResult s.result <+: plainResult u.result := by
        by_cases hr : Reportable ign e
        · have : plainResult u.result = plainResult s.result ++ [(key.1, allAt e)] := by
            refine sorted_ext (List.pairwise_map.2 h2.resSorted) ?_ ?_
            · rw [List.pairwise_append]
              refine ⟨List.pairwise_map.2 h.resSorted, List.pairwise_singleton _ _, ?_⟩
              rintro ⟨p, v⟩ hx y hy
              rw [List.mem_singleton] at hy
              subst hy
              obtain ⟨k, hkm, rfl, rfl⟩ := mem_plainResult.1 hx
              obtain ⟨h0, hh0, -, rfl⟩ := (h.res k).1 hkm
              have hn := (h.hist h0 hh0).1
              rcases before_total h0.1.1 key.1 with hb | hb | hb
              · exact hb
              · exact absurd (hb ▸ hk) hn
              · exact absurd (h.up _ _ hk hb) hn
            · rintro ⟨p, v⟩
              rw [List.mem_append, mem_plainResult, mem_plainResult, List.mem_singleton]
              constructor
              · rintro ⟨k, hkm, rfl, rfl⟩
                obtain ⟨h0, hh0, hr0, rfl⟩ := (h2.res k).1 hkm
                rcases List.mem_cons.1 hh0 with rfl | hh0
                · exact Or.inr rfl
                · exact Or.inl ⟨_, (h.res _).2 ⟨h0, hh0, hr0, rfl⟩, rfl, rfl⟩
              · rintro (⟨k, hkm, rfl, rfl⟩ | hp)
                · obtain ⟨h0, hh0, hr0, rfl⟩ := (h.res k).1 hkm
                  exact ⟨_, (h2.res _).2 ⟨h0, List.mem_cons_of_mem _ hh0, hr0, rfl⟩, rfl, rfl⟩
                · simp only [Prod.mk.injEq] at hp
                  obtain ⟨rfl, rfl⟩ := hp
                  exact ⟨(key, allAt e), (h2.res _).2 ⟨(key, e), List.mem_cons_self, hr, rfl⟩, rfl, rfl⟩
          rw [this]
          exact List.prefix_append _ _
        · have : plainResult u.result = plainResult s.result := by
            refine sorted_ext (List.pairwise_map.2 h2.resSorted) (List.pairwise_map.2 h.resSorted) ?_
            rintro ⟨p, v⟩
            rw [mem_plainResult, mem_plainResult]
            constructor
            · rintro ⟨k, hkm, rfl, rfl⟩
              obtain ⟨h0, hh0, hr0, rfl⟩ := (h2.res k).1 hkm
              rcases List.mem_cons.1 hh0 with rfl | hh0
              · exact absurd hr0 hr
              · exact ⟨_, (h.res _).2 ⟨h0, hh0, hr0, rfl⟩, rfl, rfl⟩
            · rintro ⟨k, hkm, rfl, rfl⟩
              obtain ⟨h0, hh0, hr0, rfl⟩ := (h.res k).1 hkm
              exact ⟨_, (h2.res _).2 ⟨h0, List.mem_cons_of_mem _ hh0, hr0, rfl⟩, rfl, rfl⟩
          rw [this]
      have hs0 := h.einv.sorted
      simp only [hev] at hs0
      rw [hev] at ht
      simp only [popFirst_sorted hs0, h1, bind, Except.bind] at ht
      by_cases hc : (!u.result.isEmpty && stop) = true
      · rw [if_pos hc] at ht
        simp only [Except.ok.injEq] at ht
        subst ht
        exact hpre
      · rw [if_neg hc] at ht
        exact hpre.trans (ih _ _ u h2 t ht)

/-- stopping at the first intersection gives the first intersection of the full run -/
theorem sweepLoop_first [TreeShape K] {ops : SweepOps K ι σ} {L : List (Line2 K)} {T : σ → Prop} {Valid : σ → V2 K × ι → Prop}
    (ho : OpsOk ops L T Valid) (hL : Sound L) {Q : List (V2 K)}
    (hQ : ∀ sweep, ∀ l ∈ L, ∀ m ∈ L, ∀ p, Cand sweep l m p → p ∈ Q) {ign : Bool} {order : Nat → List Nat → List Nat}
    (hord : ∀ n l, (order n l).Perm l) :
    ∀ (fuel : Nat) (After : V2 K → Prop) (H : SiteMap K ι SiteEvent) (s : SweepState K ι σ),
      Inv L T Valid Q ign After H s → s.result = [] → ∀ t t', sweepLoop ops order ign true fuel s = .ok t →
      sweepLoop ops order ign false fuel s = .ok t' → t.result.length ≤ 1 →
      plainResult t.result = (plainResult t'.result).take 1 := by
  intro fuel
  induction fuel with
  | zero => intro After H s h hr0 t t' ht ht' _; cases ht
  | succ fuel ih =>
    intro After H s h hr0 t t' ht ht' hle
    unfold sweepLoop at ht ht'
    cases hev : s.events with
    | nil =>
      rw [hev] at ht ht'
      simp only [Except.ok.injEq] at ht ht'
      subst ht; subst ht'
      rw [hr0]; rfl
    | cons ke rest =>
      obtain ⟨key, e⟩ := ke
      obtain ⟨u, h1, h2, h3⟩ := handleEvent_ok ho hL hQ (hord fuel) h hev
      have hs0 := h.einv.sorted
      simp only [hev] at hs0
      rw [hev] at ht ht'
      simp only [popFirst_sorted hs0, h1, bind, Except.bind, Bool.and_true, Bool.and_false, Bool.false_eq_true, if_false] at ht ht'
      by_cases hc : (!u.result.isEmpty) = true
      · rw [if_pos hc] at ht
        simp only [Except.ok.injEq] at ht
        subst ht
        have hpre := sweepLoop_prefix ho hL hQ hord fuel _ _ u h2 t' ht'
        have hlen : (plainResult u.result).length = 1 := by
          unfold plainResult
          rw [List.length_map]
          have : u.result ≠ [] := by simpa using hc
          have := List.length_pos_iff.2 this
          omega
        have := List.prefix_iff_eq_take.1 hpre
        rw [hlen] at this
        exact this
      · rw [if_neg hc] at ht
        exact ih _ _ u h2 (by simpa using hc) t t' ht ht' hle

end
end Verif.Sweep
