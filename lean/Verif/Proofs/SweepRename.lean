import Verif.Proofs.SweepOrder
import Mathlib.Logic.Equiv.Basic
import Mathlib.Logic.Equiv.Nat
/-!
# The sweep line algorithm: two runs with the lines numbered differently report the same
-/
set_option linter.unusedSectionVars false
set_option linter.unusedVariables false
set_option linter.unusedSimpArgs false
namespace Verif.Sweep
open Verif Verif.Spec Verif.Model Verif.Proofs.Intersect

/-- the list `b` has the elements of `a` in another order: what is at `i` in `a` is at `π i` in `b` -/
def Renumbered {A : Type} (π : Equiv.Perm Nat) (a b : List A) : Prop := ∀ i, b[π i]? = a[i]?

/-- the lines of a report with their new numbers, sorted -/
def renumber (π : Equiv.Perm Nat) (v : List Nat) : List Nat := (v.map π).insertionSort (· ≤ ·)

section lists
variable {A B : Type}

theorem Renumbered.symm {π : Equiv.Perm Nat} {a b : List A} (h : Renumbered π a b) : Renumbered π.symm b a := by
  intro i
  have := h (π.symm i)
  rw [Equiv.apply_symm_apply] at this
  exact this.symm

theorem Renumbered.map {π : Equiv.Perm Nat} {a b : List A} (h : Renumbered π a b) (f : A → B) : Renumbered π (a.map f) (b.map f) := by
  intro i
  rw [List.getElem?_map, List.getElem?_map, h i]

theorem Renumbered.length {π : Equiv.Perm Nat} {a b : List A} (h : Renumbered π a b) : b.length = a.length := by
  have key : ∀ {π : Equiv.Perm Nat} {a b : List A}, Renumbered π a b → a.length ≤ b.length := by
    intro π a b h
    have hlt : ∀ i, i < a.length → π i < b.length := by
      intro i hi
      by_contra hc
      have := h i
      rw [List.getElem?_eq_none (by omega), List.getElem?_eq_getElem hi] at this
      cases this
    have := Finset.card_le_card_of_injOn (s := Finset.range a.length) (t := Finset.range b.length) π
      (fun i hi => by
        simp only [Finset.coe_range, Set.mem_Iio] at hi ⊢
        exact hlt i hi) (fun x _ y _ e => π.injective e)
    simpa using this
  exact Nat.le_antisymm (key h.symm) (key h)

/-- there is a numbering for every rearrangement -/
theorem renumbered_of_perm {a b : List A} (h : a.Perm b) : ∃ π, Renumbered π a b := by
  have shift : ∀ π : Equiv.Perm Nat, ∃ ρ : Equiv.Perm Nat, ρ 0 = 0 ∧ ∀ i, ρ (i + 1) = π i + 1 := by
    intro π
    refine ⟨⟨fun i => match i with | 0 => 0 | i + 1 => π i + 1, fun i => match i with | 0 => 0 | i + 1 => π.symm i + 1, ?_, ?_⟩,
      rfl, fun i => rfl⟩
    · intro i; cases i <;> simp
    · intro i; cases i <;> simp
  induction h with
  | nil => exact ⟨Equiv.refl _, fun i => rfl⟩
  | @cons x a b _ ih =>
    obtain ⟨π, h⟩ := ih
    obtain ⟨ρ, h0, h1⟩ := shift π
    refine ⟨ρ, fun i => ?_⟩
    cases i with
    | zero => rw [h0]; rfl
    | succ i => rw [h1]; simpa using h i
  | swap x y l =>
    refine ⟨Equiv.swap 0 1, fun i => ?_⟩
    match i with
    | 0 => rw [Equiv.swap_apply_left]; rfl
    | 1 => rw [Equiv.swap_apply_right]; rfl
    | i + 2 => rw [Equiv.swap_apply_of_ne_of_ne (by omega) (by omega)]; simp
  | trans _ _ ih1 ih2 =>
    obtain ⟨π, h⟩ := ih1
    obtain ⟨ρ, h'⟩ := ih2
    exact ⟨π.trans ρ, fun i => by rw [Equiv.trans_apply, h', h]⟩

/-- turning a list around numbers it backwards -/
theorem renumbered_reverse (a : List A) : ∃ π : Equiv.Perm Nat, Renumbered π a a.reverse ∧ ∀ i, i < a.length → π i = a.length - 1 - i := by
  have inv : Function.Involutive (fun i => if i < a.length then a.length - 1 - i else i) := by
    intro i
    by_cases h : i < a.length
    · simp only [h, if_true]
      rw [if_pos (by omega)]
      omega
    · simp only [h, if_false]
  refine ⟨inv.toPerm _, fun i => ?_, fun i hi => ?_⟩
  · change a.reverse[if i < a.length then a.length - 1 - i else i]? = a[i]?
    by_cases h : i < a.length
    · rw [if_pos h, List.getElem?_reverse (by omega)]
      congr 1
      omega
    · rw [if_neg h, List.getElem?_eq_none (by simp; omega), List.getElem?_eq_none (by omega)]
  · change (if i < a.length then a.length - 1 - i else i) = _
    rw [if_pos hi]

end lists

section
variable {K : Type} [Scalar K] [Field K] [LinearOrder K] [ExactScalar K] {ι ι' σ σ' : Type}

/-- the two queues have the same events, with renumbered lines -/
structure SameEvR (π : Equiv.Perm Nat) (a : SiteMap K ι SiteEvent) (b : SiteMap K ι' SiteEvent) : Prop where
  pos : ∀ p, (∃ e ∈ a, e.1.1 = p) ↔ ∃ e ∈ b, e.1.1 = p
  queued : ∀ p i, Queued a p i ↔ Queued b p (π i)

theorem SameEvR.symm {π : Equiv.Perm Nat} {a : SiteMap K ι SiteEvent} {b : SiteMap K ι' SiteEvent} (h : SameEvR π a b) : SameEvR π.symm b a :=
  ⟨fun p => (h.pos p).symm, fun p i => by rw [h.queued, Equiv.apply_symm_apply]⟩

/-- the two histories report the same, with renumbered lines -/
def SameHistR (π : Equiv.Perm Nat) (ign : Bool) (a : SiteMap K ι SiteEvent) (b : SiteMap K ι' SiteEvent) : Prop :=
  ∀ p v, (∃ h ∈ a, h.1.1 = p ∧ Reportable ign h.2 ∧ renumber π (allAt h.2) = v) ↔ ∃ h ∈ b, h.1.1 = p ∧ Reportable ign h.2 ∧ allAt h.2 = v

/-- a result with renumbered lines -/
def renumberResult (π : Equiv.Perm Nat) (r : List (V2 K × List Nat)) : List (V2 K × List Nat) := r.map (fun x => (x.1, renumber π x.2))

theorem Inv.plainResult_renumber {L L' : List (Line2 K)} {T : σ → Prop} {Valid : σ → V2 K × ι → Prop} {T' : σ' → Prop}
    {Valid' : σ' → V2 K × ι' → Prop} {Q Q' : List (V2 K)} {ign : Bool} {A A' : V2 K → Prop} {H : SiteMap K ι SiteEvent}
    {H' : SiteMap K ι' SiteEvent} {s : SweepState K ι σ} {s' : SweepState K ι' σ'} {π : Equiv.Perm Nat} (h : Inv L T Valid Q ign A H s)
    (h' : Inv L' T' Valid' Q' ign A' H' s') (hh : SameHistR π ign H H') :
    plainResult s'.result = renumberResult π (plainResult s.result) := by
  refine sorted_ext (List.pairwise_map.2 h'.resSorted) (List.pairwise_map.2 (List.pairwise_map.2 h.resSorted)) ?_
  rintro ⟨p, v⟩
  rw [mem_plainResult]
  have e1 : (p, v) ∈ renumberResult π (plainResult s.result) ↔
      ∃ h ∈ H, h.1.1 = p ∧ Reportable ign h.2 ∧ renumber π (allAt h.2) = v := by
    unfold renumberResult
    rw [List.mem_map]
    constructor
    · rintro ⟨⟨p0, v0⟩, hx, hp⟩
      obtain ⟨k, hk, rfl, rfl⟩ := mem_plainResult.1 hx
      obtain ⟨h0, hh0, hr, rfl⟩ := (h.res k).1 hk
      simp only [Prod.mk.injEq] at hp
      exact ⟨h0, hh0, hp.1, hr, hp.2⟩
    · rintro ⟨h0, hh0, rfl, hr, rfl⟩
      exact ⟨(h0.1.1, allAt h0.2), mem_plainResult.2 ⟨(h0.1, allAt h0.2), (h.res _).2 ⟨h0, hh0, hr, rfl⟩, rfl, rfl⟩, rfl⟩
  have e2 : (∃ k ∈ s'.result, k.1.1 = p ∧ k.2 = v) ↔ ∃ h ∈ H', h.1.1 = p ∧ Reportable ign h.2 ∧ allAt h.2 = v := by
    constructor
    · rintro ⟨k, hk, rfl, rfl⟩
      obtain ⟨h0, hh0, hr, rfl⟩ := (h'.res k).1 hk
      exact ⟨h0, hh0, rfl, hr, rfl⟩
    · rintro ⟨h0, hh0, rfl, hr, rfl⟩
      exact ⟨(h0.1, allAt h0.2), (h'.res _).2 ⟨h0, hh0, hr, rfl⟩, rfl, rfl⟩
  rw [e1, e2]
  exact (hh p v).symm

theorem perm_map_of_mem {π : Equiv.Perm Nat} {a b : List Nat} (ha : a.Nodup) (hb : b.Nodup) (h : ∀ i, i ∈ a ↔ π i ∈ b) : (a.map π).Perm b := by
  refine (List.perm_ext_iff_of_nodup (ha.map π.injective) hb).2 fun j => ?_
  obtain ⟨i, rfl⟩ := π.surjective j
  rw [List.mem_map_of_injective π.injective, h]

/-- the first events are at the same place, with the same lines -/
theorem SameEvR.head {L L' : List (Line2 K)} {π : Equiv.Perm Nat} (hL : Renumbered π L L') {k : V2 K × ι} {k' : V2 K × ι'}
    {e e' : SiteEvent} {r : SiteMap K ι SiteEvent}
    {r' : SiteMap K ι' SiteEvent} (h : SameEvR π ((k, e) :: r) ((k', e') :: r')) (hs : Sorted ((k, e) :: r)) (hs' : Sorted ((k', e') :: r'))
    (hE : EvOk L k.1 e) (hE' : EvOk L' k'.1 e') :
    k.1 = k'.1 ∧ (∀ i, i ∈ e.add ↔ π i ∈ e'.add) ∧ (∀ i, i ∈ e.drop ↔ π i ∈ e'.drop) ∧ (∀ i, i ∈ e.inter ↔ π i ∈ e'.inter) ∧
      SameEvR π r r' := by
  obtain ⟨a1, a2⟩ := List.pairwise_cons.1 hs
  obtain ⟨b1, b2⟩ := List.pairwise_cons.1 hs'
  have hk : k.1 = k'.1 := by
    obtain ⟨x, hx, hxp⟩ := (h.pos k.1).1 ⟨_, List.mem_cons_self, rfl⟩
    obtain ⟨y, hy, hyp⟩ := (h.pos k'.1).2 ⟨_, List.mem_cons_self, rfl⟩
    rcases List.mem_cons.1 hx with rfl | hx
    · exact hxp.symm
    rcases List.mem_cons.1 hy with rfl | hy
    · exact hyp
    have g1 := b1 x hx
    have g2 := a1 y hy
    simp only at g1 g2
    rw [hxp] at g1
    rw [hyp] at g2
    exact absurd (before_trans g1 g2) (before_irrefl _)
  have hq : ∀ i, Queued ((k, e) :: r) k.1 i ↔ i ∈ e.inter := by
    intro i
    constructor
    · rintro ⟨x, hx, hp, hi⟩
      rcases List.mem_cons.1 hx with rfl | hx
      · exact hi
      · have := a1 x hx; simp only at this; rw [hp] at this; exact absurd this (before_irrefl _)
    · intro hi; exact ⟨_, List.mem_cons_self, rfl, hi⟩
  have hq' : ∀ i, Queued ((k', e') :: r') k'.1 i ↔ i ∈ e'.inter := by
    intro i
    constructor
    · rintro ⟨x, hx, hp, hi⟩
      rcases List.mem_cons.1 hx with rfl | hx
      · exact hi
      · have := b1 x hx; simp only at this; rw [hp] at this; exact absurd this (before_irrefl _)
    · intro hi; exact ⟨_, List.mem_cons_self, rfl, hi⟩
  refine ⟨hk, ?_, ?_, ?_, ?_⟩
  · intro i
    rw [hE.add, hE'.add, hL i, hk]
  · intro i
    rw [hE.drop, hE'.drop, hL i, hk]
  · intro i
    rw [← hq, ← hq', ← hk]
    exact h.queued _ _
  · constructor
    · intro p
      constructor
      · rintro ⟨x, hx, rfl⟩
        obtain ⟨y, hy, hyp⟩ := (h.pos x.1.1).1 ⟨x, List.mem_cons_of_mem _ hx, rfl⟩
        rcases List.mem_cons.1 hy with rfl | hy
        · have := a1 x hx; simp only at this hyp; rw [hk, hyp] at this; exact absurd this (before_irrefl _)
        · exact ⟨y, hy, hyp⟩
      · rintro ⟨x, hx, rfl⟩
        obtain ⟨y, hy, hyp⟩ := (h.pos x.1.1).2 ⟨x, List.mem_cons_of_mem _ hx, rfl⟩
        rcases List.mem_cons.1 hy with rfl | hy
        · have := b1 x hx; simp only at this hyp; rw [← hk, hyp] at this; exact absurd this (before_irrefl _)
        · exact ⟨y, hy, hyp⟩
    · intro p i
      constructor
      · rintro ⟨x, hx, rfl, hi⟩
        obtain ⟨y, hy, hyp, hyi⟩ := (h.queued x.1.1 i).1 ⟨x, List.mem_cons_of_mem _ hx, rfl, hi⟩
        rcases List.mem_cons.1 hy with rfl | hy
        · have := a1 x hx; simp only at this hyp; rw [hk, hyp] at this; exact absurd this (before_irrefl _)
        · exact ⟨y, hy, hyp, hyi⟩
      · rintro ⟨x, hx, rfl, hi⟩
        obtain ⟨y, hy, hyp, hyi⟩ := (h.queued x.1.1 i).2 ⟨x, List.mem_cons_of_mem _ hx, rfl, hi⟩
        rcases List.mem_cons.1 hy with rfl | hy
        · have := b1 x hx; simp only at this hyp; rw [← hk, hyp] at this; exact absurd this (before_irrefl _)
        · exact ⟨y, hy, hyp, hyi⟩

theorem exactly_halfR {L L' : List (Line2 K)} {π : Equiv.Perm Nat} (hL : Renumbered π L L') {sweep : V2 K} {P : List (Nat × Nat)}
    {P' : List (Nat × Nat)}
    (hP : ∀ i j, (i, j) ∈ P → (π i, π j) ∈ P') {r s : SiteMap K ι SiteEvent} {r' s' : SiteMap K ι' SiteEvent} (h : SameEvR π r r')
    (hx : Exactly L sweep P r s) (hx' : Exactly L' sweep P' r' s') (hg' : Grow r' s')
    (hf' : ∀ i j, (i, j) ∈ P' → ∀ l m, L'[i]? = some l → L'[j]? = some m → ∀ p, Cand sweep l m p →
      (p ≠ l.start → p ≠ l.end → Queued s' p i) ∧ (p ≠ m.start → p ≠ m.end → Queued s' p j)) :
    (∀ p, (∃ e ∈ s, e.1.1 = p) → ∃ e ∈ s', e.1.1 = p) ∧ ∀ p i, Queued s p i → Queued s' p (π i) := by
  constructor
  · rintro p ⟨e, he, rfl⟩
    rcases hx.only e he with h0 | ⟨i, j, l, m, hij, hl, hm, hc⟩
    · obtain ⟨x, hx0, hxp⟩ := (h.pos _).1 h0
      obtain ⟨y, hy, hyk, -⟩ := hg' x hx0
      exact ⟨y, hy, by rw [hyk]; exact hxp⟩
    · exact hx'.here (π i) (π j) l m _ (hP _ _ hij) (by rw [hL]; exact hl) (by rw [hL]; exact hm) hc
  · intro p k hq
    rcases hx.queued p k hq with h0 | ⟨i, j, l, m, hij, hl, hm, hc, hk⟩
    · exact ((h.queued p k).1 h0).mono hg'
    · obtain ⟨f1, f2⟩ := hf' (π i) (π j) (hP _ _ hij) l m (by rw [hL]; exact hl) (by rw [hL]; exact hm) p hc
      rcases hk with ⟨rfl, h1, h2⟩ | ⟨rfl, h1, h2⟩
      · exact f1 h1 h2
      · exact f2 h1 h2

/-- the same pairs are tested -/
theorem sweepPairs_renumber {L L' : List (Line2 K)} {π : Equiv.Perm Nat} (hL : Renumbered π L L') (sweep : V2 K) {e e' : SiteEvent}
    {is is' : List Nat} (hi : ∀ i, i ∈ is ↔ π i ∈ is')
    (ha : ∀ i, i ∈ e.add ↔ π i ∈ e'.add) (hn : ∀ i, i ∈ e.inter ↔ π i ∈ e'.inter) (hlen : e.inter.length + e.add.length = 0 ↔
      e'.inter.length + e'.add.length = 0) (a b : Nat) :
    (a, b) ∈ sweepPairs L sweep e is ↔ (π a, π b) ∈ sweepPairs L' sweep e' is' := by
  have hnb : ∀ i x s, NbEntry L' sweep e' is' (π i) x s ↔ NbEntry L sweep e is i x s := by
    intro i x s
    unfold NbEntry CrossesAt
    rw [hi, hn, hL i]
  have hcn : ∀ i s, ConnEntry L' (e'.add ++ e'.inter) (π i) s ↔ ConnEntry L (e.add ++ e.inter) i s := by
    intro i s
    unfold ConnEntry
    rw [List.mem_append, List.mem_append, ha, hn, hL i]
  have hl : ∀ i, π i ∈ (is'.foldl (nbStep L' sweep e') MinMax.new).slope.candLeft ↔ i ∈ (is.foldl (nbStep L sweep e) MinMax.new).slope.candLeft := by
    intro i
    rw [(nb_mem L sweep e is i).1, (nb_mem L' sweep e' is' (π i)).1]
    refine exists_congr fun x => exists_congr fun s => and_congr (by rw [hnb]) ?_
    rw [π.surjective.forall]
    simp only [hnb]
  have hr : ∀ i, π i ∈ (is'.foldl (nbStep L' sweep e') MinMax.new).slope.candRight ↔ i ∈ (is.foldl (nbStep L sweep e) MinMax.new).slope.candRight := by
    intro i
    rw [(nb_mem L sweep e is i).2, (nb_mem L' sweep e' is' (π i)).2]
    refine exists_congr fun x => exists_congr fun s => and_congr (by rw [hnb]) ?_
    rw [π.surjective.forall]
    simp only [hnb]
  have hcl : ∀ i, π i ∈ ((e'.add ++ e'.inter).foldl (connStep L') MinMaxSlope.new).candLeft ↔
      i ∈ ((e.add ++ e.inter).foldl (connStep L) MinMaxSlope.new).candLeft := by
    intro i
    rw [(conn_mem L _ i).1, (conn_mem L' _ (π i)).1]
    refine exists_congr fun s => and_congr (by rw [hcn]) ?_
    rw [π.surjective.forall]
    simp only [hcn]
  have hcr : ∀ i, π i ∈ ((e'.add ++ e'.inter).foldl (connStep L') MinMaxSlope.new).candRight ↔
      i ∈ ((e.add ++ e.inter).foldl (connStep L) MinMaxSlope.new).candRight := by
    intro i
    rw [(conn_mem L _ i).2, (conn_mem L' _ (π i)).2]
    refine exists_congr fun s => and_congr (by rw [hcn]) ?_
    rw [π.surjective.forall]
    simp only [hcn]
  unfold sweepPairs
  simp only
  by_cases h0 : e.inter.length + e.add.length = 0
  · rw [if_pos h0, if_pos (hlen.1 h0)]
    simp only [List.mem_flatMap, List.mem_map, Prod.mk.injEq, exists_eq_right_right, hl, hr]
  · rw [if_neg h0, if_neg (fun h => h0 (hlen.2 h))]
    simp only [List.mem_append, List.mem_flatMap, List.mem_map, Prod.mk.injEq, exists_eq_right_right, hl, hr, hcl, hcr]

/-- two runs with renumbered lines report the same, with renumbered lines -/
theorem sweepLoop_renumber (B B' : TreeShape K) {ops : SweepOps K ι σ} {ops' : SweepOps K ι' σ'} {L L' : List (Line2 K)}
    {π : Equiv.Perm Nat} (hR : Renumbered π L L') {T : σ → Prop}
    {Valid : σ → V2 K × ι → Prop} {T' : σ' → Prop} {Valid' : σ' → V2 K × ι' → Prop}
    (ho : OpsOk ops L T Valid) (ho' : OpsOk ops' L' T' Valid') (hL : Sound L) (hL' : Sound L') {Q Q' : List (V2 K)}
    (hQ : ∀ sweep, ∀ l ∈ L, ∀ m ∈ L, ∀ p, Cand sweep l m p → p ∈ Q)
    (hQ' : ∀ sweep, ∀ l ∈ L', ∀ m ∈ L', ∀ p, Cand sweep l m p → p ∈ Q')
    {ign stop : Bool} {order order' : Nat → List Nat → List Nat}
    (hord : ∀ n l, (order n l).Perm l) (hord' : ∀ n l, (order' n l).Perm l) :
    ∀ (fuel fuel' : Nat) (After : V2 K → Prop) (H : SiteMap K ι SiteEvent) (H' : SiteMap K ι' SiteEvent)
      (s : SweepState K ι σ) (s' : SweepState K ι' σ'),
      Inv L T Valid Q ign After H s → Inv L' T' Valid' Q' ign After H' s' → SameEvR π s.events s'.events → SameHistR π ign H H' →
      ∀ t t', (haveI := B; sweepLoop ops order ign stop fuel s = .ok t) → (haveI := B'; sweepLoop ops' order' ign stop fuel' s' = .ok t') →
        plainResult t'.result = renumberResult π (plainResult t.result) := by
  intro fuel
  induction fuel with
  | zero => intro fuel' After H H' s s' h h' he hh t t' ht ht'; cases ht
  | succ fuel ih =>
    intro fuel' After H H' s s' h h' he hh t t' ht ht'
    cases fuel' with
    | zero => cases ht'
    | succ fuel' =>
    unfold sweepLoop at ht ht'
    cases hev : s.events with
    | nil =>
      have hev' : s'.events = [] := by
        cases h0 : s'.events with
        | nil => rfl
        | cons x xs =>
          obtain ⟨y, hy, -⟩ := (he.pos x.1.1).2 ⟨x, by rw [h0]; exact List.mem_cons_self, rfl⟩
          rw [hev] at hy; cases hy
      rw [hev] at ht
      rw [hev'] at ht'
      simp only [Except.ok.injEq] at ht ht'
      subst ht; subst ht'
      exact h.plainResult_renumber h' hh
    | cons ke rest =>
      obtain ⟨key, e⟩ := ke
      cases hev' : s'.events with
      | nil =>
        obtain ⟨y, hy, -⟩ := (he.pos key.1).1 ⟨(key, e), by rw [hev]; exact List.mem_cons_self, rfl⟩
        rw [hev'] at hy; cases hy
      | cons ke' rest' =>
      obtain ⟨key', e'⟩ := ke'
      obtain ⟨u, h1, h2, h3⟩ := haveI := B; handleEvent_ok ho hL hQ (hord fuel) h hev
      obtain ⟨u', h1', h2', h3'⟩ := haveI := B'; handleEvent_ok ho' hL' hQ' (hord' fuel') h' hev'
      have hE : EvOk L key.1 e := h.einv.ev (key, e) (by simp only [hev]; exact List.mem_cons_self)
      have hE' : EvOk L' key'.1 e' := h'.einv.ev (key', e') (by simp only [hev']; exact List.mem_cons_self)
      have hs0 := h.einv.sorted
      have hs0' := h'.einv.sorted
      simp only [hev] at hs0
      simp only [hev'] at hs0'
      rw [hev, hev'] at he
      obtain ⟨hk, m1, m2, m3, hr⟩ := he.head hR hs0 hs0' hE hE'
      have p1 := perm_map_of_mem hE.addN hE'.addN m1
      have p2 := perm_map_of_mem hE.dropN hE'.dropN m2
      have p3 := perm_map_of_mem hE.interN hE'.interN m3
      have l1 : e.add.length = e'.add.length := by rw [← p1.length_eq, List.length_map]
      have l2 : e.drop.length = e'.drop.length := by rw [← p2.length_eq, List.length_map]
      have l3 : e.inter.length = e'.inter.length := by rw [← p3.length_eq, List.length_map]
      -- the same lines are on the sweep line
      have hact : ∀ i, i ∈ s.active ↔ π i ∈ s'.active := fun i => by rw [h.act, h'.act, hR i]
      have hact' : ∀ i, i ∈ order fuel (s.active.filter (fun i => !e.drop.contains i)) ↔
          π i ∈ order' fuel' (s'.active.filter (fun i => !e'.drop.contains i)) := by
        intro i
        rw [(hord _ _).mem_iff, (hord' _ _).mem_iff, List.mem_filter, List.mem_filter, hact]
        simp [m2]
      have hpairs := sweepPairs_renumber hR key.1 hact' m1 m3 (by rw [l1, l3])
      obtain ⟨-, -, gr1, f1, x1⟩ := h3
      obtain ⟨-, -, gr1', f1', x1'⟩ := h3'
      rw [← hk] at x1' f1'
      obtain ⟨q1, q2⟩ := exactly_halfR hR (fun i j hp => (hpairs i j).1 hp) hr x1 x1' gr1' f1'
      obtain ⟨q1', q2'⟩ := exactly_halfR hR.symm (fun i j hp => (hpairs _ _).2 (by
        rw [Equiv.apply_symm_apply, Equiv.apply_symm_apply]; exact hp)) hr.symm x1' x1 gr1 f1
      have he2 : SameEvR π u.events u'.events := ⟨fun p => ⟨q1 p, q1' p⟩, fun p i => ⟨q2 p i, fun h => by
        have := q2' p _ h
        rwa [Equiv.symm_apply_apply] at this⟩⟩
      have hrep : Reportable ign e ↔ Reportable ign e' := by
        unfold Reportable
        rw [l1, l2, l3]
        cases ign
        · exact Iff.rfl
        · simp only [if_true, ne_eq]
          rw [← List.length_eq_zero_iff, ← List.length_eq_zero_iff, l3]
      have hall : renumber π (allAt e) = allAt e' := by
        refine sort_eq ?_
        refine ((List.perm_insertionSort _ _).map π).trans ?_
        rw [List.map_append, List.map_append]
        exact p2.append (p1.append p3)
      have hh2 : SameHistR π ign ((key, e) :: H) ((key', e') :: H') := by
        intro p v
        simp only [List.mem_cons, exists_eq_or_imp]
        rw [hk, hall, hrep]
        exact or_congr Iff.rfl (hh p v)
      have hres := h2.plainResult_renumber h2' hh2
      have hemp : u.result.isEmpty = u'.result.isEmpty := by
        have := congrArg List.isEmpty hres
        unfold renumberResult plainResult at this
        simpa using this.symm
      rw [hev] at ht
      rw [hev'] at ht'
      have pop := @popFirst_sorted _ _ _ _ _ _ _ B _ _ _ hs0
      have pop' := @popFirst_sorted _ _ _ _ _ _ _ B' _ _ _ hs0'
      simp only [pop, pop', h1, h1', bind, Except.bind] at ht ht'
      rw [← hemp] at ht'
      by_cases hc : (!u.result.isEmpty && stop) = true
      · rw [if_pos hc] at ht ht'
        simp only [Except.ok.injEq] at ht ht'
        subst ht; subst ht'
        exact hres
      · rw [if_neg hc] at ht ht'
        rw [← hk] at h2'
        exact ih fuel' _ _ _ u u' h2 h2' he2 hh2 t t' ht ht'

end
end Verif.Sweep
