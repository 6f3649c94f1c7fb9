import Verif.Proofs.SweepOrder
/-!
# The sweep line algorithm: two runs on moved lines report the same
-/
set_option linter.unusedSectionVars false
set_option linter.unusedVariables false
set_option linter.unusedSimpArgs false
namespace Verif.Sweep
open Verif Verif.Spec Verif.Model Verif.Proofs.Intersect

section
variable {K : Type} [Scalar K] [Field K] [LinearOrder K] [ExactScalar K] {ι ι' σ σ' : Type}

/-- the line with mapped ends -/
def mapLine (f : V2 K → V2 K) (l : Line2 K) : Line2 K := ⟨f l.start, f l.end⟩

/-- `f` maps the plane (and `g` the first coordinate) so that the sweep does not notice -/
structure SweepMap (f : V2 K → V2 K) (g : K → K) : Prop where
  inj : ∀ p q, f p = f q → p = q
  surj : ∀ p', ∃ p, f p = p'
  before : ∀ p q, SweepBefore (f p) (f q) ↔ SweepBefore p q
  meet : ∀ l m, (mapLine f l).intersectionPoint (mapLine f m) = none ∧ l.intersectionPoint m = none ∨
    ∃ i i', (mapLine f l).intersectionPoint (mapLine f m) = some i' ∧ l.intersectionPoint m = some i ∧ i'.single = f i.single
  cross : ∀ sweep l, sweeplineIntersection (f sweep) (mapLine f l) = (sweeplineIntersection sweep l).map (fun v => (g v.1, v.2))
  mono : ∀ x y, g x < g y ↔ x < y
  fst : ∀ p, (f p).x = g p.x
  slope : ∀ l, bothSlope (mapLine f l) = bothSlope l

variable {f : V2 K → V2 K} {g : K → K}

theorem SweepMap.ne (h : SweepMap f g) {p q : V2 K} : f p ≠ f q ↔ p ≠ q :=
  ⟨fun hn e => hn (congrArg f e), fun hn e => hn (h.inj _ _ e)⟩

theorem SweepMap.eq (h : SweepMap f g) {p q : V2 K} : f p = f q ↔ p = q := ⟨h.inj p q, congrArg f⟩

theorem SweepMap.cand (h : SweepMap f g) (sweep : V2 K) (l m : Line2 K) (p : V2 K) :
    Cand (f sweep) (mapLine f l) (mapLine f m) (f p) ↔ Cand sweep l m p := by
  unfold Cand
  refine and_congr h.ne ?_
  rcases h.meet l m with ⟨e1, e2⟩ | ⟨i, i', e1, e2, e3⟩
  · rw [e1, e2]; simp
  · rw [e1, e2]
    constructor
    · rintro ⟨it, h1, h2, h3⟩
      simp only [Option.some_inj] at h1
      subst h1
      rw [e3] at h2
      exact ⟨i, rfl, h.inj _ _ h2, (h.before _ _).1 h3⟩
    · rintro ⟨it, h1, h2, h3⟩
      simp only [Option.some_inj] at h1
      subst h1
      exact ⟨i', rfl, by rw [e3, h2], (h.before _ _).2 h3⟩

theorem SweepMap.lo (h : SweepMap f g) (l : Line2 K) : lo (mapLine f l) = f (lo l) ∧ hi (mapLine f l) = f (hi l) := by
  have key : siteCmp (f l.start) (f l.end) = some .lt ↔ siteCmp l.start l.end = some .lt := by
    rcases before_total l.start l.end with b | b | b
    · rw [siteCmp_lt b, siteCmp_lt ((h.before _ _).2 b)]
    · rw [b, siteCmp_self, siteCmp_self]
    · rw [siteCmp_gt b, siteCmp_gt ((h.before _ _).2 b)]
  unfold Sweep.lo Sweep.hi mapLine
  simp only
  by_cases hc : siteCmp l.start l.end = some .lt
  · rw [if_pos hc, if_pos hc, if_pos (key.2 hc), if_pos (key.2 hc)]; exact ⟨rfl, rfl⟩
  · rw [if_neg hc, if_neg hc, if_neg (fun e => hc (key.1 e)), if_neg (fun e => hc (key.1 e))]; exact ⟨rfl, rfl⟩

/-- the two queues have the same events, at mapped positions -/
structure SameEvM (f : V2 K → V2 K) (a : SiteMap K ι SiteEvent) (b : SiteMap K ι' SiteEvent) : Prop where
  pos : ∀ p, (∃ e ∈ a, e.1.1 = p) ↔ ∃ e ∈ b, e.1.1 = f p
  queued : ∀ p i, Queued a p i ↔ Queued b (f p) i

/-- the two histories report the same, at mapped positions -/
def SameHistM (f : V2 K → V2 K) (ign : Bool) (a : SiteMap K ι SiteEvent) (b : SiteMap K ι' SiteEvent) : Prop :=
  ∀ p v, (∃ h ∈ a, h.1.1 = p ∧ Reportable ign h.2 ∧ allAt h.2 = v) ↔ ∃ h ∈ b, h.1.1 = f p ∧ Reportable ign h.2 ∧ allAt h.2 = v

/-- a result at mapped positions -/
def mapResult (f : V2 K → V2 K) (r : List (V2 K × List Nat)) : List (V2 K × List Nat) := r.map (fun x => (f x.1, x.2))

theorem Inv.plainResult_move {L L' : List (Line2 K)} {T : σ → Prop} {Valid : σ → V2 K × ι → Prop} {T' : σ' → Prop}
    {Valid' : σ' → V2 K × ι' → Prop} {Q Q' : List (V2 K)} {ign : Bool} {A A' : V2 K → Prop} {H : SiteMap K ι SiteEvent}
    {H' : SiteMap K ι' SiteEvent} {s : SweepState K ι σ} {s' : SweepState K ι' σ'} (hf : SweepMap f g) (h : Inv L T Valid Q ign A H s)
    (h' : Inv L' T' Valid' Q' ign A' H' s') (hh : SameHistM f ign H H') :
    plainResult s'.result = mapResult f (plainResult s.result) := by
  refine sorted_ext (List.pairwise_map.2 h'.resSorted) (List.pairwise_map.2 (List.pairwise_map.2
    (h.resSorted.imp fun hb => (hf.before _ _).2 hb))) ?_
  rintro ⟨p', v⟩
  obtain ⟨p, rfl⟩ := hf.surj p'
  rw [mem_plainResult]
  have e1 : (f p, v) ∈ mapResult f (plainResult s.result) ↔
      ∃ h ∈ H, h.1.1 = p ∧ Reportable ign h.2 ∧ allAt h.2 = v := by
    unfold mapResult
    rw [List.mem_map]
    constructor
    · rintro ⟨⟨p0, v0⟩, hx, hp⟩
      obtain ⟨k, hk, rfl, rfl⟩ := mem_plainResult.1 hx
      obtain ⟨h0, hh0, hr, rfl⟩ := (h.res k).1 hk
      simp only [Prod.mk.injEq] at hp
      exact ⟨h0, hh0, hf.inj _ _ hp.1, hr, hp.2⟩
    · rintro ⟨h0, hh0, rfl, hr, rfl⟩
      exact ⟨(h0.1.1, allAt h0.2), mem_plainResult.2 ⟨(h0.1, allAt h0.2), (h.res _).2 ⟨h0, hh0, hr, rfl⟩, rfl, rfl⟩, rfl⟩
  have e2 : (∃ k ∈ s'.result, k.1.1 = f p ∧ k.2 = v) ↔ ∃ h ∈ H', h.1.1 = f p ∧ Reportable ign h.2 ∧ allAt h.2 = v := by
    constructor
    · rintro ⟨k, hk, hp, rfl⟩
      obtain ⟨h0, hh0, hr, rfl⟩ := (h'.res k).1 hk
      exact ⟨h0, hh0, hp, hr, rfl⟩
    · rintro ⟨h0, hh0, hp, hr, rfl⟩
      exact ⟨(h0.1, allAt h0.2), (h'.res _).2 ⟨h0, hh0, hr, rfl⟩, hp, rfl⟩
  rw [e1, e2]
  exact (hh p v).symm

/-- the first events are at the same place, with the same lines -/
theorem SameEvM.head (hf : SweepMap f g) {L : List (Line2 K)} {k : V2 K × ι} {k' : V2 K × ι'}
    {e e' : SiteEvent} {r : SiteMap K ι SiteEvent}
    {r' : SiteMap K ι' SiteEvent} (h : SameEvM f ((k, e) :: r) ((k', e') :: r')) (hs : Sorted ((k, e) :: r)) (hs' : Sorted ((k', e') :: r'))
    (hE : EvOk L k.1 e) (hE' : EvOk (L.map (mapLine f)) k'.1 e') :
    k'.1 = f k.1 ∧ e.add.Perm e'.add ∧ e.drop.Perm e'.drop ∧ e.inter.Perm e'.inter ∧ SameEvM f r r' := by
  obtain ⟨a1, a2⟩ := List.pairwise_cons.1 hs
  obtain ⟨b1, b2⟩ := List.pairwise_cons.1 hs'
  have hk : k'.1 = f k.1 := by
    obtain ⟨x, hx, hxp⟩ := (h.pos k.1).1 ⟨_, List.mem_cons_self, rfl⟩
    obtain ⟨q, hq⟩ := hf.surj k'.1
    obtain ⟨y, hy, hyp⟩ := (h.pos q).2 ⟨_, List.mem_cons_self, hq.symm⟩
    rcases List.mem_cons.1 hx with rfl | hx
    · exact hxp
    rcases List.mem_cons.1 hy with rfl | hy
    · rw [← hq, ← hyp]
    have g1 := b1 x hx
    have g2 := a1 y hy
    simp only at g1 g2
    rw [hxp, ← hq, hf.before] at g1
    rw [hyp] at g2
    exact absurd (before_trans g1 g2) (before_irrefl _)
  have hq : ∀ i, Queued ((k, e) :: r) k.1 i ↔ i ∈ e.inter := by
    intro i
    constructor
    · rintro ⟨x, hx, hp, hi⟩
      rcases List.mem_cons.1 hx with rfl | hx
      · exact hi
      · have := a1 x hx; simp only at this; rw [hp] at this; exact absurd this (before_irrefl _)
    · intro hi; exact ⟨_, List.mem_cons_self, rfl, hi⟩
  have hq' : ∀ i, Queued ((k', e') :: r') k'.1 i ↔ i ∈ e'.inter := by
    intro i
    constructor
    · rintro ⟨x, hx, hp, hi⟩
      rcases List.mem_cons.1 hx with rfl | hx
      · exact hi
      · have := b1 x hx; simp only at this; rw [hp] at this; exact absurd this (before_irrefl _)
    · intro hi; exact ⟨_, List.mem_cons_self, rfl, hi⟩
  refine ⟨hk, ?_, ?_, ?_, ?_⟩
  · refine (List.perm_ext_iff_of_nodup hE.addN hE'.addN).2 fun i => ?_
    rw [hE.add, hE'.add, hk, List.getElem?_map]
    cases L[i]? with
    | none => simp
    | some l => simp [(hf.lo l).1, hf.eq]
  · refine (List.perm_ext_iff_of_nodup hE.dropN hE'.dropN).2 fun i => ?_
    rw [hE.drop, hE'.drop, hk, List.getElem?_map]
    cases L[i]? with
    | none => simp
    | some l => simp [(hf.lo l).2, hf.eq]
  · refine (List.perm_ext_iff_of_nodup hE.interN hE'.interN).2 fun i => ?_
    rw [← hq, ← hq', hk]
    exact h.queued _ _
  · constructor
    · intro p
      constructor
      · rintro ⟨x, hx, rfl⟩
        obtain ⟨y, hy, hyp⟩ := (h.pos x.1.1).1 ⟨x, List.mem_cons_of_mem _ hx, rfl⟩
        rcases List.mem_cons.1 hy with rfl | hy
        · have := a1 x hx; simp only at this hyp; rw [hk] at hyp; rw [← hf.inj _ _ hyp] at this; exact absurd this (before_irrefl _)
        · exact ⟨y, hy, hyp⟩
      · rintro ⟨x, hx, hxp⟩
        obtain ⟨y, hy, hyp⟩ := (h.pos p).2 ⟨x, List.mem_cons_of_mem _ hx, hxp⟩
        rcases List.mem_cons.1 hy with rfl | hy
        · have := b1 x hx; simp only at this hyp; rw [hk, hyp, hxp] at this; exact absurd this (before_irrefl _)
        · exact ⟨y, hy, hyp⟩
    · intro p i
      constructor
      · rintro ⟨x, hx, rfl, hi⟩
        obtain ⟨y, hy, hyp, hyi⟩ := (h.queued x.1.1 i).1 ⟨x, List.mem_cons_of_mem _ hx, rfl, hi⟩
        rcases List.mem_cons.1 hy with rfl | hy
        · have := a1 x hx; simp only at this hyp; rw [hk] at hyp; rw [← hf.inj _ _ hyp] at this; exact absurd this (before_irrefl _)
        · exact ⟨y, hy, hyp, hyi⟩
      · rintro ⟨x, hx, hxp, hi⟩
        obtain ⟨y, hy, hyp, hyi⟩ := (h.queued p i).2 ⟨x, List.mem_cons_of_mem _ hx, hxp, hi⟩
        rcases List.mem_cons.1 hy with rfl | hy
        · have := b1 x hx; simp only at this hyp; rw [hk, hyp, hxp] at this; exact absurd this (before_irrefl _)
        · exact ⟨y, hy, hyp, hyi⟩

theorem getMap {L : List (Line2 K)} {i : Nat} {l' : Line2 K} (h : (L.map (mapLine f))[i]? = some l') : ∃ l, L[i]? = some l ∧ l' = mapLine f l := by
  rw [List.getElem?_map, Option.map_eq_some_iff] at h
  obtain ⟨l, h1, h2⟩ := h
  exact ⟨l, h1, h2.symm⟩

theorem mapGet {L : List (Line2 K)} {i : Nat} {l : Line2 K} (h : L[i]? = some l) : (L.map (mapLine f))[i]? = some (mapLine f l) := by
  rw [List.getElem?_map, h]; rfl

/-- the same pairs are tested -/
theorem sweepPairs_move (hf : SweepMap f g) (L : List (Line2 K)) (sweep : V2 K) {e e' : SiteEvent}
    {is is' : List Nat} (hi : ∀ i, i ∈ is ↔ i ∈ is') (ha : e.add.Perm e'.add) (hn : e.inter.Perm e'.inter) (p : Nat × Nat) :
    p ∈ sweepPairs L sweep e is ↔ p ∈ sweepPairs (L.map (mapLine f)) (f sweep) e' is' := by
  have hnb : ∀ i x' s, NbEntry (L.map (mapLine f)) (f sweep) e' is' i x' s ↔ ∃ x, g x = x' ∧ NbEntry L sweep e is i x s := by
    intro i x' s
    unfold NbEntry CrossesAt
    rw [hi, hn.mem_iff]
    constructor
    · rintro ⟨h1, h2, l', hl', hc⟩
      obtain ⟨l, hl, rfl⟩ := getMap hl'
      rw [hf.cross, Option.map_eq_some_iff] at hc
      obtain ⟨⟨x, t⟩, hc1, hc2⟩ := hc
      simp only [Prod.mk.injEq] at hc2
      obtain ⟨rfl, rfl⟩ := hc2
      exact ⟨x, rfl, h1, h2, l, hl, hc1⟩
    · rintro ⟨x, rfl, h1, h2, l, hl, hc⟩
      exact ⟨h1, h2, _, mapGet hl, by rw [hf.cross, hc]; rfl⟩
  have hle : ∀ x y, g x ≤ g y ↔ x ≤ y := fun x y => by rw [← not_lt, hf.mono, not_lt]
  have heq : ∀ x y, g x = g y ↔ x = y := fun x y => by rw [le_antisymm_iff, hle, hle, ← le_antisymm_iff]
  have hcn : ∀ i s, ConnEntry (L.map (mapLine f)) (e'.add ++ e'.inter) i s ↔ ConnEntry L (e.add ++ e.inter) i s := by
    intro i s
    unfold ConnEntry
    rw [List.mem_append, List.mem_append, ha.mem_iff, hn.mem_iff, List.getElem?_map]
    cases L[i]? with
    | none => simp
    | some l => simp [hf.slope]
  have hl : ∀ i, i ∈ (is.foldl (nbStep L sweep e) MinMax.new).slope.candLeft ↔
      i ∈ (is'.foldl (nbStep (L.map (mapLine f)) (f sweep) e') MinMax.new).slope.candLeft := by
    intro i
    rw [(nb_mem L sweep e is i).1, (nb_mem _ (f sweep) e' is' i).1, hf.fst]
    constructor
    · rintro ⟨x, s, ⟨h1, h2⟩, h3⟩
      refine ⟨g x, s, ⟨(hf.mono _ _).2 h1, (hnb _ _ _).2 ⟨x, rfl, h2⟩⟩, ?_⟩
      rintro j y' t ⟨h4, h5⟩
      obtain ⟨y, rfl, h6⟩ := (hnb _ _ _).1 h5
      obtain ⟨h7, h8⟩ := h3 j y t ⟨(hf.mono _ _).1 h4, h6⟩
      exact ⟨(hle _ _).2 h7, fun e => h8 ((heq _ _).1 e)⟩
    · rintro ⟨x', s, ⟨h1, h2⟩, h3⟩
      obtain ⟨x, rfl, h2'⟩ := (hnb _ _ _).1 h2
      refine ⟨x, s, ⟨(hf.mono _ _).1 h1, h2'⟩, ?_⟩
      rintro j y t ⟨h4, h5⟩
      obtain ⟨h7, h8⟩ := h3 j (g y) t ⟨(hf.mono _ _).2 h4, (hnb _ _ _).2 ⟨y, rfl, h5⟩⟩
      exact ⟨(hle _ _).1 h7, fun e => h8 ((heq _ _).2 e)⟩
  have hr : ∀ i, i ∈ (is.foldl (nbStep L sweep e) MinMax.new).slope.candRight ↔
      i ∈ (is'.foldl (nbStep (L.map (mapLine f)) (f sweep) e') MinMax.new).slope.candRight := by
    intro i
    rw [(nb_mem L sweep e is i).2, (nb_mem _ (f sweep) e' is' i).2, hf.fst]
    constructor
    · rintro ⟨x, s, ⟨h1, h2⟩, h3⟩
      refine ⟨g x, s, ⟨(hf.mono _ _).2 h1, (hnb _ _ _).2 ⟨x, rfl, h2⟩⟩, ?_⟩
      rintro j y' t ⟨h4, h5⟩
      obtain ⟨y, rfl, h6⟩ := (hnb _ _ _).1 h5
      obtain ⟨h7, h8⟩ := h3 j y t ⟨(hf.mono _ _).1 h4, h6⟩
      exact ⟨(hle _ _).2 h7, fun e => h8 ((heq _ _).1 e)⟩
    · rintro ⟨x', s, ⟨h1, h2⟩, h3⟩
      obtain ⟨x, rfl, h2'⟩ := (hnb _ _ _).1 h2
      refine ⟨x, s, ⟨(hf.mono _ _).1 h1, h2'⟩, ?_⟩
      rintro j y t ⟨h4, h5⟩
      obtain ⟨h7, h8⟩ := h3 j (g y) t ⟨(hf.mono _ _).2 h4, (hnb _ _ _).2 ⟨y, rfl, h5⟩⟩
      exact ⟨(hle _ _).1 h7, fun e => h8 ((heq _ _).2 e)⟩
  have hcl : ∀ i, i ∈ ((e.add ++ e.inter).foldl (connStep L) MinMaxSlope.new).candLeft ↔
      i ∈ ((e'.add ++ e'.inter).foldl (connStep (L.map (mapLine f))) MinMaxSlope.new).candLeft := by
    intro i
    rw [(conn_mem L _ i).1, (conn_mem _ _ i).1]
    simp only [hcn]
  have hcr : ∀ i, i ∈ ((e.add ++ e.inter).foldl (connStep L) MinMaxSlope.new).candRight ↔
      i ∈ ((e'.add ++ e'.inter).foldl (connStep (L.map (mapLine f))) MinMaxSlope.new).candRight := by
    intro i
    rw [(conn_mem L _ i).2, (conn_mem _ _ i).2]
    simp only [hcn]
  unfold sweepPairs
  simp only
  rw [ha.length_eq, hn.length_eq]
  split
  · simp only [List.mem_flatMap, List.mem_map, hl, hr]
  · simp only [List.mem_append, List.mem_flatMap, List.mem_map, hl, hr, hcl, hcr]

/-- two runs, the second on the mapped lines, report the same at mapped positions -/
theorem sweepLoop_move (hf : SweepMap f g) (B B' : TreeShape K) {ops : SweepOps K ι σ} {ops' : SweepOps K ι' σ'} {L : List (Line2 K)}
    {T : σ → Prop}
    {Valid : σ → V2 K × ι → Prop} {T' : σ' → Prop} {Valid' : σ' → V2 K × ι' → Prop}
    (ho : OpsOk ops L T Valid) (ho' : OpsOk ops' (L.map (mapLine f)) T' Valid') (hL : Sound L) (hL' : Sound (L.map (mapLine f)))
    {Q Q' : List (V2 K)}
    (hQ : ∀ sweep, ∀ l ∈ L, ∀ m ∈ L, ∀ p, Cand sweep l m p → p ∈ Q)
    (hQ' : ∀ sweep, ∀ l ∈ L.map (mapLine f), ∀ m ∈ L.map (mapLine f), ∀ p, Cand sweep l m p → p ∈ Q')
    {ign stop : Bool} {order order' : Nat → List Nat → List Nat}
    (hord : ∀ n l, (order n l).Perm l) (hord' : ∀ n l, (order' n l).Perm l) :
    ∀ (fuel fuel' : Nat) (After After' : V2 K → Prop) (H : SiteMap K ι SiteEvent) (H' : SiteMap K ι' SiteEvent)
      (s : SweepState K ι σ) (s' : SweepState K ι' σ'), (∀ p, After' (f p) ↔ After p) →
      Inv L T Valid Q ign After H s → Inv (L.map (mapLine f)) T' Valid' Q' ign After' H' s' → SameEvM f s.events s'.events → SameHistM f ign H H' →
      ∀ t t', (haveI := B; sweepLoop ops order ign stop fuel s = .ok t) → (haveI := B'; sweepLoop ops' order' ign stop fuel' s' = .ok t') →
        plainResult t'.result = mapResult f (plainResult t.result) := by
  intro fuel
  induction fuel with
  | zero => intro fuel' After After' H H' s s' haf h h' he hh t t' ht ht'; cases ht
  | succ fuel ih =>
    intro fuel' After After' H H' s s' haf h h' he hh t t' ht ht'
    cases fuel' with
    | zero => cases ht'
    | succ fuel' =>
    unfold sweepLoop at ht ht'
    cases hev : s.events with
    | nil =>
      have hev' : s'.events = [] := by
        cases h0 : s'.events with
        | nil => rfl
        | cons x xs =>
          obtain ⟨q, hq⟩ := hf.surj x.1.1
          obtain ⟨y, hy, -⟩ := (he.pos q).2 ⟨x, by rw [h0]; exact List.mem_cons_self, hq.symm⟩
          rw [hev] at hy; cases hy
      rw [hev] at ht
      rw [hev'] at ht'
      simp only [Except.ok.injEq] at ht ht'
      subst ht; subst ht'
      exact h.plainResult_move hf h' hh
    | cons ke rest =>
      obtain ⟨key, e⟩ := ke
      cases hev' : s'.events with
      | nil =>
        obtain ⟨y, hy, -⟩ := (he.pos key.1).1 ⟨(key, e), by rw [hev]; exact List.mem_cons_self, rfl⟩
        rw [hev'] at hy; cases hy
      | cons ke' rest' =>
      obtain ⟨key', e'⟩ := ke'
      obtain ⟨u, h1, h2, h3⟩ := haveI := B; handleEvent_ok ho hL hQ (hord fuel) h hev
      obtain ⟨u', h1', h2', h3'⟩ := haveI := B'; handleEvent_ok ho' hL' hQ' (hord' fuel') h' hev'
      have hE : EvOk L key.1 e := h.einv.ev (key, e) (by simp only [hev]; exact List.mem_cons_self)
      have hE' : EvOk (L.map (mapLine f)) key'.1 e' := h'.einv.ev (key', e') (by simp only [hev']; exact List.mem_cons_self)
      have hs0 := h.einv.sorted
      have hs0' := h'.einv.sorted
      simp only [hev] at hs0
      simp only [hev'] at hs0'
      rw [hev, hev'] at he
      obtain ⟨hk, p1, p2, p3, hr⟩ := he.head hf hs0 hs0' hE hE'
      -- the same lines are on the sweep line
      have hact : ∀ i, i ∈ s.active ↔ i ∈ s'.active := fun i => by
        rw [h.act, h'.act, List.getElem?_map]
        cases L[i]? with
        | none => simp
        | some l =>
          simp only [Option.map_some, Option.some_inj, exists_eq_left', (hf.lo l).1, (hf.lo l).2, haf, hf.eq]
      have hact' : ∀ i, i ∈ order fuel (s.active.filter (fun i => !e.drop.contains i)) ↔
          i ∈ order' fuel' (s'.active.filter (fun i => !e'.drop.contains i)) := by
        intro i
        rw [(hord _ _).mem_iff, (hord' _ _).mem_iff, List.mem_filter, List.mem_filter, hact]
        simp [p2.mem_iff]
      have hpairs := sweepPairs_move hf L key.1 hact' p1 p3
      obtain ⟨-, -, gr1, f1, x1⟩ := h3
      obtain ⟨-, -, gr1', f1', x1'⟩ := h3'
      rw [hk] at x1' f1'
      have he2 : SameEvM f u.events u'.events := by
        constructor
        · intro p
          constructor
          · rintro ⟨e0, he0, rfl⟩
            rcases x1.only e0 he0 with h0 | ⟨i, j, l, m, hij, hl, hm, hc⟩
            · obtain ⟨x, hx0, hxp⟩ := (hr.pos _).1 h0
              obtain ⟨y, hy, hyk, -⟩ := gr1' x hx0
              exact ⟨y, hy, by rw [hyk]; exact hxp⟩
            · exact x1'.here i j _ _ _ ((hpairs _).1 hij) (mapGet hl) (mapGet hm) ((hf.cand _ _ _ _).2 hc)
          · rintro ⟨e0, he0, hp⟩
            rcases x1'.only e0 he0 with h0 | ⟨i, j, l', m', hij, hl, hm, hc⟩
            · rw [hp] at h0
              obtain ⟨x, hx0, hxp⟩ := (hr.pos p).2 h0
              obtain ⟨y, hy, hyk, -⟩ := gr1 x hx0
              exact ⟨y, hy, by rw [hyk]; exact hxp⟩
            · obtain ⟨l, kl, rfl⟩ := getMap hl
              obtain ⟨m, km, rfl⟩ := getMap hm
              rw [hp] at hc
              exact x1.here i j _ _ _ ((hpairs _).2 hij) kl km ((hf.cand _ _ _ _).1 hc)
        · intro p k
          constructor
          · intro hq
            rcases x1.queued p k hq with h0 | ⟨i, j, l, m, hij, hl, hm, hc, hk⟩
            · exact ((hr.queued p k).1 h0).mono gr1'
            · obtain ⟨g1, g2⟩ := f1' i j ((hpairs _).1 hij) _ _ (mapGet hl) (mapGet hm) _ ((hf.cand _ _ _ _).2 hc)
              rcases hk with ⟨rfl, h1, h2⟩ | ⟨rfl, h1, h2⟩
              · exact g1 (hf.ne.2 h1) (hf.ne.2 h2)
              · exact g2 (hf.ne.2 h1) (hf.ne.2 h2)
          · intro hq
            rcases x1'.queued (f p) k hq with h0 | ⟨i, j, l', m', hij, hl, hm, hc, hk⟩
            · exact ((hr.queued p k).2 h0).mono gr1
            · obtain ⟨l, kl, rfl⟩ := getMap hl
              obtain ⟨m, km, rfl⟩ := getMap hm
              obtain ⟨g1, g2⟩ := f1 i j ((hpairs _).2 hij) _ _ kl km _ ((hf.cand _ _ _ _).1 hc)
              rcases hk with ⟨rfl, h1, h2⟩ | ⟨rfl, h1, h2⟩
              · exact g1 (hf.ne.1 h1) (hf.ne.1 h2)
              · exact g2 (hf.ne.1 h1) (hf.ne.1 h2)
      have hrep : Reportable ign e ↔ Reportable ign e' := by
        unfold Reportable
        rw [p1.length_eq, p2.length_eq, p3.length_eq]
        cases ign
        · exact Iff.rfl
        · simp only [if_true, ne_eq]
          rw [← List.length_eq_zero_iff, ← List.length_eq_zero_iff, p3.length_eq]
      have hall : allAt e = allAt e' := sort_eq (p2.append (p1.append p3))
      have hh2 : SameHistM f ign ((key, e) :: H) ((key', e') :: H') := by
        intro p v
        simp only [List.mem_cons, exists_eq_or_imp]
        rw [hk, hall, hrep, hf.eq]
        exact or_congr Iff.rfl (hh p v)
      have hres := h2.plainResult_move hf h2' hh2
      have hemp : u.result.isEmpty = u'.result.isEmpty := by
        have := congrArg List.isEmpty hres
        unfold mapResult plainResult at this
        simpa using this.symm
      rw [hev] at ht
      rw [hev'] at ht'
      have pop := @popFirst_sorted _ _ _ _ _ _ _ B _ _ _ hs0
      have pop' := @popFirst_sorted _ _ _ _ _ _ _ B' _ _ _ hs0'
      simp only [pop, pop', h1, h1', bind, Except.bind] at ht ht'
      rw [← hemp] at ht'
      by_cases hc : (!u.result.isEmpty && stop) = true
      · rw [if_pos hc] at ht ht'
        simp only [Except.ok.injEq] at ht ht'
        subst ht; subst ht'
        exact hres
      · rw [if_neg hc] at ht ht'
        rw [hk] at h2'
        exact ih fuel' _ _ _ _ u u' (fun p => hf.before _ _) h2 h2' he2 hh2 t t' ht ht'

end
end Verif.Sweep
