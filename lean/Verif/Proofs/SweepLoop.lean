import Verif.Proofs.Sweep
/-!
# The sweep line algorithm: the main loop
-/
set_option linter.unusedSectionVars false
set_option linter.unusedVariables false
set_option linter.unusedSimpArgs false
namespace Verif.Sweep
open Verif Verif.Spec Verif.Model Verif.Proofs.Intersect

section
variable {K : Type} [Scalar K] [Field K] [LinearOrder K] [ExactScalar K] {ι σ V : Type}

theorem sweepPairs_ok {L : List (Line2 K)} {sweep : V2 K} {e : SiteEvent} {is : List Nat} (hE : EvOk L sweep e)
    (hact : ∀ i ∈ is, i < L.length ∧ i ∉ e.add) : ∀ ij ∈ sweepPairs L sweep e is,
    ij.1 < L.length ∧ ij.2 < L.length ∧ ij.1 ≠ ij.2 := by
  have hnb := nbFold_ok L sweep e is is MinMax.new (fun _ h => h)
    ⟨fun i h => by simp [MinMax.new, MinMaxSlope.new] at h, fun i h => by simp [MinMax.new, MinMaxSlope.new] at h⟩
  intro ij hij
  unfold sweepPairs at hij
  simp only at hij
  have hcon : ∀ k, k ∈ e.add ++ e.inter → k < L.length := by
    intro k hk
    rcases List.mem_append.1 hk with hk | hk
    · obtain ⟨l, hl, -⟩ := (hE.add k).1 hk
      exact (List.getElem?_eq_some_iff.1 hl).1
    · obtain ⟨l, hl, -⟩ := hE.inter k hk
      exact (List.getElem?_eq_some_iff.1 hl).1
  have hcf := connFold_cand L (e.add ++ e.inter) MinMaxSlope.new
  by_cases hc : e.inter.length + e.add.length = 0
  · rw [if_pos hc] at hij
    obtain ⟨a, ha, hab⟩ := List.mem_flatMap.1 hij
    obtain ⟨b, hb, rfl⟩ := List.mem_map.1 hab
    obtain ⟨h1, -, x, s, ⟨l, hl, hx⟩, hlt⟩ := hnb.left a ha
    obtain ⟨h2, -, x', s', ⟨l', hl', hx'⟩, hlt'⟩ := hnb.right b hb
    refine ⟨(hact a h1).1, (hact b h2).1, ?_⟩
    rintro h
    simp only at h
    subst h
    rw [hl] at hl'
    simp only [Option.some_inj] at hl'
    subst hl'
    rw [hx] at hx'
    simp only [Option.some_inj, Prod.mk.injEq] at hx'
    rw [hx'.1] at hlt
    exact lt_asymm hlt hlt'
  · rw [if_neg hc] at hij
    rcases List.mem_append.1 hij with hij | hij
    · obtain ⟨a, ha, hab⟩ := List.mem_flatMap.1 hij
      obtain ⟨b, hb, rfl⟩ := List.mem_map.1 hab
      obtain ⟨h1, h2, -⟩ := hnb.left a ha
      have hb' := ((hcf b).1 hb).resolve_left (by simp [MinMaxSlope.new])
      refine ⟨(hact a h1).1, hcon b hb', ?_⟩
      rintro h
      simp only at h
      subst h
      rcases List.mem_append.1 hb' with h | h
      · exact (hact a h1).2 h
      · exact h2 h
    · obtain ⟨a, ha, hab⟩ := List.mem_flatMap.1 hij
      obtain ⟨b, hb, rfl⟩ := List.mem_map.1 hab
      obtain ⟨h1, h2, -⟩ := hnb.right a ha
      have hb' := ((hcf b).2 hb).resolve_left (by simp [MinMaxSlope.new])
      refine ⟨(hact a h1).1, hcon b hb', ?_⟩
      rintro h
      simp only at h
      subst h
      rcases List.mem_append.1 hb' with h | h
      · exact (hact a h1).2 h
      · exact h2 h

/-- `newEvents` tests the pairs `sweepPairs` -/
theorem newEvents_eq [TreeShape K] {ops : SweepOps K ι σ} {L : List (Line2 K)} {T : σ → Prop} {Valid : σ → V2 K × ι → Prop}
    (ho : OpsOk ops L T Valid) {s : σ × SiteMap K ι SiteEvent} (ht : T s.1) {sweep : V2 K} {e : SiteEvent}
    {is : List Nat} (hE : EvOk L sweep e) :
    newEvents ops sweep e (is.foldl (nbStep L sweep e) MinMax.new) s =
      (sweepPairs L sweep e is).foldlM (findNewStep ops sweep) s := by
  have hcon : ∀ k ∈ e.add ++ e.inter, k < L.length := by
    intro k hk
    rcases List.mem_append.1 hk with hk | hk
    · obtain ⟨l, hl, -⟩ := (hE.add k).1 hk
      exact (List.getElem?_eq_some_iff.1 hl).1
    · obtain ⟨l, hl, -⟩ := hE.inter k hk
      exact (List.getElem?_eq_some_iff.1 hl).1
  unfold newEvents sweepPairs
  simp only
  generalize is.foldl (nbStep L sweep e) MinMax.new = m
  rw [connectedFold_ok ho ht _ _ hcon]
  generalize (e.add ++ e.inter).foldl (connStep L) MinMaxSlope.new = c
  have hfe : ∀ (a b : List Nat) (s : σ × SiteMap K ι SiteEvent),
      (if (!a.isEmpty) = true then findNewEvents ops sweep a b s else .ok s) = findNewEvents ops sweep a b s := by
    intro a b s
    cases a with
    | nil => rfl
    | cons x t => rfl
  by_cases hc : e.inter.length + e.add.length = 0
  · rw [if_pos hc, if_pos hc]
    cases hl : m.slope.candLeft with
    | nil => rfl
    | cons x t =>
      cases hr : m.slope.candRight with
      | nil =>
        have : (x :: t).flatMap (fun l => ([] : List Nat).map (fun r => (l, r))) = [] := by
          rw [List.flatMap_eq_nil_iff]; simp
        rw [this]; rfl
      | cons y u => rfl
  · rw [if_neg hc, if_neg hc, List.foldlM_append]
    simp only [hfe, bind, Except.bind]
    unfold findNewEvents
    cases m.slope.candLeft with
    | nil => rfl
    | cons a t => rfl

/-! ## the result -/

/-- everything at an event, sorted -/
def allAt (e : SiteEvent) : List Nat := (e.drop ++ (e.add ++ e.inter)).insertionSort (· ≤ ·)

/-- is the event reported? -/
def Reportable (ign : Bool) (e : SiteEvent) : Prop :=
  if ign then e.inter ≠ [] else 1 < e.drop.length + e.add.length + e.inter.length

theorem sort_eq {a b : List Nat} (h : a.Perm b) : a.insertionSort (· ≤ ·) = b.insertionSort (· ≤ ·) :=
  List.Perm.eq_of_pairwise' (r := (· ≤ ·)) (List.pairwise_insertionSort _ _) (List.pairwise_insertionSort _ _)
    (((List.perm_insertionSort _ a).trans h).trans (List.perm_insertionSort _ b).symm)

theorem reportLines_ok [TreeShape K] {ops : SweepOps K ι σ} {L : List (Line2 K)} {T : σ → Prop} {Valid : σ → V2 K × ι → Prop}
    (ho : OpsOk ops L T Valid) {tab : σ} (ht : T tab) {key : V2 K × ι} (hv : Valid tab key)
    {m : SiteMap K ι (List Nat)} (hs : Sorted m) (hk : ∀ r ∈ m, r.1.1 = key.1 → r.1 = key) (ls : List Nat) :
    ∃ m', reportLines ops tab key m ls = .ok m' ∧ Sorted m' ∧
      ∀ r, r ∈ m' ↔ (r ∈ m ∧ r.1.1 ≠ key.1) ∨ (r.1 = key ∧
        ((∃ v, (key, v) ∈ m ∧ r.2 = (v ++ ls).insertionSort (· ≤ ·)) ∨
          ((∀ r ∈ m, r.1.1 ≠ key.1) ∧ r.2 = ls.insertionSort (· ≤ ·)))) := by
  unfold reportLines
  rw [ho.keyPos tab ht key hv]
  simp only [bind, Except.bind]
  obtain ⟨m1, g1, g2, g3⟩ := siteUpdate_ok (key.1, key.2) (fun v : Option (List Nat) => Except.ok (v.getD [])) m hs
    (fun v _ => ⟨_, rfl⟩)
  rw [g1]
  simp only [Except.ok.injEq, Option.getD_some, Option.getD_none] at g3 ⊢
  -- the key is there after the first step
  have hthere : ∃ v, (key, v) ∈ m1 ∧ ((key, v) ∈ m ∨ ((∀ r ∈ m, r.1.1 ≠ key.1) ∧ v = [])) := by
    by_cases h : ∃ r ∈ m, r.1.1 = key.1
    · obtain ⟨r, hr, hrk⟩ := h
      have := hk r hr hrk
      have hr' : (key, r.2) ∈ m := by rw [← this]; exact hr
      exact ⟨r.2, (g3 _).2 (Or.inr (Or.inl ⟨(key, r.2), hr', rfl, rfl, rfl⟩)), Or.inl hr'⟩
    · have hn : ∀ r ∈ m, r.1.1 ≠ key.1 := fun r hr hrk => h ⟨r, hr, hrk⟩
      exact ⟨[], (g3 _).2 (Or.inr (Or.inr ⟨hn, rfl, rfl⟩)), Or.inr ⟨hn, rfl⟩⟩
  have hk1 : ∀ r ∈ m1, r.1.1 = key.1 → r.1 = key := by
    intro r hr hrk
    rcases (g3 r).1 hr with ⟨-, hne⟩ | ⟨e0, he0, hk0, hr0, -⟩ | ⟨-, hr0, -⟩
    · exact absurd hrk hne
    · exact hr0.trans (hk e0 he0 hk0)
    · exact hr0
  obtain ⟨v1, hv1, hv1m⟩ := hthere
  have hval : ∀ r ∈ m1, r.1.1 = key.1 → r = (key, v1) := fun r hr hrk => g2.key_inj hr hv1 hrk
  -- the second search
  have hsecond : ∃ m', siteUpdate (key.1, key.2) (pushLines ls) m1 = .ok m' ∧ Sorted m' ∧
      ∀ r, r ∈ m' ↔ (r ∈ m1 ∧ r.1.1 ≠ key.1) ∨ (r.1 = key ∧ r.2 = (v1 ++ ls).insertionSort (· ≤ ·)) := by
    rcases siteUpdate_split (key.1, key.2) m1 (fun e _ => siteCmp_ne_none _ _) with
      ⟨pre, a, post, hm, hcmp, -, hu⟩ | ⟨pre, post, hm, hl, hr, hf, -⟩
    · have ha : a = (key, v1) := hval a (by rw [hm]; simp) (siteCmp_some_eq hcmp).symm
      subst ha
      have hs1 := g2
      rw [hm] at hs1
      unfold Sorted at hs1
      rw [List.pairwise_append, List.pairwise_cons] at hs1
      obtain ⟨q1, ⟨q2, q3⟩, q4⟩ := hs1
      rw [hu]
      refine ⟨pre ++ (key, (v1 ++ ls).insertionSort (· ≤ ·)) :: post, rfl, ?_, fun r => ?_⟩
      · unfold Sorted
        rw [List.pairwise_append, List.pairwise_cons]
        refine ⟨q1, ⟨q2, q3⟩, fun x hx y hy => ?_⟩
        rcases List.mem_cons.1 hy with rfl | hy
        · exact q4 x hx (key, v1) List.mem_cons_self
        · exact q4 x hx y (List.mem_cons_of_mem _ hy)
      · rw [hm]
        simp only [List.mem_append, List.mem_cons]
        constructor
        · rintro (h | h | h)
          · exact Or.inl ⟨Or.inl h, before_ne (q4 r h (key, v1) List.mem_cons_self)⟩
          · exact Or.inr ⟨by rw [h], by rw [h]⟩
          · exact Or.inl ⟨Or.inr (Or.inr h), (before_ne (q2 r h)).symm⟩
        · rintro (⟨h | h | h, hne⟩ | ⟨h, h'⟩)
          · exact Or.inl h
          · rw [h] at hne; exact absurd rfl hne
          · exact Or.inr (Or.inr h)
          · exact Or.inr (Or.inl (Prod.ext h h'))
    · exfalso
      have hs1 := g2
      rw [hm] at hs1 hv1
      unfold Sorted at hs1
      rw [List.pairwise_append] at hs1
      obtain ⟨q1, q2, q4⟩ := hs1
      rcases List.mem_append.1 hv1 with h | h
      · -- left of the place
        obtain ⟨pre', x, rfl⟩ := pre.eq_nil_or_concat'.resolve_left (List.ne_nil_of_mem h)
        have hx := hl x (by simp)
        rcases List.mem_append.1 h with h | h
        · have := (List.pairwise_append.1 q1).2.2 _ h x List.mem_cons_self
          rw [siteCmp_lt this] at hx; cases hx
        · rw [List.mem_singleton] at h
          rw [← h] at hx
          rw [siteCmp_self] at hx; cases hx
      · cases post with
        | nil => cases h
        | cons x post =>
          have hx := hr x rfl
          rcases List.mem_cons.1 h with h | h
          · rw [← h] at hx
            rw [siteCmp_self] at hx; cases hx
          · have := (List.pairwise_cons.1 q2).1 _ h
            rw [siteCmp_gt this] at hx; cases hx
  obtain ⟨m', h1, h2, h3⟩ := hsecond
  refine ⟨m', h1, h2, fun r => ?_⟩
  rw [h3]
  have hother : (r ∈ m1 ∧ r.1.1 ≠ key.1) ↔ (r ∈ m ∧ r.1.1 ≠ key.1) := by
    constructor
    · rintro ⟨hr, hne⟩
      rcases (g3 r).1 hr with h | ⟨e0, he0, hk0, hr0, -⟩ | ⟨-, hr0, -⟩
      · exact h
      · exact absurd (by rw [hr0]; exact hk0) hne
      · exact absurd (by rw [hr0]) hne
    · rintro ⟨hr, hne⟩
      exact ⟨(g3 r).2 (Or.inl ⟨hr, hne⟩), hne⟩
  rw [hother]
  refine or_congr Iff.rfl (and_congr Iff.rfl ?_)
  rcases hv1m with hin | ⟨hn, rfl⟩
  · constructor
    · exact fun h => Or.inl ⟨v1, hin, h⟩
    · rintro (⟨v, hvm, h⟩ | ⟨hn, -⟩)
      · have := hs.key_inj hvm hin rfl
        cases this
        exact h
      · exact absurd rfl (hn _ hin)
  · constructor
    · exact fun h => Or.inr ⟨hn, h⟩
    · rintro (⟨v, hvm, -⟩ | ⟨-, h⟩)
      · exact absurd rfl (hn _ hvm)
      · exact h

theorem reportFold_ok [TreeShape K] {ops : SweepOps K ι σ} {L : List (Line2 K)} {T : σ → Prop} {Valid : σ → V2 K × ι → Prop}
    (ho : OpsOk ops L T Valid) {tab : σ} (ht : T tab) {key : V2 K × ι} (hv : Valid tab key) :
    ∀ (ls : List (List Nat)) (m m0 : SiteMap K ι (List Nat)) (v : List Nat), Sorted m →
    (∀ r, r ∈ m ↔ (r ∈ m0 ∧ r.1.1 ≠ key.1) ∨ r = (key, v)) → v = v.insertionSort (· ≤ ·) →
    ∃ m', ls.foldlM (reportLines ops tab key) m = .ok m' ∧ Sorted m' ∧
      ∀ r, r ∈ m' ↔ (r ∈ m0 ∧ r.1.1 ≠ key.1) ∨ r = (key, (v ++ ls.flatten).insertionSort (· ≤ ·)) := by
  intro ls
  induction ls with
  | nil =>
    intro m m0 v hs hm hvs
    refine ⟨m, rfl, hs, fun r => ?_⟩
    rw [hm, List.flatten_nil, List.append_nil, ← hvs]
  | cons a ls ih =>
    intro m m0 v hs hm hvs
    obtain ⟨m', h1, h2, h3⟩ := reportLines_ok ho ht hv hs (by
      intro r hr hk
      rcases (hm r).1 hr with ⟨-, h⟩ | rfl
      · exact absurd hk h
      · rfl) a
    have h4 : ∀ r, r ∈ m' ↔ (r ∈ m0 ∧ r.1.1 ≠ key.1) ∨ r = (key, (v ++ a).insertionSort (· ≤ ·)) := by
      intro r
      rw [h3]
      have hkv : (key, v) ∈ m := (hm _).2 (Or.inr rfl)
      constructor
      · rintro (⟨hr, hk⟩ | ⟨hr, ⟨w, hw, hr2⟩ | ⟨hn, -⟩⟩)
        · rcases (hm r).1 hr with h | rfl
          · exact Or.inl h
          · exact absurd rfl hk
        · right
          rcases (hm _).1 hw with ⟨-, h⟩ | h
          · exact absurd rfl h
          · simp only [Prod.mk.injEq, true_and] at h
            subst h
            exact Prod.ext hr hr2
        · exact absurd rfl (hn _ hkv)
      · rintro (⟨hr, hk⟩ | rfl)
        · exact Or.inl ⟨(hm r).2 (Or.inl ⟨hr, hk⟩), hk⟩
        · exact Or.inr ⟨rfl, Or.inl ⟨v, hkv, rfl⟩⟩
    obtain ⟨m2, g1, g2, g3⟩ := ih m' m0 _ h2 h4 (by
      exact (sort_eq (List.perm_insertionSort _ _)).symm)
    refine ⟨m2, ?_, g2, fun r => ?_⟩
    · rw [List.foldlM_cons, h1]; exact g1
    · rw [g3, List.flatten_cons, ← List.append_assoc]
      rw [sort_eq ((List.perm_insertionSort (· ≤ ·) (v ++ a)).append_right ls.flatten)]

theorem filter_flatten (a b c : List Nat) : (([a, b, c].filter (fun l => !l.isEmpty)).flatten) = a ++ (b ++ c) := by
  cases a <;> cases b <;> cases c <;> simp

theorem reportEvent_ok [TreeShape K] {ops : SweepOps K ι σ} {L : List (Line2 K)} {T : σ → Prop} {Valid : σ → V2 K × ι → Prop}
    (ho : OpsOk ops L T Valid) {tab : σ} (ht : T tab) {key : V2 K × ι} (hv : Valid tab key)
    {m : SiteMap K ι (List Nat)} (hs : Sorted m) (hk : ∀ r ∈ m, r.1.1 ≠ key.1) (ign : Bool) (e : SiteEvent) :
    ∃ m', reportEvent ops ign tab key e m = .ok m' ∧ Sorted m' ∧
      ∀ r, r ∈ m' ↔ r ∈ m ∨ (Reportable ign e ∧ r = (key, allAt e)) := by
  unfold reportEvent
  have hcond : (if ign then decide (e.inter.length > 0)
      else decide (e.drop.length + e.add.length + e.inter.length > 1)) = true ↔ Reportable ign e := by
    unfold Reportable
    cases ign
    · simp
    · simp [List.length_pos_iff]
  by_cases hR : Reportable ign e
  · rw [if_pos (hcond.2 hR)]
    have hfl := filter_flatten e.drop e.add e.inter
    cases hf : [e.drop, e.add, e.inter].filter (fun l => !l.isEmpty) with
    | nil =>
      exfalso
      rw [hf] at hfl
      have h0 := hfl.symm
      simp only [List.flatten_nil, List.append_eq_nil_iff] at h0
      obtain ⟨h1, h2, h3⟩ := h0
      unfold Reportable at hR
      simp [h1, h2, h3] at hR
    | cons a ls =>
      obtain ⟨m1, h1, h2, h3⟩ := reportLines_ok ho ht hv hs (fun r hr h => absurd h (hk r hr)) a
      obtain ⟨m2, g1, g2, g3⟩ := reportFold_ok ho ht hv ls m1 m (a.insertionSort (· ≤ ·)) h2 (by
        intro r
        rw [h3]
        constructor
        · rintro (h | ⟨hr, ⟨v, hv, -⟩ | ⟨-, hr2⟩⟩)
          · exact Or.inl h
          · exact absurd rfl (hk _ hv)
          · exact Or.inr (Prod.ext hr hr2)
        · rintro (h | rfl)
          · exact Or.inl h
          · exact Or.inr ⟨rfl, Or.inr ⟨hk, rfl⟩⟩) (sort_eq (List.perm_insertionSort _ _)).symm
      refine ⟨m2, ?_, g2, fun r => ?_⟩
      · rw [List.foldlM_cons, h1]; exact g1
      · rw [g3]
        have : (a.insertionSort (· ≤ ·) ++ ls.flatten).insertionSort (· ≤ ·) = allAt e := by
          rw [sort_eq ((List.perm_insertionSort (· ≤ ·) a).append_right ls.flatten), ← List.flatten_cons, ← hf, hfl]
          rfl
        rw [this]
        constructor
        · rintro (⟨h, -⟩ | h)
          · exact Or.inl h
          · exact Or.inr ⟨hR, h⟩
        · rintro (h | ⟨-, h⟩)
          · exact Or.inl ⟨h, hk r h⟩
          · exact Or.inr h
  · rw [if_neg (fun h => hR (hcond.1 h))]
    exact ⟨m, rfl, hs, fun r => ⟨Or.inl, fun h => h.elim id (fun h => absurd h.1 hR)⟩⟩

/-! ## the whole invariant -/

/-- The state of the loop when the positions in `After` are still to come, and the events `H` have been handled
(the last one first). -/
structure Inv (L : List (Line2 K)) (T : σ → Prop) (Valid : σ → V2 K × ι → Prop) (Q : List (V2 K)) (ign : Bool)
    (After : V2 K → Prop) (H : SiteMap K ι SiteEvent) (s : SweepState K ι σ) : Prop where
  einv : EInv L T Valid After Q (s.tab, s.events)
  up : ∀ p q, After p → SweepBefore p q → After q
  act : ∀ i, i ∈ s.active ↔ ∃ l, L[i]? = some l ∧ ¬ After (lo l) ∧ (After (hi l) ∨ lo l = hi l)
  actN : s.active.Nodup
  hist : ∀ h ∈ H, ¬ After h.1.1 ∧ Valid s.tab h.1 ∧ EvOk L h.1.1 h.2 ∧ h.1.1 ∈ Q
  histSorted : H.Pairwise (fun a b => SweepBefore b.1.1 a.1.1)
  histEnds : ∀ (i : Nat) (l : Line2 K), L[i]? = some l → ∀ p, (p = lo l ∨ p = hi l) → ¬ After p → ∃ h ∈ H, h.1.1 = p
  resSorted : Sorted s.result
  res : ∀ r, r ∈ s.result ↔ ∃ h ∈ H, Reportable ign h.2 ∧ r = (h.1, allAt h.2)

theorem setInsert_fold (add : List Nat) : ∀ (l : List Nat), l.Nodup →
    (add.foldl setInsert l).Nodup ∧ ∀ i, i ∈ add.foldl setInsert l ↔ i ∈ l ∨ i ∈ add := by
  induction add with
  | nil => intro l h; exact ⟨h, fun i => by simp⟩
  | cons a add ih =>
    intro l h
    rw [List.foldl_cons]
    have h1 : (setInsert l a).Nodup ∧ ∀ i, i ∈ setInsert l a ↔ i ∈ l ∨ i = a := by
      unfold setInsert
      by_cases hc : l.contains a = true
      · rw [if_pos hc]
        refine ⟨h, fun i => ⟨Or.inl, ?_⟩⟩
        rintro (h | rfl)
        · exact h
        · simpa using hc
      · rw [if_neg hc]
        refine ⟨List.nodup_cons.2 ⟨by simpa using hc, h⟩, fun i => ?_⟩
        rw [List.mem_cons]; tauto
    obtain ⟨h2, h3⟩ := ih _ h1.1
    refine ⟨h2, fun i => ?_⟩
    rw [h3, h1.2, List.mem_cons]; tauto

/-- one event has been handled -/
structure StepFacts [TreeShape K] (ops : SweepOps K ι σ) (L : List (Line2 K)) (order : List Nat → List Nat) (key : V2 K × ι)
    (e : SiteEvent) (rest : SiteMap K ι SiteEvent) (s s' : SweepState K ι σ) : Prop where
  run : (sweepPairs L key.1 e (order (s.active.filter (fun i => !e.drop.contains i)))).foldlM (findNewStep ops key.1)
    (s.tab, rest) = .ok (s'.tab, s'.events)
  pairs : ∀ ij ∈ sweepPairs L key.1 e (order (s.active.filter (fun i => !e.drop.contains i))),
    ij.1 < L.length ∧ ij.2 < L.length ∧ ij.1 ≠ ij.2
  grow : Grow rest s'.events
  found : ∀ i j, (i, j) ∈ sweepPairs L key.1 e (order (s.active.filter (fun i => !e.drop.contains i))) →
    ∀ l m, L[i]? = some l → L[j]? = some m → ∀ p, Cand key.1 l m p →
      (p ≠ l.start → p ≠ l.end → Queued s'.events p i) ∧ (p ≠ m.start → p ≠ m.end → Queued s'.events p j)
  exact : Exactly L key.1 (sweepPairs L key.1 e (order (s.active.filter (fun i => !e.drop.contains i)))) rest s'.events

theorem handleEvent_ok [TreeShape K] {ops : SweepOps K ι σ} {L : List (Line2 K)} {T : σ → Prop} {Valid : σ → V2 K × ι → Prop}
    (ho : OpsOk ops L T Valid) (hL : Sound L) {Q : List (V2 K)}
    (hQ : ∀ sweep, ∀ l ∈ L, ∀ m ∈ L, ∀ p, Cand sweep l m p → p ∈ Q) {ign : Bool} {order : List Nat → List Nat}
    (hord : ∀ l, (order l).Perm l) {After : V2 K → Prop} {H : SiteMap K ι SiteEvent}
    {s : SweepState K ι σ} (h : Inv L T Valid Q ign After H s) {key : V2 K × ι} {e : SiteEvent}
    {rest : SiteMap K ι SiteEvent} (hev : s.events = (key, e) :: rest) :
    ∃ s', handleEvent ops order ign key e { s with events := rest } = .ok s' ∧
      Inv L T Valid Q ign (SweepBefore key.1) ((key, e) :: H) s' ∧ StepFacts ops L order key e rest s s' := by
  have hk : (key, e) ∈ s.events := hev ▸ List.mem_cons_self
  have hsorted := h.einv.sorted
  simp only [hev] at hsorted
  obtain ⟨hs1, hs2⟩ := List.pairwise_cons.1 hsorted
  have hafter : After key.1 := h.einv.after _ hk
  have hvalid : Valid s.tab key := h.einv.valid _ hk
  have hE : EvOk L key.1 e := h.einv.ev _ hk
  have ht : T s.tab := h.einv.tab
  -- the end points that are still to come
  have hcome : ∀ (i : Nat) (l : Line2 K), L[i]? = some l → ∀ p, (p = lo l ∨ p = hi l) →
      (After p ↔ p = key.1 ∨ SweepBefore key.1 p) := by
    intro i l hl p hp
    constructor
    · intro ha
      obtain ⟨e0, he0, hp0⟩ := h.einv.ends i l hl p hp ha
      simp only [hev] at he0
      rcases List.mem_cons.1 he0 with rfl | he0
      · exact Or.inl hp0.symm
      · exact Or.inr (hp0 ▸ hs1 e0 he0)
    · rintro (rfl | hb)
      · exact hafter
      · exact h.up _ _ hafter hb
  -- the report
  obtain ⟨res', r1, r2, r3⟩ := reportEvent_ok ho ht hvalid h.resSorted (by
    intro r hr hkr
    obtain ⟨h0, hh0, -, rfl⟩ := (h.res r).1 hr
    exact (h.hist h0 hh0).1 (by simp only at hkr; rw [hkr]; exact hafter)) ign e
  -- the neighbours
  obtain ⟨act, hact⟩ : ∃ a, s.active.filter (fun i => !e.drop.contains i) = a := ⟨_, rfl⟩
  have hactm : ∀ i, i ∈ act ↔ i ∈ s.active ∧ i ∉ e.drop := by
    intro i
    rw [← hact, List.mem_filter]
    simp
  have hactp : ∀ i ∈ order act, i < L.length ∧ i ∉ e.add := by
    intro i hi
    have hi := (hactm i).1 ((hord act).mem_iff.1 hi)
    obtain ⟨l, hl, h1, -⟩ := (h.act i).1 hi.1
    refine ⟨(List.getElem?_eq_some_iff.1 hl).1, fun hadd => ?_⟩
    obtain ⟨l', hl', h2⟩ := (hE.add i).1 hadd
    rw [hl] at hl'
    simp only [Option.some_inj] at hl'
    subst hl'
    exact h1 (h2 ▸ hafter)
  have hnb := neighbourFold_ok ho ht key.1 e (order act) MinMax.new (fun i hi => (hactp i hi).1)
  -- the new events
  have heinv : EInv L T Valid (SweepBefore key.1) Q (s.tab, rest) := by
    refine ⟨ht, hs2, fun e0 he0 => hs1 e0 he0, ?_, ?_, ?_, ?_⟩
    · intro e0 he0; exact h.einv.valid e0 (by simp only [hev]; exact List.mem_cons_of_mem _ he0)
    · intro e0 he0; exact h.einv.ev e0 (by simp only [hev]; exact List.mem_cons_of_mem _ he0)
    · intro i l hl p hp hb
      obtain ⟨e0, he0, hp0⟩ := h.einv.ends i l hl p hp ((hcome i l hl p hp).2 (Or.inr hb))
      simp only [hev] at he0
      rcases List.mem_cons.1 he0 with rfl | he0
      · simp only at hp0; subst hp0; exact absurd hb (before_irrefl _)
      · exact ⟨e0, he0, hp0⟩
    · intro e0 he0; exact h.einv.inQ e0 (by simp only [hev]; exact List.mem_cons_of_mem _ he0)
  obtain ⟨s', f1, f2, f3, f4, f5⟩ := findNewFold_ok ho hL (hQ key.1) (sweepPairs L key.1 e (order act)) (s.tab, rest) heinv
    (sweepPairs_ok hE hactp)
  have hne := newEvents_eq ho (s := (s.tab, rest)) ht (is := order act) hE
  obtain ⟨a1, a2⟩ := setInsert_fold e.add act (by rw [← hact]; exact h.actN.filter _)
  refine ⟨⟨s'.1, s'.2, e.add.foldl setInsert act, res'⟩, ?_, ?_, ?_⟩
  · unfold handleEvent
    simp only [r1, hact, bind, Except.bind, hnb, hne, f1]
  · refine ⟨f2, fun p q => before_trans, ?_, a1, ?_, ?_, ?_, r2, ?_⟩
    · intro i
      rw [a2, hactm, h.act, hE.add, hE.drop]
      constructor
      · rintro (⟨⟨l, hl, h1, h2⟩, h3⟩ | ⟨l, hl, h1⟩)
        · refine ⟨l, hl, fun hb => h1 ((hcome i l hl _ (Or.inl rfl)).2 (Or.inr hb)), ?_⟩
          rcases h2 with h2 | h2
          · rcases (hcome i l hl _ (Or.inr rfl)).1 h2 with h4 | h4
            · exact absurd ⟨l, hl, h4⟩ h3
            · exact Or.inl h4
          · exact Or.inr h2
        · refine ⟨l, hl, ?_, ?_⟩
          · rw [h1]; exact before_irrefl _
          · rw [← h1]
            exact (lo_hi l).1
      · rintro ⟨l, hl, h1, h2⟩
        by_cases hlk : lo l = key.1
        · exact Or.inr ⟨l, hl, hlk⟩
        · left
          have hnA : ¬ After (lo l) := by
            intro ha
            rcases (hcome i l hl _ (Or.inl rfl)).1 ha with h4 | h4
            · exact hlk h4
            · exact h1 h4
          refine ⟨⟨l, hl, hnA, ?_⟩, ?_⟩
          · rcases h2 with h2 | h2
            · exact Or.inl ((hcome i l hl _ (Or.inr rfl)).2 (Or.inr h2))
            · exact Or.inr h2
          · rintro ⟨l', hl', h4⟩
            rw [hl] at hl'
            simp only [Option.some_inj] at hl'
            subst hl'
            rcases h2 with h2 | h2
            · rw [h4] at h2; exact before_irrefl _ h2
            · exact hlk (h2.trans h4)
    · intro h0 hh0
      rcases List.mem_cons.1 hh0 with rfl | hh0
      · exact ⟨before_irrefl _, f4 _ hvalid, hE, h.einv.inQ _ hk⟩
      · obtain ⟨g1, g2, g3, g4⟩ := h.hist h0 hh0
        exact ⟨fun hb => g1 (h.up _ _ hafter hb), f4 _ g2, g3, g4⟩
    · refine List.pairwise_cons.2 ⟨fun h0 hh0 => ?_, h.histSorted⟩
      obtain ⟨g1, -⟩ := h.hist h0 hh0
      rcases before_total h0.1.1 key.1 with hb | hb | hb
      · exact hb
      · exact absurd (hb ▸ hafter) g1
      · exact absurd (h.up _ _ hafter hb) g1
    · intro i l hl p hp hnb
      by_cases ha : After p
      · rcases (hcome i l hl p hp).1 ha with hpk | hb
        · exact ⟨_, List.mem_cons_self, hpk.symm⟩
        · exact absurd hb hnb
      · obtain ⟨h0, hh0, hp0⟩ := h.histEnds i l hl p hp ha
        exact ⟨h0, List.mem_cons_of_mem _ hh0, hp0⟩
    · intro r
      rw [r3, h.res]
      simp only [List.mem_cons, exists_eq_or_imp]
      exact or_comm
  · have f6 := findNewFold_exact ho hL (hQ key.1) (sweepPairs L key.1 e (order act)) (s.tab, rest) s' heinv
      (sweepPairs_ok hE hactp) f1
    have f7 := sweepPairs_ok hE hactp
    rw [← hact] at f5 f6 f7 f1
    exact ⟨f1, f7, f3, f5, f6⟩

/-- the invariant at the beginning -/
theorem Inv.init {L : List (Line2 K)} {T : σ → Prop} {Valid : σ → V2 K × ι → Prop} {Q : List (V2 K)} (ign : Bool)
    {tab : σ} {events : SiteMap K ι SiteEvent} (h : EInv L T Valid (fun _ => True) Q (tab, events)) :
    Inv L T Valid Q ign (fun _ => True) [] ⟨tab, events, [], []⟩ := by
  refine ⟨h, fun _ _ _ _ => trivial, ?_, List.nodup_nil, ?_, List.Pairwise.nil, ?_, List.Pairwise.nil, ?_⟩
  · intro i; simp
  · intro h hh; cases hh
  · intro i l hl p hp hn; exact absurd trivial hn
  · intro r; simp

/-- the loop ends, with its invariant; `J` is a further invariant -/
theorem sweepLoop_ok [TreeShape K] {ops : SweepOps K ι σ} {L : List (Line2 K)} {T : σ → Prop} {Valid : σ → V2 K × ι → Prop}
    (ho : OpsOk ops L T Valid) (hL : Sound L) {Q : List (V2 K)}
    (hQ : ∀ sweep, ∀ l ∈ L, ∀ m ∈ L, ∀ p, Cand sweep l m p → p ∈ Q) {ign stop : Bool} {order : Nat → List Nat → List Nat}
    (hord : ∀ n l, (order n l).Perm l)
    (J : (V2 K → Prop) → SiteMap K ι SiteEvent → SweepState K ι σ → Prop)
    (hJ : ∀ After H s key e rest s' n, Inv L T Valid Q ign After H s → J After H s → s.events = (key, e) :: rest →
      Inv L T Valid Q ign (SweepBefore key.1) ((key, e) :: H) s' → StepFacts ops L (order n) key e rest s s' →
      J (SweepBefore key.1) ((key, e) :: H) s') :
    ∀ (fuel : Nat) (After : V2 K → Prop) (H : SiteMap K ι SiteEvent) (s : SweepState K ι σ),
      Inv L T Valid Q ign After H s → J After H s → (stop = true → s.result = []) → Q.length < fuel + H.length →
      ∃ s' After' H', sweepLoop ops order ign stop fuel s = .ok s' ∧ Inv L T Valid Q ign After' H' s' ∧ J After' H' s' ∧
        (s'.events = [] ∨ (stop = true ∧ s'.result ≠ [])) ∧ (stop = true → s'.result.length ≤ 1) := by
  intro fuel
  induction fuel with
  | zero =>
    intro After H s h _ _ hlen
    exfalso
    have hnd : (H.map (fun h => h.1.1)).Nodup := by
      rw [List.Nodup, List.pairwise_map]
      exact h.histSorted.imp (fun hb => (before_ne hb).symm)
    have hsub : H.map (fun h => h.1.1) ⊆ Q := by
      intro p hp
      obtain ⟨h0, hh0, rfl⟩ := List.mem_map.1 hp
      exact (h.hist h0 hh0).2.2.2
    have := (hnd.subperm hsub).length_le
    rw [List.length_map] at this
    omega
  | succ fuel ih =>
    intro After H s h hj hstop hlen
    unfold sweepLoop
    cases hev : s.events with
    | nil =>
      exact ⟨s, After, H, rfl, h, hj, Or.inl hev, fun hs => by rw [hstop hs]; simp⟩
    | cons ke rest =>
      obtain ⟨key, e⟩ := ke
      simp only
      obtain ⟨s', h1, h2, h3⟩ := handleEvent_ok ho hL hQ (hord fuel) h hev
      have hj' := hJ After H s key e rest s' fuel h hj hev h2 h3
      have hs0 := h.einv.sorted
      simp only [hev] at hs0
      rw [popFirst_sorted hs0]
      simp only [bind, Except.bind]
      rw [h1]
      simp only
      by_cases hc : (!s'.result.isEmpty && stop) = true
      · rw [if_pos hc]
        rw [Bool.and_eq_true] at hc
        refine ⟨s', _, _, rfl, h2, hj', Or.inr ⟨hc.2, by simpa using hc.1⟩, fun hst => ?_⟩
        have hr0 := hstop hst
        -- only the last event is in the result
        have hall : ∀ r ∈ s'.result, r = (key, allAt e) := by
          intro r hr
          obtain ⟨h0, hh0, hrep, rfl⟩ := (h2.res r).1 hr
          rcases List.mem_cons.1 hh0 with rfl | hh0
          · rfl
          · have : (h0.1, allAt h0.2) ∈ s.result := (h.res _).2 ⟨h0, hh0, hrep, rfl⟩
            rw [hr0] at this; cases this
        have hsrt := h2.resSorted
        cases hres : s'.result with
        | nil => simp
        | cons a t =>
          cases t with
          | nil => simp
          | cons b t =>
            rw [hres] at hsrt hall
            have h1 := (List.pairwise_cons.1 hsrt).1 b List.mem_cons_self
            rw [hall a List.mem_cons_self, hall b (by simp)] at h1
            exact absurd h1 (before_irrefl _)
      · rw [if_neg hc]
        refine ih _ _ s' h2 hj' (fun hst => ?_) (by simp only [List.length_cons]; omega)
        rw [hst, Bool.and_true] at hc
        simpa using hc

end
end Verif.Sweep
