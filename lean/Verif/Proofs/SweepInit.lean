import Verif.Proofs.SweepLoop
/-!
# The sweep line algorithm: the initial event queue, and the two versions
-/
set_option linter.unusedSectionVars false
set_option linter.unusedVariables false
set_option linter.unusedSimpArgs false
namespace Verif.Sweep
open Verif Verif.Spec Verif.Model Verif.Proofs.Intersect

section
variable {K : Type} [Scalar K] [Field K] [LinearOrder K] [ExactScalar K] {ι σ V : Type}

/-- an event queue with end points only: `A i p` says that line `i` begins at `p`, `D i p` that it ends there -/
structure EvMap (A D : Nat → V2 K → Prop) (Good : V2 K × ι → Prop) (m : SiteMap K ι SiteEvent) : Prop where
  sorted : Sorted m
  good : ∀ e ∈ m, Good e.1
  add : ∀ e ∈ m, ∀ i, i ∈ e.2.add ↔ A i e.1.1
  drop : ∀ e ∈ m, ∀ i, i ∈ e.2.drop ↔ D i e.1.1
  inter : ∀ e ∈ m, e.2.inter = []
  addN : ∀ e ∈ m, e.2.add.Nodup
  dropN : ∀ e ∈ m, e.2.drop.Nodup
  some : ∀ e ∈ m, e.2.add ≠ [] ∨ e.2.drop ≠ []
  all : ∀ i p, A i p ∨ D i p → ∃ e ∈ m, e.1.1 = p

theorem evMap_add [TreeShape K] {A D : Nat → V2 K → Prop} {Good : V2 K × ι → Prop} {m : SiteMap K ι SiteEvent}
    (h : EvMap A D Good m) (k : V2 K × ι) (hk : Good k) (i : Nat) (hi : ∀ p, ¬ A i p) :
    ∃ m', siteUpdate k (fun v => let e := v.getD .empty; Except.ok { e with add := e.add ++ [i] }) m = .ok m' ∧
      EvMap (fun j p => A j p ∨ (j = i ∧ p = k.1)) D Good m' := by
  obtain ⟨m', h1, h2, h3⟩ := siteUpdate_ok k (fun v => let e := v.getD .empty; Except.ok { e with add := e.add ++ [i] }) m
    h.sorted (fun _ _ => ⟨_, rfl⟩)
  refine ⟨m', h1, h2, ?_, ?_, ?_, ?_, ?_, ?_, ?_, ?_⟩
  all_goals simp only [Option.getD_some, Option.getD_none, Except.ok.injEq, SiteEvent.empty] at h3
  · intro e he
    rcases (h3 e).1 he with ⟨he, -⟩ | ⟨e0, he0, -, hk0, -⟩ | ⟨-, hk0, -⟩
    · exact h.good e he
    · rw [hk0]; exact h.good e0 he0
    · rw [hk0]; exact hk
  · intro e he j
    rcases (h3 e).1 he with ⟨he, hn⟩ | ⟨e0, he0, hk0, hk1, hv⟩ | ⟨hn, hk0, hv⟩
    · rw [h.add e he]; simp [hn]
    · rw [← hv, hk1, hk0]
      simp only [List.mem_append, List.mem_singleton, h.add e0 he0, hk0, and_true]
    · rw [← hv, hk0]
      simp only [List.nil_append, List.mem_singleton, and_true]
      constructor
      · exact Or.inr
      · rintro (ha | ha)
        · obtain ⟨e0, he0, hp⟩ := h.all j k.1 (Or.inl ha)
          exact absurd hp (hn e0 he0)
        · exact ha
  · intro e he j
    rcases (h3 e).1 he with ⟨he, hn⟩ | ⟨e0, he0, hk0, hk1, hv⟩ | ⟨hn, hk0, hv⟩
    · exact h.drop e he j
    · rw [← hv, hk1]; exact h.drop e0 he0 j
    · rw [← hv, hk0]
      simp only [List.not_mem_nil, false_iff]
      intro ha
      obtain ⟨e0, he0, hp⟩ := h.all j k.1 (Or.inr ha)
      exact absurd hp (hn e0 he0)
  · intro e he
    rcases (h3 e).1 he with ⟨he, hn⟩ | ⟨e0, he0, hk0, hk1, hv⟩ | ⟨hn, hk0, hv⟩
    · exact h.inter e he
    · rw [← hv]; exact h.inter e0 he0
    · rw [← hv]
  · intro e he
    rcases (h3 e).1 he with ⟨he, hn⟩ | ⟨e0, he0, hk0, hk1, hv⟩ | ⟨hn, hk0, hv⟩
    · exact h.addN e he
    · rw [← hv]
      refine List.Nodup.append (h.addN e0 he0) (List.nodup_singleton i) ?_
      intro j hj hj'
      rw [List.mem_singleton] at hj'
      subst hj'
      exact hi _ ((h.add e0 he0 j).1 hj)
    · rw [← hv]; simp
  · intro e he
    rcases (h3 e).1 he with ⟨he, hn⟩ | ⟨e0, he0, hk0, hk1, hv⟩ | ⟨hn, hk0, hv⟩
    · exact h.dropN e he
    · rw [← hv]; exact h.dropN e0 he0
    · rw [← hv]; simp
  · intro e he
    rcases (h3 e).1 he with ⟨he, hn⟩ | ⟨e0, he0, hk0, hk1, hv⟩ | ⟨hn, hk0, hv⟩
    · exact h.some e he
    · rw [← hv]; simp
    · rw [← hv]; simp
  · have hold : ∀ e ∈ m, ∃ e' ∈ m', e'.1.1 = e.1.1 := by
      intro e he
      by_cases hp : e.1.1 = k.1
      · exact ⟨(e.1, { e.2 with add := e.2.add ++ [i] }), (h3 _).2 (Or.inr (Or.inl ⟨e, he, hp, rfl, rfl⟩)), rfl⟩
      · exact ⟨e, (h3 _).2 (Or.inl ⟨he, hp⟩), rfl⟩
    rintro j p ((ha | ⟨-, rfl⟩) | ha)
    · obtain ⟨e, he, hp⟩ := h.all j p (Or.inl ha)
      obtain ⟨e', he', hp'⟩ := hold e he
      exact ⟨e', he', hp'.trans hp⟩
    · by_cases hex : ∃ e ∈ m, e.1.1 = k.1
      · obtain ⟨e, he, hp⟩ := hex
        obtain ⟨e', he', hp'⟩ := hold e he
        exact ⟨e', he', hp'.trans hp⟩
      · exact ⟨(k, _), (h3 _).2 (Or.inr (Or.inr ⟨fun e he hp => hex ⟨e, he, hp⟩, rfl, rfl⟩)), rfl⟩
    · obtain ⟨e, he, hp⟩ := h.all j p (Or.inr ha)
      obtain ⟨e', he', hp'⟩ := hold e he
      exact ⟨e', he', hp'.trans hp⟩

theorem evMap_drop [TreeShape K] {A D : Nat → V2 K → Prop} {Good : V2 K × ι → Prop} {m : SiteMap K ι SiteEvent}
    (h : EvMap A D Good m) (k : V2 K × ι) (hk : Good k) (i : Nat) (hi : ∀ p, ¬ D i p) :
    ∃ m', siteUpdate k (fun v => let e := v.getD .empty; Except.ok { e with drop := e.drop ++ [i] }) m = .ok m' ∧
      EvMap A (fun j p => D j p ∨ (j = i ∧ p = k.1)) Good m' := by
  obtain ⟨m', h1, h2, h3⟩ := siteUpdate_ok k (fun v => let e := v.getD .empty; Except.ok { e with drop := e.drop ++ [i] }) m
    h.sorted (fun _ _ => ⟨_, rfl⟩)
  refine ⟨m', h1, h2, ?_, ?_, ?_, ?_, ?_, ?_, ?_, ?_⟩
  all_goals simp only [Option.getD_some, Option.getD_none, Except.ok.injEq, SiteEvent.empty] at h3
  · intro e he
    rcases (h3 e).1 he with ⟨he, -⟩ | ⟨e0, he0, -, hk0, -⟩ | ⟨-, hk0, -⟩
    · exact h.good e he
    · rw [hk0]; exact h.good e0 he0
    · rw [hk0]; exact hk
  · intro e he j
    rcases (h3 e).1 he with ⟨he, hn⟩ | ⟨e0, he0, hk0, hk1, hv⟩ | ⟨hn, hk0, hv⟩
    · exact h.add e he j
    · rw [← hv, hk1]; exact h.add e0 he0 j
    · rw [← hv, hk0]
      simp only [List.not_mem_nil, false_iff]
      intro ha
      obtain ⟨e0, he0, hp⟩ := h.all j k.1 (Or.inl ha)
      exact absurd hp (hn e0 he0)
  · intro e he j
    rcases (h3 e).1 he with ⟨he, hn⟩ | ⟨e0, he0, hk0, hk1, hv⟩ | ⟨hn, hk0, hv⟩
    · rw [h.drop e he]; simp [hn]
    · rw [← hv, hk1, hk0]
      simp only [List.mem_append, List.mem_singleton, h.drop e0 he0, hk0, and_true]
    · rw [← hv, hk0]
      simp only [List.nil_append, List.mem_singleton, and_true]
      constructor
      · exact Or.inr
      · rintro (ha | ha)
        · obtain ⟨e0, he0, hp⟩ := h.all j k.1 (Or.inr ha)
          exact absurd hp (hn e0 he0)
        · exact ha
  · intro e he
    rcases (h3 e).1 he with ⟨he, hn⟩ | ⟨e0, he0, hk0, hk1, hv⟩ | ⟨hn, hk0, hv⟩
    · exact h.inter e he
    · rw [← hv]; exact h.inter e0 he0
    · rw [← hv]
  · intro e he
    rcases (h3 e).1 he with ⟨he, hn⟩ | ⟨e0, he0, hk0, hk1, hv⟩ | ⟨hn, hk0, hv⟩
    · exact h.addN e he
    · rw [← hv]; exact h.addN e0 he0
    · rw [← hv]; simp
  · intro e he
    rcases (h3 e).1 he with ⟨he, hn⟩ | ⟨e0, he0, hk0, hk1, hv⟩ | ⟨hn, hk0, hv⟩
    · exact h.dropN e he
    · rw [← hv]
      refine List.Nodup.append (h.dropN e0 he0) (List.nodup_singleton i) ?_
      intro j hj hj'
      rw [List.mem_singleton] at hj'
      subst hj'
      exact hi _ ((h.drop e0 he0 j).1 hj)
    · rw [← hv]; simp
  · intro e he
    rcases (h3 e).1 he with ⟨he, hn⟩ | ⟨e0, he0, hk0, hk1, hv⟩ | ⟨hn, hk0, hv⟩
    · exact h.some e he
    · rw [← hv]; simp
    · rw [← hv]; simp
  · have hold : ∀ e ∈ m, ∃ e' ∈ m', e'.1.1 = e.1.1 := by
      intro e he
      by_cases hp : e.1.1 = k.1
      · exact ⟨(e.1, { e.2 with drop := e.2.drop ++ [i] }), (h3 _).2 (Or.inr (Or.inl ⟨e, he, hp, rfl, rfl⟩)), rfl⟩
      · exact ⟨e, (h3 _).2 (Or.inl ⟨he, hp⟩), rfl⟩
    rintro j p (ha | ha | ⟨-, rfl⟩)
    · obtain ⟨e, he, hp⟩ := h.all j p (Or.inl ha)
      obtain ⟨e', he', hp'⟩ := hold e he
      exact ⟨e', he', hp'.trans hp⟩
    · obtain ⟨e, he, hp⟩ := h.all j p (Or.inr ha)
      obtain ⟨e', he', hp'⟩ := hold e he
      exact ⟨e', he', hp'.trans hp⟩
    · by_cases hex : ∃ e ∈ m, e.1.1 = k.1
      · obtain ⟨e, he, hp⟩ := hex
        obtain ⟨e', he', hp'⟩ := hold e he
        exact ⟨e', he', hp'.trans hp⟩
      · exact ⟨(k, _), (h3 _).2 (Or.inr (Or.inr ⟨fun e he hp => hex ⟨e, he, hp⟩, rfl, rfl⟩)), rfl⟩

/-- the line `i` begins at `p` -/
def Begins (L : List (Line2 K)) (i : Nat) (p : V2 K) : Prop := ∃ l, L[i]? = some l ∧ lo l = p
/-- the line `i` ends at `p` -/
def Ends (L : List (Line2 K)) (i : Nat) (p : V2 K) : Prop := ∃ l, L[i]? = some l ∧ hi l = p

theorem addEndPoints_ok [TreeShape K] {L : List (Line2 K)} {Good : V2 K × ι → Prop} {m : SiteMap K ι SiteEvent}
    (h : EvMap (Begins L) (Ends L) Good m) (l : Line2 K) (a b : V2 K × ι) (ha : Good a) (hb : Good b)
    (hla : lo l = a.1) (hlb : hi l = b.1) :
    ∃ m', addEndPoints L.length a b m = .ok m' ∧ EvMap (Begins (L ++ [l])) (Ends (L ++ [l])) Good m' := by
  have hnone : ∀ p, ¬ Begins L L.length p := by
    rintro p ⟨l, hl, -⟩; simp at hl
  have hnone' : ∀ p, ¬ Ends L L.length p := by
    rintro p ⟨l, hl, -⟩; simp at hl
  obtain ⟨m1, h1, h2⟩ := evMap_add h a ha L.length hnone
  obtain ⟨m2, g1, g2⟩ := evMap_drop h2 b hb L.length hnone'
  refine ⟨m2, ?_, ?_⟩
  · unfold addEndPoints
    rw [h1]
    exact g1
  · have hget : ∀ (i : Nat) (l' : Line2 K), (L ++ [l])[i]? = some l' ↔ L[i]? = some l' ∨ (i = L.length ∧ l = l') := by
      intro i l'
      rw [List.getElem?_append]
      split
      · rename_i hlt
        constructor
        · exact Or.inl
        · rintro (h | ⟨rfl, -⟩)
          · exact h
          · omega
      · rename_i hge
        constructor
        · intro h
          rw [List.getElem?_singleton] at h
          split at h
          · exact Or.inr ⟨by omega, by simpa using h⟩
          · cases h
        · rintro (h | ⟨rfl, rfl⟩)
          · exact absurd (List.getElem?_eq_some_iff.1 h).1 hge
          · simp
    have e1 : Begins (L ++ [l]) = fun j p => Begins L j p ∨ (j = L.length ∧ p = a.1) := by
      funext j p
      unfold Begins
      simp only [hget, eq_iff_iff]
      constructor
      · rintro ⟨l', hl' | ⟨h1, h2⟩, hp⟩
        · exact Or.inl ⟨l', hl', hp⟩
        · exact Or.inr ⟨h1, by rw [← hp, ← h2, hla]⟩
      · rintro (⟨l', hl', hp⟩ | ⟨h1, h2⟩)
        · exact ⟨l', Or.inl hl', hp⟩
        · exact ⟨l, Or.inr ⟨h1, rfl⟩, by rw [h2, hla]⟩
    have e2 : Ends (L ++ [l]) = fun j p => Ends L j p ∨ (j = L.length ∧ p = b.1) := by
      funext j p
      unfold Ends
      simp only [hget, eq_iff_iff]
      constructor
      · rintro ⟨l', hl' | ⟨h1, h2⟩, hp⟩
        · exact Or.inl ⟨l', hl', hp⟩
        · exact Or.inr ⟨h1, by rw [← hp, ← h2, hlb]⟩
      · rintro (⟨l', hl', hp⟩ | ⟨h1, h2⟩)
        · exact ⟨l', Or.inl hl', hp⟩
        · exact ⟨l, Or.inr ⟨h1, rfl⟩, by rw [h2, hlb]⟩
    rw [e1, e2]
    exact g2

/-- all events there can be -/
def sites (L : List (Line2 K)) : List (V2 K) :=
  L.map lo ++ L.map hi ++ L.flatMap (fun l => L.filterMap (fun m => (l.intersectionPoint m).map Intersection.single))

theorem sites_length (L : List (Line2 K)) : (sites L).length ≤ 2 * L.length + L.length * L.length := by
  unfold sites
  rw [List.length_append, List.length_append, List.length_map, List.length_map, List.length_flatMap]
  have : ∀ (M : List (Line2 K)), (M.map (fun l => (L.filterMap (fun m => (l.intersectionPoint m).map Intersection.single)).length)).sum
      ≤ M.length * L.length := by
    intro M
    induction M with
    | nil => simp
    | cons a M ih =>
      rw [List.map_cons, List.sum_cons, List.length_cons, Nat.succ_mul]
      have := List.length_filterMap_le (fun m => (a.intersectionPoint m).map Intersection.single) L
      omega
  have := this L
  omega

theorem sites_cand (L : List (Line2 K)) (sweep : V2 K) : ∀ l ∈ L, ∀ m ∈ L, ∀ p, Cand sweep l m p → p ∈ sites L := by
  rintro l hl m hm p ⟨-, it, h1, h2, -⟩
  unfold sites
  refine List.mem_append_right _ (List.mem_flatMap.2 ⟨l, hl, List.mem_filterMap.2 ⟨m, hm, ?_⟩⟩)
  rw [h1, Option.map_some, h2]

theorem EvMap.einv {L : List (Line2 K)} {T : σ → Prop} {Valid : σ → V2 K × ι → Prop} {tab : σ} (ht : T tab)
    {m : SiteMap K ι SiteEvent} (h : EvMap (Begins L) (Ends L) (Valid tab) m) :
    EInv L T Valid (fun _ => True) (sites L) (tab, m) := by
  refine ⟨ht, h.sorted, fun _ _ => trivial, h.good, ?_, ?_, ?_⟩
  · intro e he
    refine ⟨h.add e he, h.drop e he, ?_, h.addN e he, h.dropN e he, ?_, ?_⟩
    · rw [h.inter e he]; simp
    · rw [h.inter e he]; simp
    · intro h1 h2
      rcases h.some e he with h3 | h3
      · exact absurd h1 h3
      · exact absurd h2 h3
  · intro i l hl p hp _
    refine h.all i p ?_
    rcases hp with hp | hp
    · exact Or.inl ⟨l, hl, hp.symm⟩
    · exact Or.inr ⟨l, hl, hp.symm⟩
  · intro e he
    unfold sites
    refine List.mem_append_left _ ?_
    rcases h.some e he with h3 | h3
    · obtain ⟨i, hi⟩ := List.exists_mem_of_ne_nil _ h3
      obtain ⟨l, hl, hp⟩ := (h.add e he i).1 hi
      exact List.mem_append_left _ (List.mem_map.2 ⟨l, List.mem_of_getElem? hl, hp⟩)
    · obtain ⟨i, hi⟩ := List.exists_mem_of_ne_nil _ h3
      obtain ⟨l, hl, hp⟩ := (h.drop e he i).1 hi
      exact List.mem_append_right _ (List.mem_map.2 ⟨l, List.mem_of_getElem? hl, hp⟩)

/-! ## the plain version -/

/-- the stored line -/
def rearranged (l : Line2 K) : Line2 K := ⟨lo l, hi l⟩

theorem rearranged_eq (l : Line2 K) :
    (if !(siteCmp l.start l.end == some .lt) then (⟨l.end, l.start⟩ : Line2 K) else l) = rearranged l := by
  unfold rearranged lo hi
  by_cases h : siteCmp l.start l.end = some .lt
  · simp [h]
  · simp [h]

theorem lo_rearranged (l : Line2 K) : lo (rearranged l) = lo l ∧ hi (rearranged l) = hi l := by
  rcases (lo_hi l).1 with h | h
  · unfold rearranged
    constructor
    · rw [lo]; simp only [siteCmp_lt h, if_true]
    · rw [hi]; simp only [siteCmp_lt h, if_true]
  · unfold rearranged
    rw [← h]
    constructor
    · rw [lo]; simp
    · rw [hi]; simp

theorem withLinesFold_ok [TreeShape K] : ∀ (input : List (Line2 K)) (L : List (Line2 K)) (d : SweepData K), d.lines = L →
    EvMap (Begins L) (Ends L) (fun _ => True) d.events →
    ∃ d', (input.zipIdx L.length).foldlM withLinesStep d = .ok d' ∧ d'.stopAtFirst = d.stopAtFirst ∧
      d'.ignoreEnds = d.ignoreEnds ∧ d'.lines = L ++ input.map rearranged ∧
      EvMap (Begins (L ++ input.map rearranged)) (Ends (L ++ input.map rearranged)) (fun _ => True) d'.events := by
  intro input
  induction input with
  | nil => intro L d hd h; exact ⟨d, rfl, rfl, rfl, by simpa using hd, by simpa using h⟩
  | cons a input ih =>
    intro L d hd h
    obtain ⟨m', h1, h2⟩ := addEndPoints_ok h (rearranged a) ((rearranged a).start, ()) ((rearranged a).end, ()) trivial trivial
      (lo_rearranged a).1 (lo_rearranged a).2
    obtain ⟨d', g1, g2, g3, g4, g5⟩ := ih (L ++ [rearranged a]) { d with events := m', lines := d.lines ++ [rearranged a] }
      (by simp [hd]) h2
    refine ⟨d', ?_, g2, g3, ?_, ?_⟩
    · rw [List.zipIdx_cons, List.foldlM_cons]
      have : withLinesStep d (a, L.length) = .ok { d with events := m', lines := d.lines ++ [rearranged a] } := by
        unfold withLinesStep
        simp only
        have hf : finiteEnds a.start a.end = true := by
          unfold finiteEnds
          simp only [finite_true, Bool.and_self]
        rw [hf, rearranged_eq]
        simp only [Bool.not_true, Bool.false_eq_true, if_false, h1, bind, Except.bind]
      rw [this]
      rw [List.length_append, List.length_singleton] at g1
      exact g1
    · rw [g4]; simp
    · simpa using g5

theorem withLines_ok [TreeShape K] (ign stop : Bool) (input : List (Line2 K)) :
    ∃ d, withLines { SweepData.default with ignoreEnds := ign, stopAtFirst := stop } input = .ok d ∧
      d.stopAtFirst = stop ∧ d.ignoreEnds = ign ∧ d.lines = input.map rearranged ∧
      EvMap (Begins (input.map rearranged)) (Ends (input.map rearranged)) (fun _ => True) d.events := by
  obtain ⟨d, h1, h2, h3, h4, h5⟩ := withLinesFold_ok input [] { SweepData.default with ignoreEnds := ign, stopAtFirst := stop } rfl (by
    refine ⟨List.Pairwise.nil, ?_, ?_, ?_, ?_, ?_, ?_, ?_, ?_⟩
    all_goals first
      | (intro e he; cases he; done)
      | (rintro i p (⟨l, hl, -⟩ | ⟨l, hl, -⟩) <;> simp at hl))
  exact ⟨d, h1, h2, h3, by simpa using h4, by simpa using h5⟩

theorem plainOps_ok (L : List (Line2 K)) : OpsOk (plainOps L) L (fun _ => True) (fun _ _ => True) := by
  refine ⟨?_, fun _ _ _ => trivial, fun _ _ _ => trivial, fun _ _ _ _ _ => trivial, fun _ _ _ _ => rfl⟩
  intro tab _ i l hl
  unfold plainOps idx
  simp only [hl]

theorem sound_of [ExactSqrt K] (L : List (Line2 K)) : Sound L := by
  intro l _ m _ it h
  refine (intersectionPoint_denotes l m it.single).1 ?_
  rw [h]
  cases it with
  | point p => exact rfl
  | overlap o => exact onSeg_start _ _

theorem lo_mem_seg (l : Line2 K) (p : V2 K) : OnSegment2 (lo l) (hi l) p ↔ OnSegment2 l.start l.end p := by
  rcases (lo_hi l).2 with ⟨h1, h2⟩ | ⟨h1, h2⟩ <;> rw [h1, h2]
  exact ⟨onSeg_symm, onSeg_symm⟩

/-! ## the indexed version -/

/-- the edge as a line -/
def edgeLine (vs : List (V2 K)) (z : V2 K) (e : Nat × Nat) : Line2 K := ⟨(vs[e.1]?).getD z, (vs[e.2]?).getD z⟩

/-- the indices of the edge are valid -/
def EdgeOk (vs : List (V2 K)) (e : Nat × Nat) : Prop := e.1 < vs.length ∧ e.2 < vs.length

/-- the key is a vertex -/
def IsVertex (vs : List (V2 K)) (k : V2 K × Nat) : Prop := vs[k.2]? = some k.1

theorem withEdgesFold_ok [TreeShape K] (vs : List (V2 K)) (z : V2 K) : ∀ (input : List (Nat × Nat)) (E : List (Nat × Nat)) (d : IndexedSweepData K),
    (∀ e ∈ input, EdgeOk vs e) → d.lines = E → d.vertices = vs →
    EvMap (Begins (E.map (edgeLine vs z))) (Ends (E.map (edgeLine vs z))) (IsVertex vs) d.events →
    ∃ d', (input.zipIdx E.length).foldlM withEdgesStep d = .ok d' ∧ d'.stopAtFirst = d.stopAtFirst ∧
      d'.ignoreEnds = d.ignoreEnds ∧ d'.lines = E ++ input ∧ d'.vertices = vs ∧
      EvMap (Begins ((E ++ input).map (edgeLine vs z))) (Ends ((E ++ input).map (edgeLine vs z))) (IsVertex vs) d'.events := by
  intro input
  induction input with
  | nil => intro E d _ hd hv h; exact ⟨d, rfl, rfl, rfl, by simpa using hd, hv, by simpa using h⟩
  | cons a input ih =>
    intro E d hin hd hv h
    obtain ⟨ha1, ha2⟩ := hin a List.mem_cons_self
    have hg1 : vs[a.1]? = some vs[a.1] := List.getElem?_eq_getElem _
    have hg2 : vs[a.2]? = some vs[a.2] := List.getElem?_eq_getElem _
    obtain ⟨p, hp⟩ : ∃ p, p = vs[a.1] := ⟨_, rfl⟩
    obtain ⟨q, hq⟩ : ∃ q, q = vs[a.2] := ⟨_, rfl⟩
    rw [← hp] at hg1; rw [← hq] at hg2
    have hline : edgeLine vs z a = ⟨p, q⟩ := by
      unfold edgeLine; rw [hg1, hg2]; rfl
    have hkeys : ∃ ka kb : V2 K × Nat, (if !(siteCmp p q == some .lt) then ((q, a.2), (p, a.1)) else ((p, a.1), (q, a.2))) = (ka, kb) ∧
        IsVertex vs ka ∧ IsVertex vs kb ∧ lo (edgeLine vs z a) = ka.1 ∧ hi (edgeLine vs z a) = kb.1 := by
      rw [hline]
      unfold lo hi
      by_cases hc : siteCmp p q = some .lt
      · exact ⟨(p, a.1), (q, a.2), by simp [hc], hg1, hg2, by simp [hc], by simp [hc]⟩
      · exact ⟨(q, a.2), (p, a.1), by simp [hc], hg2, hg1, by simp [hc], by simp [hc]⟩
    obtain ⟨ka, kb, hk1, hk2, hk3, hk4, hk5⟩ := hkeys
    obtain ⟨m', h1, h2⟩ := addEndPoints_ok h (edgeLine vs z a) ka kb hk2 hk3 hk4 hk5
    obtain ⟨d', g1, g2, g3, g4, g5, g6⟩ := ih (E ++ [a]) { d with events := m', lines := d.lines ++ [a] }
      (fun e he => hin e (List.mem_cons_of_mem _ he)) (by simp [hd]) hv (by simpa using h2)
    refine ⟨d', ?_, g2, g3, ?_, g5, ?_⟩
    · rw [List.zipIdx_cons, List.foldlM_cons]
      have : withEdgesStep d (a, E.length) = .ok { d with events := m', lines := d.lines ++ [a] } := by
        unfold withEdgesStep
        have hf : finiteEnds p q = true := by
          unfold finiteEnds
          simp only [finite_true, Bool.and_self]
        rw [List.length_map] at h1
        simp only [hv, idx, hg1, hg2, bind, Except.bind, hf, Bool.not_true, Bool.false_eq_true, if_false, hk1, h1]
      rw [this]
      rw [List.length_append, List.length_singleton] at g1
      exact g1
    · rw [g4]; simp
    · simpa using g6

theorem withEdges_ok [TreeShape K] (vs : List (V2 K)) (z : V2 K) (ign stop : Bool) (input : List (Nat × Nat)) (hin : ∀ e ∈ input, EdgeOk vs e) :
    ∃ d, withEdges { IndexedSweepData.new vs with ignoreEnds := ign, stopAtFirst := stop } input = .ok d ∧
      d.stopAtFirst = stop ∧ d.ignoreEnds = ign ∧ d.lines = input ∧ d.vertices = vs ∧
      EvMap (Begins (input.map (edgeLine vs z))) (Ends (input.map (edgeLine vs z))) (IsVertex vs) d.events := by
  obtain ⟨d, h1, h2, h3, h4, h5, h6⟩ := withEdgesFold_ok vs z input [] { IndexedSweepData.new vs with ignoreEnds := ign, stopAtFirst := stop }
    hin rfl rfl (by
    refine ⟨List.Pairwise.nil, ?_, ?_, ?_, ?_, ?_, ?_, ?_, ?_⟩
    all_goals first
      | (intro e he; cases he; done)
      | (rintro i p (⟨l, hl, -⟩ | ⟨l, hl, -⟩) <;> simp at hl))
  exact ⟨d, h1, h2, h3, by simpa using h4, h5, by simpa using h6⟩

theorem prefix_get {vs tab : List (V2 K)} (h : vs <+: tab) {i : Nat} {p : V2 K} (hi : vs[i]? = some p) : tab[i]? = some p := by
  obtain ⟨t, rfl⟩ := h
  rw [List.getElem?_append_left (List.getElem?_eq_some_iff.1 hi).1]
  exact hi

theorem indexedOps_ok (vs : List (V2 K)) (z : V2 K) (E : List (Nat × Nat)) (hE : ∀ e ∈ E, EdgeOk vs e) :
    OpsOk (indexedOps E) (E.map (edgeLine vs z)) (fun tab => vs <+: tab) IsVertex := by
  refine ⟨?_, ?_, ?_, ?_, ?_⟩
  · intro tab ht i l hl
    rw [List.getElem?_map] at hl
    obtain ⟨e, he, hl⟩ := Option.map_eq_some_iff.1 hl
    obtain ⟨h1, h2⟩ := hE e (List.mem_of_getElem? he)
    have hg1 : vs[e.1]? = some vs[e.1] := List.getElem?_eq_getElem _
    have hg2 : vs[e.2]? = some vs[e.2] := List.getElem?_eq_getElem _
    unfold indexedOps idx
    simp only [he, bind, Except.bind, prefix_get ht hg1, prefix_get ht hg2]
    rw [← hl]
    unfold edgeLine
    rw [hg1, hg2]
    rfl
  · intro tab ht p
    exact ht.trans (List.prefix_append _ _)
  · intro tab ht p
    unfold IsVertex indexedOps
    simp
  · intro tab ht p k hk
    exact prefix_get (List.prefix_append _ _) hk
  · intro tab ht k hk
    unfold indexedOps idx
    simp only
    rw [hk]

end
end Verif.Sweep
