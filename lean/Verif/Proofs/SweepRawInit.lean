import Verif.Proofs.SweepRaw
/-!
# The sweep line without laws of arithmetic: the initial event queue and the two versions
-/
set_option linter.unusedSectionVars false
set_option linter.unusedVariables false
set_option linter.unusedSimpArgs false
namespace Verif.SweepRaw
open Verif Verif.Model Verif.Props Scalar
variable {α : Type} [Scalar α] {ι σ V : Type}
variable {L : List (Line2 α)} {Lt : V2 α → V2 α → Prop} {N1 N2 N3 N4 : Line2 α → V2 α → Prop}

/-- the event queue while the lines below `n` have been entered -/
structure II [TreeShape α] (R : Rely α) (L : List (Line2 α)) (Lt : V2 α → V2 α → Prop) (N2 : Line2 α → V2 α → Prop) (Good : V2 α × ι → Prop) (n k : Nat)
    (m : SiteMap α ι SiteEvent) : Prop where
  fin : ∀ e ∈ m, FiniteV2 e.1.1
  good : ∀ e ∈ m, Good e.1
  ev : ∀ e ∈ m, EvR L N2 e.1.1 e.2
  below : ∀ e ∈ m, ∀ i, (i ∈ e.2.drop ∨ i ∈ e.2.add ∨ i ∈ e.2.inter) → i < n
  meas : measure L Lt m ≤ k * base L ^ (L.length * L.length)
  inv : R.holds → R.Inv (poss m)
  keys : R.holds → ∀ e ∈ m, R.K e.1.1

theorem pow_rank_le (p : V2 α) : base L ^ rank L Lt p ≤ base L ^ (L.length * L.length) :=
  Nat.pow_le_pow_right (by unfold base; omega) (rank_le p)

theorem addStart_raw [TreeShape α] {R : Rely α} {Good : V2 α × ι → Prop} (hl : Laws R L Lt N1 N2 N3 N4) {n k : Nat} {m : SiteMap α ι SiteEvent}
    (hm : II R L Lt N2 Good n k m) {key : V2 α × ι} (hf : FiniteV2 key.1) (hg : Good key) (hK : R.holds → R.K key.1) {l : Line2 α} (hL : L[n]? = some l) (hN : N1 l key.1) :
    ∃ m', siteUpdate key (fun v => let e := v.getD .empty; .ok ({ e with add := e.add ++ [n] } : SiteEvent)) m = .ok m' ∧
      (∀ e ∈ m', FiniteV2 e.1.1) ∧ (∀ e ∈ m', Good e.1) ∧ (∀ e ∈ m', EvR L N2 e.1.1 e.2) ∧
      (∀ e ∈ m', ∀ i, (i ∈ e.2.drop ∨ i ∈ e.2.add ∨ i ∈ e.2.inter) → i < n + 1) ∧
      measure L Lt m' ≤ (k + 1) * base L ^ (L.length * L.length) ∧ (R.holds → R.Inv (poss m')) ∧ (R.holds → ∀ e ∈ m', R.K e.1.1) := by
  rcases siteUpdate_cases hl.comparable key hf (fun v => let e := v.getD .empty; .ok ({ e with add := e.add ++ [n] } : SiteEvent)) m hm.fin with
    ⟨pre, e, post, h1, -, h3, h4⟩ | ⟨pre, post, h1, h2, h4⟩
  · rw [h4]
    have he : e ∈ m := by rw [h1]; simp
    have hE := hm.ev e he
    have hB := hm.below e he
    simp only [Option.getD_some, Except.map]
    obtain ⟨e', hee⟩ : ∃ e' : SiteEvent, e' = { e.2 with add := e.2.add ++ [n] } := ⟨_, rfl⟩
    rw [← hee]
    have d1 : e'.drop = e.2.drop := by rw [hee]
    have d2 : e'.add = e.2.add ++ [n] := by rw [hee]
    have d3 : e'.inter = e.2.inter := by rw [hee]
    have sub : ∀ x ∈ pre ++ (e.1, e') :: post, x = (e.1, e') ∨ x ∈ m := by
      intro x hx
      rw [h1]
      simp only [List.mem_append, List.mem_cons] at hx ⊢
      tauto
    refine ⟨_, rfl, ?_, ?_, ?_, ?_, ?_, ?_, ?_⟩
    · intro x hx
      rcases sub x hx with rfl | h
      · exact hm.fin e he
      · exact hm.fin x h
    · intro x hx
      rcases sub x hx with rfl | h
      · exact hm.good e he
      · exact hm.good x h
    · intro x hx
      rcases sub x hx with rfl | h
      · constructor
        · simp only
          rw [d1, d2, d3]
          rintro i (h | h | h)
          · exact hE.near i (Or.inl h)
          · rcases List.mem_append.1 h with h | h
            · exact hE.near i (Or.inr (Or.inl h))
            · rw [List.mem_singleton] at h
              subst h
              exact ⟨l, hL, hl.m12 _ _ _ hf (hm.fin e he) h3 hN⟩
          · exact hE.near i (Or.inr (Or.inr h))
        · simp only
          rw [d2]
          rw [List.nodup_append]
          refine ⟨hE.addN, by simp, ?_⟩
          intro a ha b hb
          rw [List.mem_singleton] at hb
          have := hB a (Or.inr (Or.inl ha))
          omega
        · simp only; rw [d3]; exact hE.interN
        · simp only; rw [d1, d2, d3, List.length_append]
          have := hE.one
          omega
        · simp only; rw [d1, d2, d3, List.length_append]
          intro h
          have := hE.two h
          omega
      · exact hm.ev x h
    · intro x hx
      rcases sub x hx with rfl | h
      · simp only
        rw [d1, d2, d3]
        rintro i (h | h | h)
        · have := hB i (Or.inl h); omega
        · rcases List.mem_append.1 h with h | h
          · have := hB i (Or.inr (Or.inl h)); omega
          · rw [List.mem_singleton] at h; omega
        · have := hB i (Or.inr (Or.inr h)); omega
      · intro i hi
        have := hm.below x h i hi
        omega
    · have : measure L Lt (pre ++ (e.1, e') :: post) = measure L Lt m := by
        rw [h1, measure_append, measure_append, measure_cons, measure_cons]
      rw [this, Nat.add_mul]
      exact hm.meas.trans (Nat.le_add_right _ _)
    · intro hR
      rw [poss_swap, ← h1]
      exact hm.inv hR
    · intro hR x hx
      rcases sub x hx with rfl | h
      · exact hm.keys hR e he
      · exact hm.keys hR x h
  · rw [h4]
    simp only [Option.getD_none, Except.map]
    obtain ⟨e', hee⟩ : ∃ e' : SiteEvent, e' = { SiteEvent.empty with add := SiteEvent.empty.add ++ [n] } := ⟨_, rfl⟩
    rw [← hee]
    have d1 : e'.drop = [] := by rw [hee]; rfl
    have d2 : e'.add = [n] := by rw [hee]; rfl
    have d3 : e'.inter = [] := by rw [hee]; rfl
    have sub : ∀ x ∈ pre ++ (key, e') :: post, x = (key, e') ∨ x ∈ m := by
      intro x hx
      rw [h1]
      simp only [List.mem_append, List.mem_cons] at hx ⊢
      tauto
    refine ⟨_, rfl, ?_, ?_, ?_, ?_, ?_, ?_, ?_⟩
    · intro x hx
      rcases sub x hx with rfl | h
      · exact hf
      · exact hm.fin x h
    · intro x hx
      rcases sub x hx with rfl | h
      · exact hg
      · exact hm.good x h
    · intro x hx
      rcases sub x hx with rfl | h
      · constructor
        · simp only
          rw [d1, d2, d3]
          rintro i (h | h | h)
          · cases h
          · rw [List.mem_singleton] at h
            subst h
            exact ⟨l, hL, hl.n12 _ _ hN⟩
          · cases h
        · simp only; rw [d2]; simp
        · simp only; rw [d3]; simp
        · simp only; rw [d1, d2, d3]; simp
        · simp only; rw [d3]; simp
      · exact hm.ev x h
    · intro x hx
      rcases sub x hx with rfl | h
      · simp only
        rw [d1, d2, d3]
        rintro i (h | h | h)
        · cases h
        · rw [List.mem_singleton] at h; omega
        · cases h
      · intro i hi
        have := hm.below x h i hi
        omega
    · have h5 := hm.meas
      rw [h1, measure_append] at h5
      rw [measure_append, measure_cons, Nat.add_mul, Nat.one_mul]
      simp only
      have := pow_rank_le (L := L) (Lt := Lt) key.1
      omega
    · intro hR
      rw [poss_append, poss_cons]
      exact R.insert hR key pre post (hK hR) (by rw [← h1]; exact hm.inv hR) (by rw [← h1]; exact h2)
    · intro hR x hx
      rcases sub x hx with rfl | h
      · exact hK hR
      · exact hm.keys hR x h

theorem addEnd_raw [TreeShape α] {R : Rely α} {Good : V2 α × ι → Prop} (hl : Laws R L Lt N1 N2 N3 N4) {n k : Nat} {m : SiteMap α ι SiteEvent}
    (hm : II R L Lt N2 Good (n + 1) k m) {key : V2 α × ι} (hf : FiniteV2 key.1) (hg : Good key) (hK : R.holds → R.K key.1) {l : Line2 α} (hL : L[n]? = some l) (hN : N1 l key.1) :
    ∃ m', siteUpdate key (fun v => let e := v.getD .empty; .ok ({ e with drop := e.drop ++ [n] } : SiteEvent)) m = .ok m' ∧
      II R L Lt N2 Good (n + 1) (k + 1) m' := by
  rcases siteUpdate_cases hl.comparable key hf (fun v => let e := v.getD .empty; .ok ({ e with drop := e.drop ++ [n] } : SiteEvent)) m hm.fin with
    ⟨pre, e, post, h1, -, h3, h4⟩ | ⟨pre, post, h1, h2, h4⟩
  · rw [h4]
    have he : e ∈ m := by rw [h1]; simp
    have hE := hm.ev e he
    have hB := hm.below e he
    simp only [Option.getD_some, Except.map]
    obtain ⟨e', hee⟩ : ∃ e' : SiteEvent, e' = { e.2 with drop := e.2.drop ++ [n] } := ⟨_, rfl⟩
    rw [← hee]
    have d1 : e'.drop = e.2.drop ++ [n] := by rw [hee]
    have d2 : e'.add = e.2.add := by rw [hee]
    have d3 : e'.inter = e.2.inter := by rw [hee]
    have sub : ∀ x ∈ pre ++ (e.1, e') :: post, x = (e.1, e') ∨ x ∈ m := by
      intro x hx
      rw [h1]
      simp only [List.mem_append, List.mem_cons] at hx ⊢
      tauto
    refine ⟨_, rfl, ?_, ?_, ?_, ?_, ?_, ?_, ?_⟩
    · intro x hx
      rcases sub x hx with rfl | h
      · exact hm.fin e he
      · exact hm.fin x h
    · intro x hx
      rcases sub x hx with rfl | h
      · exact hm.good e he
      · exact hm.good x h
    · intro x hx
      rcases sub x hx with rfl | h
      · constructor
        · simp only
          rw [d1, d2, d3]
          rintro i (h | h | h)
          · rcases List.mem_append.1 h with h | h
            · exact hE.near i (Or.inl h)
            · rw [List.mem_singleton] at h
              subst h
              exact ⟨l, hL, hl.m12 _ _ _ hf (hm.fin e he) h3 hN⟩
          · exact hE.near i (Or.inr (Or.inl h))
          · exact hE.near i (Or.inr (Or.inr h))
        · simp only; rw [d2]; exact hE.addN
        · simp only; rw [d3]; exact hE.interN
        · simp only; rw [d1, d2, d3, List.length_append]
          have := hE.one
          omega
        · simp only; rw [d1, d2, d3, List.length_append]
          intro h
          have := hE.two h
          omega
      · exact hm.ev x h
    · intro x hx
      rcases sub x hx with rfl | h
      · simp only
        rw [d1, d2, d3]
        rintro i (h | h | h)
        · rcases List.mem_append.1 h with h | h
          · exact hB i (Or.inl h)
          · rw [List.mem_singleton] at h; omega
        · exact hB i (Or.inr (Or.inl h))
        · exact hB i (Or.inr (Or.inr h))
      · exact hm.below x h
    · have : measure L Lt (pre ++ (e.1, e') :: post) = measure L Lt m := by
        rw [h1, measure_append, measure_append, measure_cons, measure_cons]
      rw [this, Nat.add_mul]
      exact hm.meas.trans (Nat.le_add_right _ _)
    · intro hR
      rw [poss_swap, ← h1]
      exact hm.inv hR
    · intro hR x hx
      rcases sub x hx with rfl | h
      · exact hm.keys hR e he
      · exact hm.keys hR x h
  · rw [h4]
    simp only [Option.getD_none, Except.map]
    obtain ⟨e', hee⟩ : ∃ e' : SiteEvent, e' = { SiteEvent.empty with drop := SiteEvent.empty.drop ++ [n] } := ⟨_, rfl⟩
    rw [← hee]
    have d1 : e'.drop = [n] := by rw [hee]; rfl
    have d2 : e'.add = [] := by rw [hee]; rfl
    have d3 : e'.inter = [] := by rw [hee]; rfl
    have sub : ∀ x ∈ pre ++ (key, e') :: post, x = (key, e') ∨ x ∈ m := by
      intro x hx
      rw [h1]
      simp only [List.mem_append, List.mem_cons] at hx ⊢
      tauto
    refine ⟨_, rfl, ?_, ?_, ?_, ?_, ?_, ?_, ?_⟩
    · intro x hx
      rcases sub x hx with rfl | h
      · exact hf
      · exact hm.fin x h
    · intro x hx
      rcases sub x hx with rfl | h
      · exact hg
      · exact hm.good x h
    · intro x hx
      rcases sub x hx with rfl | h
      · constructor
        · simp only
          rw [d1, d2, d3]
          rintro i (h | h | h)
          · rw [List.mem_singleton] at h
            subst h
            exact ⟨l, hL, hl.n12 _ _ hN⟩
          · cases h
          · cases h
        · simp only; rw [d2]; simp
        · simp only; rw [d3]; simp
        · simp only; rw [d1, d2, d3]; simp
        · simp only; rw [d3]; simp
      · exact hm.ev x h
    · intro x hx
      rcases sub x hx with rfl | h
      · simp only
        rw [d1, d2, d3]
        rintro i (h | h | h)
        · rw [List.mem_singleton] at h; omega
        · cases h
        · cases h
      · exact hm.below x h
    · have h5 := hm.meas
      rw [h1, measure_append] at h5
      rw [measure_append, measure_cons, Nat.add_mul, Nat.one_mul]
      simp only
      have := pow_rank_le (L := L) (Lt := Lt) key.1
      omega
    · intro hR
      rw [poss_append, poss_cons]
      exact R.insert hR key pre post (hK hR) (by rw [← h1]; exact hm.inv hR) (by rw [← h1]; exact h2)
    · intro hR x hx
      rcases sub x hx with rfl | h
      · exact hK hR
      · exact hm.keys hR x h

/-- the end points of a line -/
theorem addEndPoints_raw [TreeShape α] {R : Rely α} {Good : V2 α × ι → Prop} (hl : Laws R L Lt N1 N2 N3 N4) {n k : Nat} {m : SiteMap α ι SiteEvent}
    (hm : II R L Lt N2 Good n k m) {a b : V2 α × ι} (ha : FiniteV2 a.1) (hb : FiniteV2 b.1) (ga : Good a) (gb : Good b)
    (ka : R.holds → R.K a.1) (kb : R.holds → R.K b.1)
    {l : Line2 α} (hL : L[n]? = some l) (na : N1 l a.1) (nb : N1 l b.1) :
    ∃ m', addEndPoints n a b m = .ok m' ∧ II R L Lt N2 Good (n + 1) (k + 2) m' := by
  obtain ⟨m1, h1, h2, h3, h4, h5, h6, h7, h8⟩ := addStart_raw hl hm ha ga ka hL na
  obtain ⟨m2, g1, g2⟩ := addEnd_raw (k := k + 1) hl ⟨h2, h3, h4, h5, h6, h7, h8⟩ hb gb kb hL nb
  exact ⟨m2, by unfold addEndPoints; rw [h1]; exact g1, g2⟩

/-- the stored form of a line -/
def stored (l : Line2 α) : Line2 α := if !(siteCmp l.start l.end == some .lt) then ⟨l.end, l.start⟩ else l

theorem stored_cases (l : Line2 α) : stored l = l ∨ stored l = ⟨l.end, l.start⟩ := by
  unfold stored; split
  · exact Or.inr rfl
  · exact Or.inl rfl

/-- all lines -/
theorem withLines_raw [TreeShape α] {R : Rely α} {input : List (Line2 α)} (hl : Laws R (input.map stored) Lt N1 N2 N3 N4) :
    ∀ (n : Nat) (rest : List (Line2 α)) (d : SweepData α), (∀ i l, rest[i]? = some l → input[n + i]? = some l) →
    II R (input.map stored) Lt N2 (fun _ => True) n (2 * n) d.events → d.lines = (input.take n).map stored →
    n + rest.length = input.length →
    ∃ ev, (rest.zipIdx n).foldlM withLinesStep d = .ok { d with events := ev, lines := input.map stored } ∧
      II R (input.map stored) Lt N2 (fun _ => True) input.length (2 * input.length) ev := by
  intro n rest
  induction rest generalizing n with
  | nil =>
    intro d _ hI hd hn
    rw [List.length_nil, Nat.add_zero] at hn
    subst hn
    refine ⟨d.events, ?_, hI⟩
    rw [List.take_length] at hd
    rw [← hd]
    rfl
  | cons l rest ih =>
    intro d hin hI hd hn
    rw [List.zipIdx_cons, List.foldlM_cons]
    have hl0 : input[n]? = some l := by simpa using hin 0 l rfl
    have hs : (input.map stored)[n]? = some (stored l) := by rw [List.getElem?_map, hl0]; rfl
    have hsm := List.mem_of_getElem? hs
    have hf := hl.finite _ hsm
    have hN := hl.ends _ hsm
    have hfe : finiteEnds l.start l.end = true := by
      rw [finiteEnds_iff]
      rcases stored_cases l with h | h
      · rw [h] at hf; exact hf
      · rw [h] at hf; exact ⟨hf.2, hf.1⟩
    obtain ⟨ev, h1, h2⟩ := addEndPoints_raw (a := ((stored l).start, ())) (b := ((stored l).end, ())) hl hI hf.1 hf.2 trivial trivial
      (fun hR => (hl.keyEnds hR _ hsm).1) (fun hR => (hl.keyEnds hR _ hsm).2) hs hN.1 hN.2
    have hstep : withLinesStep d (l, n) = .ok { d with events := ev, lines := d.lines ++ [stored l] } := by
      unfold withLinesStep
      simp only [hfe, Bool.not_true, Bool.false_eq_true, if_false]
      change (Except.bind (addEndPoints n ((stored l).start, ()) ((stored l).end, ()) d.events) _) = _
      rw [h1]
      rfl
    rw [hstep]
    obtain ⟨ev', g1, g2⟩ := ih (n + 1) { d with events := ev, lines := d.lines ++ [stored l] }
      (fun i l' h => by
        have := hin (i + 1) l' h
        rwa [show n + 1 + i = n + (i + 1) by omega])
      h2 (by
        simp only
        rw [hd, List.take_add_one, List.map_append, hl0]
        rfl) (by simp only [List.length_cons] at hn; omega)
    exact ⟨ev', g1, g2⟩

theorem plainOps_raw (L : List (Line2 α)) : Ops (plainOps L) L (fun _ => True) (fun _ _ => True) := by
  constructor
  · intro tab _ i l h
    show idx L i = _
    unfold idx
    rw [h]
  · intros; trivial
  · intros; trivial
  · intros; trivial
  · intros; rfl

/-- the number of rounds that is always enough for `n` lines -/
def enough (n : Nat) : Nat := 2 * n * (4 * (n * n) + 1) ^ (n * n)

/-- the plain version -/
theorem plain_raw [TreeShape α] {R : Rely α} (input : List (Line2 α)) (hl : Laws R (input.map stored) Lt N1 N2 N3 N4)
    {order : Nat → List Nat → List Nat} (hord : ∀ n l, (order n l).Perm l) (ign stop : Bool) (fuel : Nat) (hfuel : R.holds → enough input.length < fuel) :
    (¬ R.holds ∧ ∃ x, sweepIntersections order fuel ign stop input = .error x ∧ x ≠ .invalid) ∨
    (sweepIntersections order fuel ign stop input = .error .invalid ∧ Overflow (input.map stored)) ∨
    ∃ r, sweepIntersections order fuel ign stop input = .ok r ∧
      ∀ x ∈ r, FiniteV2 x.1 ∧ (R.holds ∨ stop = true → 2 ≤ x.2.length) ∧ x.2.Pairwise (· ≤ ·) ∧
        ∀ i ∈ x.2, ∃ l, input[i]? = some l ∧ N4 (stored l) x.1 := by
  obtain ⟨ev, h1, h2⟩ := withLines_raw hl 0 input { SweepData.default with ignoreEnds := ign, stopAtFirst := stop }
    (fun i l h => by simpa using h) ⟨by simp [SweepData.default], by simp [SweepData.default], by simp [SweepData.default],
      by simp [SweepData.default], by simp [SweepData.default, measure], fun hR => R.nil hR, by simp [SweepData.default]⟩ (by simp [SweepData.default]) (by simp)
  have hlen : (input.map stored).length = input.length := List.length_map _
  have hs : SI R (R.holds ∨ stop = true) (input.map stored) N2 N4 (fun _ : Unit => True) (fun _ _ => True) ⟨(), ev, [], []⟩ :=
    ⟨⟨trivial, h2.fin, fun _ _ => trivial, h2.ev, h2.inv, h2.keys⟩, ⟨by simp, by simp, by simp, by simp, by simp, fun hR => R.nil hR⟩, by simp, by simp⟩
  have hm : R.holds → measure (input.map stored) Lt ev < fuel := by
    intro hR
    refine lt_of_le_of_lt h2.meas ?_
    have : base (input.map stored) = 4 * (input.length * input.length) + 1 := by unfold base; rw [hlen]
    rw [this, hlen]
    exact hfuel hR
  unfold sweepIntersections
  have h1 : withLines { SweepData.default with ignoreEnds := ign, stopAtFirst := stop } input = _ := h1
  rw [h1]
  simp only [bind, Except.bind]
  unfold sweepCompute
  simp only [SweepData.default]
  rcases sweepLoop_raw (plainOps_raw (input.map stored)) hl hord ign stop fuel _ hs hm
    (fun h => h.imp_right (fun h => ⟨h, rfl⟩)) with ⟨g0, x, g1, g2⟩ | ⟨g1, g2⟩ | ⟨s', g1, g2⟩
  · rw [g1]; exact Or.inl ⟨g0, x, rfl, g2⟩
  · rw [g1]; exact Or.inr (Or.inl ⟨rfl, g2⟩)
  · rw [g1]
    refine Or.inr (Or.inr ⟨_, rfl, ?_⟩)
    intro x hx
    obtain ⟨y, hy, rfl⟩ := List.mem_map.1 hx
    refine ⟨g2.ri.fin y hy, fun h => g2.ri.two h y hy, g2.ri.sorted y hy, ?_⟩
    intro i hi
    obtain ⟨l, k1, k2⟩ := g2.ri.near y hy i hi
    rw [List.getElem?_map] at k1
    obtain ⟨l0, k3, rfl⟩ := Option.map_eq_some_iff.1 k1
    exact ⟨l0, k3, k2⟩

/-! ## the indexed version -/

/-- the line of an edge -/
def lineOf (vs : List (V2 α)) (z : V2 α) (e : Nat × Nat) : Line2 α := ⟨vs.getD e.1 z, vs.getD e.2 z⟩

theorem withEdges_raw [TreeShape α] {R : Rely α} {vs : List (V2 α)} (z : V2 α) {input : List (Nat × Nat)} (hin : ∀ e ∈ input, e.1 < vs.length ∧ e.2 < vs.length)
    (hl : Laws R (input.map (lineOf vs z)) Lt N1 N2 N3 N4) :
    ∀ (n : Nat) (rest : List (Nat × Nat)) (d : IndexedSweepData α), (∀ i l, rest[i]? = some l → input[n + i]? = some l) →
    II R (input.map (lineOf vs z)) Lt N2 (fun k : V2 α × Nat => vs[k.2]? = some k.1) n (2 * n) d.events → d.lines = input.take n → d.vertices = vs →
    n + rest.length = input.length →
    ∃ ev, (rest.zipIdx n).foldlM withEdgesStep d = .ok { d with events := ev, lines := input } ∧
      II R (input.map (lineOf vs z)) Lt N2 (fun k : V2 α × Nat => vs[k.2]? = some k.1) input.length (2 * input.length) ev := by
  intro n rest
  induction rest generalizing n with
  | nil =>
    intro d _ hI hd hv hn
    rw [List.length_nil, Nat.add_zero] at hn
    subst hn
    refine ⟨d.events, ?_, hI⟩
    rw [List.take_length] at hd
    rw [← hd]
    rfl
  | cons l rest ih =>
    intro d hsub hI hd hv hn
    rw [List.zipIdx_cons, List.foldlM_cons]
    have hl0 : input[n]? = some l := by simpa using hsub 0 l rfl
    have hs : (input.map (lineOf vs z))[n]? = some (lineOf vs z l) := by rw [List.getElem?_map, hl0]; rfl
    have hsm := List.mem_of_getElem? hs
    have hf := hl.finite _ hsm
    have hN := hl.ends _ hsm
    obtain ⟨b1, b2⟩ := hin l (List.mem_of_getElem? hl0)
    have v1 : vs[l.1]? = some (lineOf vs z l).start := by
      simp [lineOf, b1]
    have v2 : vs[l.2]? = some (lineOf vs z l).end := by
      simp [lineOf, b2]
    obtain ⟨a, ha⟩ : ∃ a, a = (lineOf vs z l).start := ⟨_, rfl⟩
    obtain ⟨b, hb⟩ : ∃ b, b = (lineOf vs z l).end := ⟨_, rfl⟩
    have hKK := fun hR => hl.keyEnds hR _ hsm
    rw [← ha] at v1 hf hN hKK
    rw [← hb] at v2 hf hN hKK
    have i1 : idx d.vertices l.1 = .ok a := by rw [hv]; unfold idx; rw [v1]
    have i2 : idx d.vertices l.2 = .ok b := by rw [hv]; unfold idx; rw [v2]
    have hfe : finiteEnds a b = true := (finiteEnds_iff _ _).2 hf
    have hstep : ∃ ev, withEdgesStep d (l, n) = .ok { d with events := ev, lines := d.lines ++ [l] } ∧
        II R (input.map (lineOf vs z)) Lt N2 (fun k : V2 α × Nat => vs[k.2]? = some k.1) (n + 1) (2 * n + 2) ev := by
      unfold withEdgesStep
      simp only [i1, i2, bind, Except.bind, hfe, Bool.not_true, Bool.false_eq_true, if_false]
      by_cases hc : (!(siteCmp a b == some .lt)) = true
      · obtain ⟨ev, h1, h2⟩ := addEndPoints_raw (a := (b, l.2)) (b := (a, l.1)) hl hI hf.2 hf.1 v2 v1
          (fun hR => (hKK hR).2) (fun hR => (hKK hR).1) hs hN.2 hN.1
        refine ⟨ev, ?_, h2⟩
        simp only [hc, if_true, h1]
      · obtain ⟨ev, h1, h2⟩ := addEndPoints_raw (a := (a, l.1)) (b := (b, l.2)) hl hI hf.1 hf.2 v1 v2
          (fun hR => (hKK hR).1) (fun hR => (hKK hR).2) hs hN.1 hN.2
        refine ⟨ev, ?_, h2⟩
        rw [if_neg hc]
        simp only [h1]
    obtain ⟨ev, h1, h2⟩ := hstep
    rw [h1]
    obtain ⟨ev', g1, g2⟩ := ih (n + 1) { d with events := ev, lines := d.lines ++ [l] }
      (fun i l' h => by
        have := hsub (i + 1) l' h
        rwa [show n + 1 + i = n + (i + 1) by omega])
      h2 (by
        simp only
        rw [hd, List.take_add_one, hl0]
        rfl) hv (by simp only [List.length_cons] at hn; omega)
    exact ⟨ev', g1, g2⟩

theorem prefix_some {vs tab : List (V2 α)} (h : vs <+: tab) {i : Nat} {p : V2 α} (hi : vs[i]? = some p) : tab[i]? = some p := by
  obtain ⟨t, rfl⟩ := h
  rw [List.getElem?_append_left (List.getElem?_eq_some_iff.1 hi).1, hi]

theorem indexedOps_raw (vs : List (V2 α)) (z : V2 α) (E : List (Nat × Nat)) (hE : ∀ e ∈ E, e.1 < vs.length ∧ e.2 < vs.length) :
    Ops (indexedOps E) (E.map (lineOf vs z)) (fun tab => vs <+: tab) (fun tab k => tab[k.2]? = some k.1) := by
  constructor
  · intro tab ht i l h
    rw [List.getElem?_map] at h
    obtain ⟨e, he, rfl⟩ := Option.map_eq_some_iff.1 h
    obtain ⟨b1, b2⟩ := hE e (List.mem_of_getElem? he)
    have v1 : tab[e.1]? = some (lineOf vs z e).start := prefix_some ht (by simp [lineOf, b1])
    have v2 : tab[e.2]? = some (lineOf vs z e).end := prefix_some ht (by simp [lineOf, b2])
    simp only [indexedOps, idx, he, v1, v2, bind, Except.bind]
  · intro tab ht p
    exact ht.trans (List.prefix_append _ _)
  · intro tab ht p
    simp [indexedOps]
  · intro tab ht p k hk
    exact prefix_some (List.prefix_append _ _) hk
  · intro tab ht k hk
    simp only [indexedOps, idx, hk]

/-- the indexed version -/
theorem indexed_raw [TreeShape α] {R : Rely α} (vs : List (V2 α)) (z : V2 α) (edges : List (Nat × Nat)) (hin : ∀ e ∈ edges, e.1 < vs.length ∧ e.2 < vs.length)
    (hl : Laws R (edges.map (lineOf vs z)) Lt N1 N2 N3 N4)
    {order : Nat → List Nat → List Nat} (hord : ∀ n l, (order n l).Perm l) (ign stop : Bool) (fuel : Nat) (hfuel : R.holds → enough edges.length < fuel) :
    (¬ R.holds ∧ ∃ x, indexedSweepIntersections order fuel ign stop vs edges = .error x ∧ x ≠ .invalid) ∨
    (indexedSweepIntersections order fuel ign stop vs edges = .error .invalid ∧ Overflow (edges.map (lineOf vs z))) ∨
    ∃ tab r, indexedSweepIntersections order fuel ign stop vs edges = .ok (tab, r) ∧ vs <+: tab ∧
      ∀ x ∈ r, ∃ p, tab[x.1]? = some p ∧ FiniteV2 p ∧ (R.holds ∨ stop = true → 2 ≤ x.2.length) ∧ x.2.Pairwise (· ≤ ·) ∧
        ∀ i ∈ x.2, ∃ e, edges[i]? = some e ∧ N4 (lineOf vs z e) p := by
  obtain ⟨ev, h1, h2⟩ := withEdges_raw z hin hl 0 edges { IndexedSweepData.new vs with ignoreEnds := ign, stopAtFirst := stop }
    (fun i l h => by simpa using h) ⟨by simp [IndexedSweepData.new], by simp [IndexedSweepData.new], by simp [IndexedSweepData.new],
      by simp [IndexedSweepData.new], by simp [IndexedSweepData.new, measure], fun hR => R.nil hR, by simp [IndexedSweepData.new]⟩ (by simp [IndexedSweepData.new]) rfl (by simp)
  have hlen : (edges.map (lineOf vs z)).length = edges.length := List.length_map _
  have hs : SI R (R.holds ∨ stop = true) (edges.map (lineOf vs z)) N2 N4 (fun tab => vs <+: tab) (fun tab k => tab[k.2]? = some k.1) ⟨vs, ev, [], []⟩ :=
    ⟨⟨List.prefix_refl _, h2.fin, h2.good, h2.ev, h2.inv, h2.keys⟩, ⟨by simp, by simp, by simp, by simp, by simp, fun hR => R.nil hR⟩, by simp, by simp⟩
  have hm : R.holds → measure (edges.map (lineOf vs z)) Lt ev < fuel := by
    intro hR
    refine lt_of_le_of_lt h2.meas ?_
    have : base (edges.map (lineOf vs z)) = 4 * (edges.length * edges.length) + 1 := by unfold base; rw [hlen]
    rw [this, hlen]
    exact hfuel hR
  unfold indexedSweepIntersections
  have h1 : withEdges { IndexedSweepData.new vs with ignoreEnds := ign, stopAtFirst := stop } edges = _ := h1
  rw [h1]
  simp only [bind, Except.bind]
  unfold indexedSweepCompute
  simp only [IndexedSweepData.new]
  rcases sweepLoop_raw (indexedOps_raw vs z edges hin) hl hord ign stop fuel _ hs hm
    (fun h => h.imp_right (fun h => ⟨h, rfl⟩)) with ⟨g0, x, g1, g2⟩ | ⟨g1, g2⟩ | ⟨s', g1, g2⟩
  · rw [g1]; exact Or.inl ⟨g0, x, rfl, g2⟩
  · rw [g1]; exact Or.inr (Or.inl ⟨rfl, g2⟩)
  · rw [g1]
    refine Or.inr (Or.inr ⟨_, _, rfl, g2.ei.tab, ?_⟩)
    intro x hx
    obtain ⟨y, hy, rfl⟩ := List.mem_map.1 hx
    refine ⟨y.1.1, g2.ri.valid y hy, g2.ri.fin y hy, fun h => g2.ri.two h y hy, g2.ri.sorted y hy, ?_⟩
    intro i hi
    obtain ⟨l, k1, k2⟩ := g2.ri.near y hy i hi
    rw [List.getElem?_map] at k1
    obtain ⟨l0, k3, rfl⟩ := Option.map_eq_some_iff.1 k1
    exact ⟨l0, k3, k2⟩

end Verif.SweepRaw
