import Verif.Proofs.SweepDone
/-!
# The sweep line algorithm: the vertex table of the indexed version
-/
set_option linter.unusedSectionVars false
set_option linter.unusedVariables false
set_option linter.unusedSimpArgs false
namespace Verif.SweepTable
open Verif Verif.Spec Verif.Model

section
variable {α : Type} [Scalar α] [TreeShape α] {ι σ V : Type}

/-- the keys after an update are those before, and possibly the new one -/
theorem siteUpdate_keys {k : V2 α × ι} {f : Option V → Except Err V} {m m' : SiteMap α ι V}
    (h : siteUpdate k f m = .ok m') : ∀ x ∈ m', (∃ y ∈ m, y.1 = x.1) ∨ x.1 = k := by
  unfold siteUpdate at h
  cases hs : siteSearch V (m.map (·.1)) k m.length 0 m.length with
  | error e => rw [hs] at h; cases h
  | ok r =>
    obtain ⟨i, b⟩ := r
    rw [hs] at h
    simp only [bind, Except.bind] at h
    have hold : ∀ x, x ∈ m.take i ∨ x ∈ m.drop (i + 1) ∨ x ∈ m.drop i → ∃ y ∈ m, y.1 = x.1 := by
      rintro x (hx | hx | hx)
      · exact ⟨x, List.mem_of_mem_take hx, rfl⟩
      · exact ⟨x, List.mem_of_mem_drop hx, rfl⟩
      · exact ⟨x, List.mem_of_mem_drop hx, rfl⟩
    cases b with
    | true =>
      cases he : m[i]? with
      | none => rw [he] at h; cases h
      | some e =>
        rw [he] at h
        simp only at h
        cases hf : f (some e.2) with
        | error e => rw [hf] at h; cases h
        | ok v =>
          rw [hf] at h
          cases h
          intro x hx
          rcases List.mem_append.1 hx with hx | hx
          · exact Or.inl (hold x (Or.inl hx))
          · rcases List.mem_cons.1 hx with rfl | hx
            · exact Or.inl ⟨e, List.mem_of_getElem? he, rfl⟩
            · exact Or.inl (hold x (Or.inr (Or.inl hx)))
    | false =>
      have h2 : (do let v ← f none; Except.ok (m.take i ++ (k, v) :: m.drop i) : Except Err _) = .ok m' := by
        cases he : m[i]? with
        | none => rw [he] at h; exact h
        | some e => rw [he] at h; exact h
      cases hf : f none with
      | error e => rw [hf] at h2; cases h2
      | ok v =>
        rw [hf] at h2
        cases h2
        intro x hx
        rcases List.mem_append.1 hx with hx | hx
        · exact Or.inl (hold x (Or.inl hx))
        · rcases List.mem_cons.1 hx with rfl | hx
          · exact Or.inr rfl
          · exact Or.inl (hold x (Or.inr (Or.inr hx)))

/-- the keys after `pop_first` are keys from before -/
theorem popFirst_keys {k : V2 α × ι} {m : SiteMap α ι V} {r : V × SiteMap α ι V} (h : popFirst k m = .ok r) :
    ∀ x ∈ r.2, x ∈ m := by
  unfold popFirst at h
  cases hs : siteSearch V (m.map (·.1)) k m.length 0 m.length with
  | error e => rw [hs] at h; cases h
  | ok t =>
    obtain ⟨i, b⟩ := t
    rw [hs] at h
    simp only [bind, Except.bind] at h
    cases b with
    | true =>
      cases he : m[i]? with
      | none => rw [he] at h; cases h
      | some e =>
        rw [he] at h
        cases h
        intro x hx
        rcases List.mem_append.1 hx with hx | hx
        · exact List.mem_of_mem_take hx
        · exact List.mem_of_mem_drop hx
    | false => cases he : m[i]? <;> rw [he] at h <;> cases h

/-- a vertex that the algorithm may add -/
def Found (vs : List (V2 α)) (E : List (Nat × Nat)) (p : V2 α) : Prop :=
  Scalar.isFinite p.x = true ∧ Scalar.isFinite p.y = true ∧
  ∃ e ∈ E, ∃ f ∈ E, ∃ a b c d it, vs[e.1]? = some a ∧ vs[e.2]? = some b ∧ vs[f.1]? = some c ∧ vs[f.2]? = some d ∧
    (Line2.mk a b).intersectionPoint ⟨c, d⟩ = some it ∧ it.single = p

/-- the vertex table: the given vertices and some that were found -/
def TabOk (vs : List (V2 α)) (E : List (Nat × Nat)) (tab : List (V2 α)) : Prop :=
  ∃ new, tab = vs ++ new ∧ ∀ p ∈ new, Found vs E p

/-- the index in a key is valid, and it is a new one or an end of an edge -/
def KeyOk (vs : List (V2 α)) (E : List (Nat × Nat)) (tab : List (V2 α)) (k : V2 α × Nat) : Prop :=
  k.2 < tab.length ∧ (vs.length ≤ k.2 ∨ ∃ e ∈ E, k.2 = e.1 ∨ k.2 = e.2)

theorem KeyOk.mono {vs : List (V2 α)} {E : List (Nat × Nat)} {tab tab' : List (V2 α)} {k : V2 α × Nat} (h : KeyOk vs E tab k)
    (hl : tab.length ≤ tab'.length) : KeyOk vs E tab' k := ⟨lt_of_lt_of_le h.1 hl, h.2⟩

variable {vs : List (V2 α)} {E : List (Nat × Nat)}

theorem line_inv (hE : ∀ e ∈ E, e.1 < vs.length ∧ e.2 < vs.length) {tab : List (V2 α)} (ht : TabOk vs E tab) {i : Nat}
    {l : Line2 α} (h : (indexedOps E).line tab i = .ok l) :
    ∃ e ∈ E, vs[e.1]? = some l.start ∧ vs[e.2]? = some l.end := by
  obtain ⟨new, rfl, -⟩ := ht
  unfold indexedOps at h
  simp only [idx] at h
  cases he : E[i]? with
  | none => rw [he] at h; cases h
  | some e =>
    rw [he] at h
    have hm := List.mem_of_getElem? he
    obtain ⟨h1, h2⟩ := hE e hm
    simp only [bind, Except.bind] at h
    rw [List.getElem?_append_left h1, List.getElem?_append_left h2, List.getElem?_eq_getElem h1,
      List.getElem?_eq_getElem h2] at h
    cases h
    exact ⟨e, hm, List.getElem?_eq_getElem h1, List.getElem?_eq_getElem h2⟩

theorem findNewStep_table (hE : ∀ e ∈ E, e.1 < vs.length ∧ e.2 < vs.length) {sweep : V2 α}
    {s s' : List (V2 α) × SiteMap α Nat SiteEvent} {pair : Nat × Nat} (ht : TabOk vs E s.1)
    (hk : ∀ x ∈ s.2, KeyOk vs E s.1 x.1) (h : findNewStep (indexedOps E) sweep s pair = .ok s') :
    TabOk vs E s'.1 ∧ (∀ x ∈ s'.2, KeyOk vs E s'.1 x.1) ∧ s.1.length ≤ s'.1.length := by
  unfold findNewStep at h
  cases h1 : (indexedOps E).line s.1 pair.1 with
  | error e => rw [h1] at h; cases h
  | ok l =>
    cases h2 : (indexedOps E).line s.1 pair.2 with
    | error e => rw [h1, h2] at h; cases h
    | ok m =>
      rw [h1, h2] at h
      simp only [bind, Except.bind] at h
      have same : s = s' → TabOk vs E s'.1 ∧ (∀ x ∈ s'.2, KeyOk vs E s'.1 x.1) ∧ s.1.length ≤ s'.1.length := by
        rintro rfl; exact ⟨ht, hk, le_refl _⟩
      by_cases hc : l.end.ulpsEq m.end = true
      · rw [if_pos hc] at h; exact same (Except.ok.inj h)
      rw [if_neg hc] at h
      cases hi : l.intersectionPoint m with
      | none => rw [hi] at h; exact same (Except.ok.inj h)
      | some it =>
        rw [hi] at h
        simp only at h
        by_cases hf : (!Scalar.isFinite it.single.x || !Scalar.isFinite it.single.y) = true
        · rw [if_pos hf] at h; cases h
        rw [if_neg hf] at h
        by_cases hg : (Scalar.ge it.single.y sweep.y && !(Scalar.beq it.single.y sweep.y && Scalar.lt it.single.x sweep.x) &&
            !it.single.ulpsEq sweep) = true
        · rw [if_pos hg] at h
          obtain ⟨p, hp⟩ : ∃ p, it.single = p := ⟨_, rfl⟩
          rw [hp] at h hf
          cases hu : siteUpdate (p, s.1.length) (addIntersection (indexedOps E) (s.1 ++ [p]) p [pair.1, pair.2]) s.2 with
          | error e =>
            simp only [indexedOps] at h hu
            rw [hu] at h; cases h
          | ok ev =>
            have hs' : s' = (s.1 ++ [p], ev) := by
              simp only [indexedOps] at h hu
              rw [hu] at h
              exact (Except.ok.inj h).symm
            subst hs'
            obtain ⟨new, hnew, hall⟩ := ht
            obtain ⟨e, he, ha, hb⟩ := line_inv hE ⟨new, hnew, hall⟩ h1
            obtain ⟨e', he', hc', hd⟩ := line_inv hE ⟨new, hnew, hall⟩ h2
            simp only [Bool.or_eq_true, Bool.not_eq_true', not_or, Bool.not_eq_false] at hf
            refine ⟨⟨new ++ [p], by rw [hnew, List.append_assoc], ?_⟩, ?_, by simp⟩
            · intro q hq
              rcases List.mem_append.1 hq with hq | hq
              · exact hall q hq
              · rw [List.mem_singleton] at hq
                subst hq
                exact ⟨hf.1, hf.2, e, he, e', he', _, _, _, _, it, ha, hb, hc', hd, hi, hp⟩
            · intro x hx
              rcases siteUpdate_keys hu x hx with ⟨y, hy, hxy⟩ | hxy
              · rw [← hxy]; exact (hk y hy).mono (by simp)
              · rw [hxy]
                refine ⟨by simp, Or.inl ?_⟩
                simp only [hnew, List.length_append]
                omega
        · rw [if_neg hg] at h; exact same (Except.ok.inj h)

theorem findNewFold_table (hE : ∀ e ∈ E, e.1 < vs.length ∧ e.2 < vs.length) {sweep : V2 α} : ∀ (P : List (Nat × Nat))
    {s s' : List (V2 α) × SiteMap α Nat SiteEvent}, TabOk vs E s.1 →
    (∀ x ∈ s.2, KeyOk vs E s.1 x.1) → P.foldlM (findNewStep (indexedOps E) sweep) s = .ok s' →
    TabOk vs E s'.1 ∧ (∀ x ∈ s'.2, KeyOk vs E s'.1 x.1) ∧ s.1.length ≤ s'.1.length := by
  intro P
  induction P with
  | nil => intro s s' ht hk h; cases h; exact ⟨ht, hk, le_refl _⟩
  | cons p P ih =>
    intro s s' ht hk h
    rw [List.foldlM_cons] at h
    cases h1 : findNewStep (indexedOps E) sweep s p with
    | error e => rw [h1] at h; cases h
    | ok t =>
      rw [h1] at h
      obtain ⟨g1, g2, g3⟩ := findNewStep_table hE ht hk h1
      obtain ⟨f1, f2, f3⟩ := ih g1 g2 h
      exact ⟨f1, f2, g3.trans f3⟩

theorem newEvents_table (hE : ∀ e ∈ E, e.1 < vs.length ∧ e.2 < vs.length) {sweep : V2 α} {e : SiteEvent} {m : MinMax α}
    {s s' : List (V2 α) × SiteMap α Nat SiteEvent} (ht : TabOk vs E s.1)
    (hk : ∀ x ∈ s.2, KeyOk vs E s.1 x.1) (h : newEvents (indexedOps E) sweep e m s = .ok s') :
    TabOk vs E s'.1 ∧ (∀ x ∈ s'.2, KeyOk vs E s'.1 x.1) ∧ s.1.length ≤ s'.1.length := by
  have same : ∀ s s' : List (V2 α) × SiteMap α Nat SiteEvent, TabOk vs E s.1 → (∀ x ∈ s.2, KeyOk vs E s.1 x.1) → s = s' →
      TabOk vs E s'.1 ∧ (∀ x ∈ s'.2, KeyOk vs E s'.1 x.1) ∧ s.1.length ≤ s'.1.length := by
    rintro s s' ht hk rfl; exact ⟨ht, hk, le_refl _⟩
  unfold newEvents at h
  by_cases h0 : e.inter.length + e.add.length = 0
  · rw [if_pos h0] at h
    by_cases h1 : (!m.slope.candLeft.isEmpty && !m.slope.candRight.isEmpty) = true
    · rw [if_pos h1] at h
      exact findNewFold_table hE _ ht hk h
    · rw [if_neg h1] at h
      exact same _ _ ht hk (Except.ok.inj h)
  · rw [if_neg h0] at h
    cases hc : (e.add ++ e.inter).foldlM (connectedStep (indexedOps E) s.1) MinMaxSlope.new with
    | error x => rw [hc] at h; cases h
    | ok c =>
      rw [hc] at h
      simp only [bind, Except.bind] at h
      have step : ∀ (b : Bool) (x y : List Nat) (s s' : List (V2 α) × SiteMap α Nat SiteEvent), TabOk vs E s.1 →
          (∀ x ∈ s.2, KeyOk vs E s.1 x.1) →
          (if b = true then findNewEvents (indexedOps E) sweep x y s else .ok s) = .ok s' →
          TabOk vs E s'.1 ∧ (∀ x ∈ s'.2, KeyOk vs E s'.1 x.1) ∧ s.1.length ≤ s'.1.length := by
        intro b x y s s' ht hk h
        cases b with
        | true => exact findNewFold_table hE _ ht hk h
        | false => exact same _ _ ht hk (Except.ok.inj h)
      by_cases hcl : (!m.slope.candLeft.isEmpty) = true
      · rw [if_pos hcl] at h
        cases h1 : findNewEvents (indexedOps E) sweep m.slope.candLeft c.candLeft s with
        | error x => rw [h1] at h; cases h
        | ok t =>
          rw [h1] at h
          obtain ⟨g1, g2, g3⟩ := findNewFold_table hE _ ht hk h1
          obtain ⟨f1, f2, f3⟩ := step _ _ _ _ _ g1 g2 h
          exact ⟨f1, f2, g3.trans f3⟩
      · rw [if_neg hcl] at h
        exact step _ _ _ _ _ ht hk h

theorem reportLines_table {tab : List (V2 α)} {key : V2 α × Nat} (hkey : KeyOk vs E tab key) {r r' : SiteMap α Nat (List Nat)}
    {lines : List Nat} (hr : ∀ x ∈ r, KeyOk vs E tab x.1) (h : reportLines (indexedOps E) tab key r lines = .ok r') :
    ∀ x ∈ r', KeyOk vs E tab x.1 := by
  unfold reportLines at h
  cases h0 : (indexedOps E).keyPos tab key with
  | error e => rw [h0] at h; cases h
  | ok pos =>
    rw [h0] at h
    simp only [bind, Except.bind] at h
    cases h1 : siteUpdate (pos, key.2) (fun v => .ok (v.getD [])) r with
    | error e => rw [h1] at h; cases h
    | ok r1 =>
      rw [h1] at h
      have hr1 : ∀ x ∈ r1, KeyOk vs E tab x.1 := by
        intro x hx
        rcases siteUpdate_keys h1 x hx with ⟨y, hy, hxy⟩ | hxy
        · rw [← hxy]; exact hr y hy
        · rw [hxy]; exact hkey
      intro x hx
      rcases siteUpdate_keys h x hx with ⟨y, hy, hxy⟩ | hxy
      · rw [← hxy]; exact hr1 y hy
      · rw [hxy]; exact hkey

theorem reportFold_table {tab : List (V2 α)} {key : V2 α × Nat} (hkey : KeyOk vs E tab key) : ∀ (ls : List (List Nat))
    {r r' : SiteMap α Nat (List Nat)}, (∀ x ∈ r, KeyOk vs E tab x.1) →
    ls.foldlM (reportLines (indexedOps E) tab key) r = .ok r' → ∀ x ∈ r', KeyOk vs E tab x.1 := by
  intro ls
  induction ls with
  | nil => intro r r' hr h; cases h; exact hr
  | cons a ls ih =>
    intro r r' hr h
    rw [List.foldlM_cons] at h
    cases h1 : reportLines (indexedOps E) tab key r a with
    | error e => rw [h1] at h; cases h
    | ok t =>
      rw [h1] at h
      exact ih (reportLines_table hkey hr h1) h

theorem handleEvent_table (hE : ∀ e ∈ E, e.1 < vs.length ∧ e.2 < vs.length) {order : List Nat → List Nat} {ign : Bool}
    {key : V2 α × Nat} {e : SiteEvent} {s s' : SweepState α Nat (List (V2 α))} (ht : TabOk vs E s.tab)
    (hkey : KeyOk vs E s.tab key) (hev : ∀ x ∈ s.events, KeyOk vs E s.tab x.1) (hr : ∀ x ∈ s.result, KeyOk vs E s.tab x.1)
    (h : handleEvent (indexedOps E) order ign key e s = .ok s') :
    TabOk vs E s'.tab ∧ (∀ x ∈ s'.events, KeyOk vs E s'.tab x.1) ∧ ∀ x ∈ s'.result, KeyOk vs E s'.tab x.1 := by
  unfold handleEvent at h
  cases h1 : reportEvent (indexedOps E) ign s.tab key e s.result with
  | error e => rw [h1] at h; cases h
  | ok r =>
    rw [h1] at h
    simp only [bind, Except.bind] at h
    have hr1 : ∀ x ∈ r, KeyOk vs E s.tab x.1 := by
      unfold reportEvent at h1
      by_cases hc : (if ign = true then decide (e.inter.length > 0)
          else decide (e.drop.length + e.add.length + e.inter.length > 1)) = true
      · rw [if_pos hc] at h1
        exact reportFold_table hkey _ hr h1
      · rw [if_neg hc] at h1
        cases h1; exact hr
    cases h2 : (order (s.active.filter (fun i => !e.drop.contains i))).foldlM
        (neighbourStep (indexedOps E) s.tab key.1 e) MinMax.new with
    | error e => rw [h2] at h; cases h
    | ok m =>
      rw [h2] at h
      simp only at h
      cases h3 : newEvents (indexedOps E) key.1 e m (s.tab, s.events) with
      | error e => rw [h3] at h; cases h
      | ok t =>
        rw [h3] at h
        cases h
        obtain ⟨g1, g2, g3⟩ := newEvents_table hE (s := (s.tab, s.events)) ht hev h3
        exact ⟨g1, g2, fun x hx => (hr1 x hx).mono g3⟩

theorem sweepLoop_table (hE : ∀ e ∈ E, e.1 < vs.length ∧ e.2 < vs.length) {order : Nat → List Nat → List Nat} {ign stop : Bool} :
    ∀ (fuel : Nat) {s s' : SweepState α Nat (List (V2 α))}, TabOk vs E s.tab → (∀ x ∈ s.events, KeyOk vs E s.tab x.1) →
    (∀ x ∈ s.result, KeyOk vs E s.tab x.1) → sweepLoop (indexedOps E) order ign stop fuel s = .ok s' →
    TabOk vs E s'.tab ∧ ∀ x ∈ s'.result, KeyOk vs E s'.tab x.1 := by
  intro fuel
  induction fuel with
  | zero => intro s s' _ _ _ h; cases h
  | succ fuel ih =>
    intro s s' ht hev hr h
    unfold sweepLoop at h
    cases hs : s.events with
    | nil => rw [hs] at h; cases h; exact ⟨ht, hr⟩
    | cons x rest =>
      obtain ⟨key, e0⟩ := x
      rw [hs] at h
      simp only at h
      have hkey : KeyOk vs E s.tab key := hev (key, e0) (hs ▸ List.mem_cons_self)
      cases hp : popFirst key ((key, e0) :: rest) with
      | error e => rw [hp] at h; cases h
      | ok pr =>
        rw [hp] at h
        simp only [bind, Except.bind] at h
        cases hh : handleEvent (indexedOps E) (order fuel) ign key pr.1 { s with events := pr.2 } with
        | error e => rw [hh] at h; cases h
        | ok t =>
          rw [hh] at h
          simp only at h
          obtain ⟨g1, g2, g3⟩ := handleEvent_table hE (s := { s with events := pr.2 }) ht hkey
            (fun x hx => hev x (by rw [hs]; exact popFirst_keys hp x hx)) hr hh
          by_cases hc : (!t.result.isEmpty && stop) = true
          · rw [if_pos hc] at h
            cases h; exact ⟨g1, g3⟩
          · rw [if_neg hc] at h
            exact ih g1 g2 g3 h

theorem withEdges_table {vs : List (V2 α)} : ∀ (input : List ((Nat × Nat) × Nat)) {d d' : IndexedSweepData α}, d.vertices = vs →
    (∀ e ∈ d.lines, e.1 < vs.length ∧ e.2 < vs.length) → (∀ x ∈ d.events, KeyOk vs d.lines vs x.1) →
    input.foldlM withEdgesStep d = .ok d' →
    d'.vertices = vs ∧ d'.lines = d.lines ++ input.map (·.1) ∧ d'.ignoreEnds = d.ignoreEnds ∧ d'.stopAtFirst = d.stopAtFirst ∧
    (∀ e ∈ d'.lines, e.1 < vs.length ∧ e.2 < vs.length) ∧ ∀ x ∈ d'.events, KeyOk vs d'.lines vs x.1 := by
  intro input
  induction input with
  | nil => intro d d' hv hl hk h; cases h; exact ⟨hv, by simp, rfl, rfl, hl, hk⟩
  | cons a input ih =>
    intro d d' hv hl hk h
    rw [List.foldlM_cons] at h
    cases h1 : withEdgesStep d a with
    | error e => rw [h1] at h; cases h
    | ok t =>
      rw [h1] at h
      unfold withEdgesStep at h1
      unfold idx at h1
      rw [hv] at h1
      cases ha : vs[a.1.1]? with
      | none => rw [ha] at h1; cases h1
      | some p =>
        cases hb : vs[a.1.2]? with
        | none => rw [ha, hb] at h1; cases h1
        | some q =>
          rw [ha, hb] at h1
          simp only [bind, Except.bind] at h1
          by_cases hf : (!finiteEnds p q) = true
          · rw [if_pos hf] at h1; cases h1
          rw [if_neg hf] at h1
          have hlt1 := (List.getElem?_eq_some_iff.1 ha).1
          have hlt2 := (List.getElem?_eq_some_iff.1 hb).1
          obtain ⟨se, hse⟩ : ∃ se, (if (!(siteCmp p q == some .lt)) = true then ((q, a.1.2), (p, a.1.1))
            else ((p, a.1.1), (q, a.1.2))) = se := ⟨_, rfl⟩
          rw [hse] at h1
          have hse2 : (se.1.2 = a.1.1 ∨ se.1.2 = a.1.2) ∧ (se.2.2 = a.1.1 ∨ se.2.2 = a.1.2) := by
            rw [← hse]; split <;> simp
          cases hadd : addEndPoints a.2 se.1 se.2 d.events with
          | error e => simp only [hadd] at h1; cases h1
          | ok ev =>
            simp only [hadd] at h1
            cases h1
            have hkey : ∀ k : V2 α × Nat, (k.2 = a.1.1 ∨ k.2 = a.1.2) → KeyOk vs (d.lines ++ [a.1]) vs k := by
              intro k hk
              refine ⟨?_, Or.inr ⟨a.1, by simp, hk⟩⟩
              rcases hk with hk | hk <;> rw [hk] <;> assumption
            have hold : ∀ k, KeyOk vs d.lines vs k → KeyOk vs (d.lines ++ [a.1]) vs k := by
              rintro k ⟨h1, h2⟩
              exact ⟨h1, h2.imp_right (fun ⟨e, he, h⟩ => ⟨e, List.mem_append_left _ he, h⟩)⟩
            unfold addEndPoints at hadd
            cases h2 : siteUpdate se.1 (fun v => let e := v.getD .empty; .ok { e with add := e.add ++ [a.2] }) d.events with
            | error e => simp only [h2] at hadd; cases hadd
            | ok ev1 =>
              simp only [h2, bind, Except.bind] at hadd
              obtain ⟨f1, f2, f3, f4, f5, f6⟩ := ih (d := ⟨d.stopAtFirst, d.ignoreEnds, ev, d.lines ++ [a.1], vs⟩) rfl (by
                intro e he
                rcases List.mem_append.1 he with he | he
                · exact hl e he
                · rw [List.mem_singleton] at he; subst he; exact ⟨hlt1, hlt2⟩) (by
                intro x hx
                rcases siteUpdate_keys hadd x hx with ⟨y, hy, hxy⟩ | hxy
                · rw [← hxy]
                  rcases siteUpdate_keys h2 y hy with ⟨z, hz, hyz⟩ | hyz
                  · rw [← hyz]; exact hold _ (hk z hz)
                  · rw [hyz]; exact hkey _ hse2.1
                · rw [hxy]; exact hkey _ hse2.2) h
              exact ⟨f1, by rw [f2]; simp, f3, f4, f5, f6⟩

/-- what the result of the indexed version says about the vertex table, in any arithmetic -/
theorem indexed_table {order : Nat → List Nat → List Nat} {fuel : Nat} {ign stop : Bool} {vs : List (V2 α)} {edges : List (Nat × Nat)}
    {tab : List (V2 α)} {r : List (Nat × List Nat)} (h : indexedSweepIntersections order fuel ign stop vs edges = .ok (tab, r)) :
    TabOk vs edges tab ∧ ∀ x ∈ r, x.1 < tab.length ∧ (vs.length ≤ x.1 ∨ ∃ e ∈ edges, x.1 = e.1 ∨ x.1 = e.2) := by
  unfold indexedSweepIntersections at h
  cases h1 : withEdges { IndexedSweepData.new vs with ignoreEnds := ign, stopAtFirst := stop } edges with
  | error e => rw [h1] at h; cases h
  | ok d =>
    rw [h1] at h
    simp only [bind, Except.bind] at h
    obtain ⟨g1, g2, g3, g4, g5, g6⟩ := withEdges_table _ (d := { IndexedSweepData.new vs with ignoreEnds := ign, stopAtFirst := stop })
      rfl (by intro e he; cases he) (by intro x hx; cases hx) h1
    have hl : d.lines = edges := by
      rw [g2]
      show [] ++ edges.zipIdx.map (·.1) = edges
      rw [List.nil_append, List.zipIdx_map_fst]
    rw [hl] at g5 g6
    unfold indexedSweepCompute at h
    rw [hl, g1] at h
    change (Except.bind (sweepLoop (indexedOps edges) order d.ignoreEnds d.stopAtFirst fuel ⟨vs, d.events, [], []⟩) _) = _ at h
    cases h2 : sweepLoop (indexedOps edges) order d.ignoreEnds d.stopAtFirst fuel ⟨vs, d.events, [], []⟩ with
    | error e => rw [h2] at h; cases h
    | ok s =>
      rw [h2] at h
      simp only [bind, Except.bind] at h
      cases h
      obtain ⟨f1, f2⟩ := sweepLoop_table (vs := vs) g5 fuel (s := ⟨vs, d.events, [], []⟩) ⟨[], by simp, by simp⟩ g6 (by simp) h2
      refine ⟨f1, fun x hx => ?_⟩
      obtain ⟨y, hy, rfl⟩ := List.mem_map.1 hx
      exact f2 y hy

end

open Verif.Sweep Verif.Proofs.Intersect
section
variable {K : Type} [Scalar K] [Field K] [LinearOrder K] [ExactScalar K] [ExactSqrt K]
variable {vs : List (V2 K)} {E : List (Nat × Nat)} {z : V2 K}

theorem line_edge (hE : ∀ e ∈ E, EdgeOk vs e) {tab : List (V2 K)} (ht : vs <+: tab) {i : Nat} {l : Line2 K}
    (h : (indexedOps E).line tab i = .ok l) : (E.map (edgeLine vs z))[i]? = some l := by
  have hlt : i < (E.map (edgeLine vs z)).length := by
    rw [List.length_map]
    unfold indexedOps at h
    simp only [idx] at h
    cases he : E[i]? with
    | none => rw [he] at h; cases h
    | some e => exact (List.getElem?_eq_some_iff.1 he).1
  have hg := List.getElem?_eq_getElem hlt
  have := (indexedOps_ok vs z E hE).line tab ht i _ hg
  rw [h] at this
  rw [hg, Except.ok.inj this]

/-- a vertex is added for every intersection that is found -/
theorem findNewStep_cand [TreeShape K] (hE : ∀ e ∈ E, EdgeOk vs e) {sweep : V2 K} {s s' : List (V2 K) × SiteMap K Nat SiteEvent} {ij : Nat × Nat}
    (ht : vs <+: s.1) (h : findNewStep (indexedOps E) sweep s ij = .ok s') :
    s'.1 = s.1 ∨ ∃ p l m, s'.1 = s.1 ++ [p] ∧ (E.map (edgeLine vs z))[ij.1]? = some l ∧ (E.map (edgeLine vs z))[ij.2]? = some m ∧
      Cand sweep l m p := by
  unfold findNewStep at h
  cases h1 : (indexedOps E).line s.1 ij.1 with
  | error e => rw [h1] at h; cases h
  | ok l =>
    cases h2 : (indexedOps E).line s.1 ij.2 with
    | error e => rw [h1, h2] at h; cases h
    | ok m =>
      rw [h1, h2] at h
      simp only [bind, Except.bind] at h
      by_cases hc : l.end.ulpsEq m.end = true
      · rw [if_pos hc] at h; exact Or.inl (by rw [← Except.ok.inj h])
      rw [if_neg hc] at h
      cases hi : l.intersectionPoint m with
      | none => rw [hi] at h; exact Or.inl (by rw [← Except.ok.inj h])
      | some it =>
        rw [hi] at h
        simp only at h
        by_cases hf : (!Scalar.isFinite it.single.x || !Scalar.isFinite it.single.y) = true
        · rw [if_pos hf] at h; cases h
        rw [if_neg hf] at h
        by_cases hg : (Scalar.ge it.single.y sweep.y && !(Scalar.beq it.single.y sweep.y && Scalar.lt it.single.x sweep.x) &&
            !it.single.ulpsEq sweep) = true
        · rw [if_pos hg] at h
          obtain ⟨p, hp⟩ : ∃ p, it.single = p := ⟨_, rfl⟩
          rw [hp] at h hf hg
          right
          refine ⟨p, l, m, ?_, line_edge hE ht h1, line_edge hE ht h2, fun e => hc ((ulps_v2 _ _).2 e), it, hi, hp, ?_⟩
          · cases hu : siteUpdate (p, s.1.length) (addIntersection (indexedOps E) (s.1 ++ [p]) p [ij.1, ij.2]) s.2 with
            | error e =>
              simp only [indexedOps] at h hu
              rw [hu] at h; cases h
            | ok ev =>
              simp only [indexedOps] at h hu
              rw [hu] at h
              rw [← Except.ok.inj h]
          · have e1 : (!p.ulpsEq sweep) = true ↔ p ≠ sweep := by
              rw [Bool.not_eq_true', ← Bool.not_eq_true, ulps_v2]
            have e2 : (!(Scalar.beq p.y sweep.y && Scalar.lt p.x sweep.x)) = true ↔ ¬ (p.y = sweep.y ∧ p.x < sweep.x) := by
              rw [Bool.not_eq_true', ← Bool.not_eq_true, Bool.and_eq_true, beq_decide, lt_decide, decide_eq_true_eq,
                decide_eq_true_eq]
            rw [Bool.and_eq_true, Bool.and_eq_true, e1, e2, ge_decide, decide_eq_true_eq] at hg
            obtain ⟨⟨h1, h2⟩, h3⟩ := hg
            rcases lt_or_eq_of_le h1 with h1 | h1
            · exact Or.inl h1
            · refine Or.inr ⟨h1, lt_of_le_of_ne (not_lt.1 fun h4 => h2 ⟨h1.symm, h4⟩) fun h4 => h3 (v2_ext h4.symm h1.symm)⟩
        · rw [if_neg hg] at h; exact Or.inl (by rw [← Except.ok.inj h])

theorem findNewFold_cand [TreeShape K] (hE : ∀ e ∈ E, EdgeOk vs e) {sweep : V2 K} : ∀ (P : List (Nat × Nat))
    {s s' : List (V2 K) × SiteMap K Nat SiteEvent}, vs <+: s.1 → P.foldlM (findNewStep (indexedOps E) sweep) s = .ok s' →
    ∃ new, s'.1 = s.1 ++ new ∧ ∀ p ∈ new, ∃ ij ∈ P, ∃ l m, (E.map (edgeLine vs z))[ij.1]? = some l ∧
      (E.map (edgeLine vs z))[ij.2]? = some m ∧ Cand sweep l m p := by
  intro P
  induction P with
  | nil => intro s s' _ h; cases h; exact ⟨[], by simp, by simp⟩
  | cons a P ih =>
    intro s s' ht h
    rw [List.foldlM_cons] at h
    cases h1 : findNewStep (indexedOps E) sweep s a with
    | error e => rw [h1] at h; cases h
    | ok t =>
      rw [h1] at h
      rcases findNewStep_cand (z := z) hE ht h1 with h2 | ⟨p, l, m, h2, h3, h4, h5⟩
      · obtain ⟨new, g1, g2⟩ := ih (by rw [h2]; exact ht) h
        exact ⟨new, by rw [g1, h2], fun p hp => by
          obtain ⟨ij, hij, g⟩ := g2 p hp
          exact ⟨ij, List.mem_cons_of_mem _ hij, g⟩⟩
      · obtain ⟨new, g1, g2⟩ := ih (by rw [h2]; exact ht.trans (List.prefix_append _ _)) h
        refine ⟨p :: new, by rw [g1, h2]; simp, fun q hq => ?_⟩
        rcases List.mem_cons.1 hq with rfl | hq
        · exact ⟨a, List.mem_cons_self, l, m, h3, h4, h5⟩
        · obtain ⟨ij, hij, g⟩ := g2 q hq
          exact ⟨ij, List.mem_cons_of_mem _ hij, g⟩

/-- the line is at the event: it ends there, or the event knows that it passes through -/
def AtEvent (L : List (Line2 K)) (p : V2 K) (e : SiteEvent) (i : Nat) : Prop :=
  ∃ l, L[i]? = some l ∧ OnSegment2 l.start l.end p ∧ (p = l.start ∨ p = l.end ∨ i ∈ e.inter)

/-- the vertex table during the sweep -/
structure TabInv (vs : List (V2 K)) (L : List (Line2 K)) (H : SiteMap K Nat SiteEvent) (s : SweepState K Nat (List (V2 K))) : Prop where
  /-- events at end points have the index of an old vertex -/
  old : ∀ x, x ∈ s.events ∨ x ∈ H → (∃ l ∈ L, x.1.1 = lo l ∨ x.1.1 = hi l) → x.1.2 < vs.length
  new : ∃ new, s.tab = vs ++ new ∧ ∀ p ∈ new, ∃ x, (x ∈ s.events ∨ x ∈ H) ∧ x.1.1 = p ∧
    ∃ i j, i ≠ j ∧ AtEvent L p x.2 i ∧ AtEvent L p x.2 j

theorem TabInv.step [TreeShape K] (hE : ∀ e ∈ E, EdgeOk vs e) {Q : List (V2 K)} {ign : Bool} {After : V2 K → Prop} {H : SiteMap K Nat SiteEvent}
    {s s' : SweepState K Nat (List (V2 K))} {key : V2 K × Nat} {e : SiteEvent} {rest : SiteMap K Nat SiteEvent}
    {order : List Nat → List Nat} 
    (h : Inv (E.map (edgeLine vs z)) (fun tab => vs <+: tab) IsVertex Q ign After H s) (hg : TabInv vs (E.map (edgeLine vs z)) H s)
    (hev : s.events = (key, e) :: rest)
    (h' : Inv (E.map (edgeLine vs z)) (fun tab => vs <+: tab) IsVertex Q ign (SweepBefore key.1) ((key, e) :: H) s')
    (hf : StepFacts (indexedOps E) (E.map (edgeLine vs z)) order key e rest s s') :
    TabInv vs (E.map (edgeLine vs z)) ((key, e) :: H) s' := by
  have hk : (key, e) ∈ s.events := hev ▸ List.mem_cons_self
  have hafter : After key.1 := h.einv.after _ hk
  have hgrow : ∀ x ∈ rest, ∃ x' ∈ s'.events, x'.1 = x.1 ∧ ∀ k ∈ x.2.inter, k ∈ x'.2.inter := hf.grow
  constructor
  · rintro x (hx | hx) hend
    · have hb : SweepBefore key.1 x.1.1 := h'.einv.after x hx
      obtain ⟨l, hl, hend⟩ := hend
      obtain ⟨i, hi⟩ := List.getElem?_of_mem hl
      obtain ⟨y, hy, hyx⟩ := h.einv.ends i l hi x.1.1 hend (h.up _ _ hafter hb)
      simp only [hev] at hy
      rcases List.mem_cons.1 hy with rfl | hy
      · rw [← hyx] at hb; exact absurd hb (before_irrefl _)
      · obtain ⟨y', hy', hk', -⟩ := hgrow y hy
        have : y' = x := h'.einv.sorted.key_inj hy' hx (by rw [hk', hyx])
        rw [← this, hk']
        exact hg.old y (Or.inl (hev ▸ List.mem_cons_of_mem _ hy)) ⟨l, hl, hyx ▸ hend⟩
    · rcases List.mem_cons.1 hx with rfl | hx
      · exact hg.old _ (Or.inl hk) hend
      · exact hg.old _ (Or.inr hx) hend
  · obtain ⟨new, h1, h2⟩ := hg.new
    obtain ⟨new', h3, h4⟩ := findNewFold_cand (z := z) hE _ (s := (s.tab, rest)) h.einv.tab hf.run
    simp only at h3
    refine ⟨new ++ new', by rw [h3, h1, List.append_assoc], ?_⟩
    intro p hp
    rcases List.mem_append.1 hp with hp | hp
    · obtain ⟨x, hx, hxp, i, j, hij, hi, hj⟩ := h2 p hp
      rcases hx with hx | hx
      · rw [hev] at hx
        rcases List.mem_cons.1 hx with rfl | hx
        · exact ⟨_, Or.inr List.mem_cons_self, hxp, i, j, hij, hi, hj⟩
        · obtain ⟨x', hx', hk', hi'⟩ := hgrow x hx
          have up : ∀ k, AtEvent (E.map (edgeLine vs z)) p x.2 k → AtEvent (E.map (edgeLine vs z)) p x'.2 k := by
            rintro k ⟨l, a, b, c⟩
            exact ⟨l, a, b, c.imp_right (fun c => c.imp_right (hi' k))⟩
          exact ⟨x', Or.inl hx', by rw [hk', hxp], i, j, hij, up _ hi, up _ hj⟩
      · exact ⟨x, Or.inr (List.mem_cons_of_mem _ hx), hxp, i, j, hij, hi, hj⟩
    · obtain ⟨⟨i, j⟩, hij, l, m, hl, hm, hc⟩ := h4 p hp
      obtain ⟨x, hx, hxp⟩ := hf.exact.here i j l m p hij hl hm hc
      obtain ⟨-, -, hne⟩ := hf.pairs (i, j) hij
      obtain ⟨g1, g2⟩ := hf.found i j hij l m hl hm p hc
      have hat : ∀ k, Queued s'.events p k → k ∈ x.2.inter := by
        rintro k ⟨y, hy, hyp, hk⟩
        rw [← h'.einv.sorted.key_inj hy hx (by rw [hyp, hxp])]
        exact hk
      obtain ⟨-, it, hit, hitp, -⟩ := hc
      have hs := sound_of (E.map (edgeLine vs z)) l (List.mem_of_getElem? hl) m (List.mem_of_getElem? hm) it hit
      rw [hitp] at hs
      refine ⟨x, Or.inl hx, hxp, i, j, hne, ⟨l, hl, hs.1, ?_⟩, ⟨m, hm, hs.2, ?_⟩⟩
      · by_cases a : p = l.start
        · exact Or.inl a
        by_cases b : p = l.end
        · exact Or.inr (Or.inl b)
        exact Or.inr (Or.inr (hat _ (g1 a b)))
      · by_cases a : p = m.start
        · exact Or.inl a
        by_cases b : p = m.end
        · exact Or.inr (Or.inl b)
        exact Or.inr (Or.inr (hat _ (g2 a b)))

/-- what the exact run says about the vertex table -/
theorem indexed_vertices [TreeShape K] (order : Nat → List Nat → List Nat) (hord : ∀ n l, (order n l).Perm l) (ign stop : Bool)
    (vs : List (V2 K)) (z : V2 K) (edges : List (Nat × Nat)) (hE : ∀ e ∈ edges, EdgeOk vs e) (fuel : Nat)
    (hf : 2 * edges.length + edges.length * edges.length < fuel) :
    ∃ new r H, indexedSweepIntersections order fuel ign stop vs edges = .ok (vs ++ new, r.map (fun r => (r.1.2, r.2))) ∧
      (∀ x ∈ r, (vs ++ new)[x.1.2]? = some x.1.1) ∧ Final (ι := Nat) (edges.map (edgeLine vs z)) ign stop H r ∧
      (∀ x ∈ r, (∃ l ∈ edges.map (edgeLine vs z), x.1.1 = lo l ∨ x.1.1 = hi l) → x.1.2 < vs.length) ∧
      (∀ p ∈ new, ∃ i j : Nat, i ≠ j ∧ (∃ l : Line2 K, (edges.map (edgeLine vs z))[i]? = some l ∧ OnSegment2 l.start l.end p) ∧
        ∃ m : Line2 K, (edges.map (edgeLine vs z))[j]? = some m ∧ OnSegment2 m.start m.end p) ∧
      (stop = false → ∀ p ∈ new, ∃ x ∈ H, x.1.1 = p ∧ ∃ i j, i ≠ j ∧ AtEvent (edges.map (edgeLine vs z)) p x.2 i ∧
        AtEvent (edges.map (edgeLine vs z)) p x.2 j) := by
  obtain ⟨d, h1, h2, h3, h4, h5, h6⟩ := withEdges_ok vs z ign stop edges hE
  have he := EvMap.einv (σ := List (V2 K)) (T := fun tab => vs <+: tab) (Valid := IsVertex) (tab := vs) (List.prefix_refl _) h6
  have hinv := Inv.init ign he
  have hlen := sites_length (edges.map (edgeLine vs z))
  rw [List.length_map] at hlen
  obtain ⟨s, A, H, g1, g2, g3, g4, g5⟩ := sweepLoop_ok (indexedOps_ok vs z edges hE) (sound_of _)
    (fun sweep => sites_cand _ sweep) (stop := stop) hord (fun _ H s => TabInv vs (edges.map (edgeLine vs z)) H s)
    (fun After H s key e rest s' n a b c d f => TabInv.step hE a b c d f) fuel _ _ _ hinv
    ⟨(fun x hx _ => hx.elim (fun hx => (List.getElem?_eq_some_iff.1 (he.valid x hx)).1) (fun hx => nomatch hx)),
      ⟨[], by simp, by simp⟩⟩
    (fun _ => rfl) (by simp only [List.length_nil]; omega)
  obtain ⟨new, k1, k2⟩ := g3.new
  refine ⟨new, s.result, H, ?_, ?_, final_of g2 g4 g5, ?_, ?_, ?_⟩
  · unfold indexedSweepIntersections indexedSweepCompute
    rw [h1]
    simp only [bind, Except.bind, h2, h3, h4, h5, g1, k1]
  · intro x hx
    obtain ⟨h, hh, -, rfl⟩ := (g2.res x).1 hx
    rw [← k1]
    exact (g2.hist h hh).2.1
  · intro x hx hend
    obtain ⟨h, hh, -, rfl⟩ := (g2.res x).1 hx
    exact g3.old h (Or.inr hh) hend
  · intro p hp
    obtain ⟨x, -, -, i, j, hij, ⟨l, hl, hl', -⟩, ⟨m, hm, hm', -⟩⟩ := k2 p hp
    exact ⟨i, j, hij, ⟨l, hl, hl'⟩, ⟨m, hm, hm'⟩⟩
  · intro hst p hp
    obtain ⟨x, hx, hxp, g⟩ := k2 p hp
    rcases hx with hx | hx
    · rcases g4 with g4 | ⟨g4, -⟩
      · rw [g4] at hx; cases hx
      · rw [hst] at g4; cases g4
    · exact ⟨x, hx, hxp, g⟩
end
end Verif.SweepTable
