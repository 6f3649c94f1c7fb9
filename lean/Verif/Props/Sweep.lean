import Verif.Proofs.SweepCore
import Verif.Spec.Instances
import Verif.Props.Intersect
/-!
# C45 – C49, C56 – C58: the sweep line algorithm

`order` is the iteration order of the hash set of active lines (any permutation, chosen anew in every round),
`fuel` bounds the number of rounds: every bound above `2 n + n²` is enough.
-/
set_option linter.unusedSectionVars false
set_option linter.unusedVariables false
set_option linter.unusedSimpArgs false
namespace Verif.Props
open Verif Verif.Spec Verif.Model Verif.Sweep Verif.Proofs.Intersect

/-! ## C45 -/
section
variable {α : Type} [Scalar α] {ι V : Type}

/-- the coordinates are finite numbers -/
def FiniteV2 (p : V2 α) : Prop := Scalar.isFinite p.x = true ∧ Scalar.isFinite p.y = true

theorem finiteEnds_iff (a b : V2 α) : finiteEnds a b = true ↔ FiniteV2 a ∧ FiniteV2 b := by
  unfold finiteEnds FiniteV2
  simp only [Bool.and_eq_true]
  tauto

/-- finite numbers can be compared -/
def FiniteComparable (α : Type) [Scalar α] : Prop :=
  ∀ a b : α, Scalar.isFinite a = true → Scalar.isFinite b = true → Scalar.pcmp a b ≠ none

theorem siteCmp_some (hc : FiniteComparable α) {a b : V2 α} (ha : FiniteV2 a) (hb : FiniteV2 b) :
    siteCmp a b ≠ none := by
  unfold siteCmp
  split
  · split
    · simp
    · exact hc _ _ ha.1 hb.1
  · exact hc _ _ ha.2 hb.2

theorem siteUpdate_total [TreeShape α] (hc : FiniteComparable α) (k : V2 α × ι) (hk : FiniteV2 k.1) (f : Option V → V) :
    ∀ (m : SiteMap α ι V), (∀ e ∈ m, FiniteV2 e.1.1) →
    ∃ m', siteUpdate k (fun v => .ok (f v)) m = .ok m' ∧ (∀ e ∈ m', FiniteV2 e.1.1) ∧
      (∃ e ∈ m', (e.1 = k ∨ siteCmp k.1 e.1.1 = some .eq) ∧ ∃ v, e.2 = f v) ∧
      (∀ e ∈ m, ∃ e' ∈ m', e'.1 = e.1 ∧ (e'.2 = e.2 ∨ e'.2 = f (some e.2))) := by
  intro m hm
  rcases siteUpdate_split k m (fun e he => siteCmp_some hc hk (hm e he)) with
    ⟨pre, a, post, rfl, hcmp, -, hu⟩ | ⟨pre, post, rfl, -, -, -, hu⟩
  · rw [hu]
    refine ⟨_, rfl, ?_, ⟨(a.1, f (some a.2)), by simp, Or.inr hcmp, some a.2, rfl⟩, ?_⟩
    · intro e he
      rcases List.mem_append.1 he with he | he
      · exact hm e (List.mem_append_left _ he)
      · rcases List.mem_cons.1 he with rfl | he
        · exact hm a (by simp)
        · exact hm e (by simp [he])
    · intro e he
      rcases List.mem_append.1 he with he | he
      · exact ⟨e, List.mem_append_left _ he, rfl, Or.inl rfl⟩
      · rcases List.mem_cons.1 he with rfl | he
        · exact ⟨(e.1, f (some e.2)), by simp, rfl, Or.inr rfl⟩
        · exact ⟨e, by simp [he], rfl, Or.inl rfl⟩
  · rw [hu]
    refine ⟨_, rfl, ?_, ⟨(k, f none), by simp, Or.inl rfl, none, rfl⟩, ?_⟩
    · intro e he
      rcases List.mem_append.1 he with he | he
      · exact hm e (List.mem_append_left _ he)
      · rcases List.mem_cons.1 he with rfl | he
        · exact hk
        · exact hm e (List.mem_append_right _ he)
    · intro e he
      refine ⟨e, ?_, rfl, Or.inl rfl⟩
      rcases List.mem_append.1 he with he | he
      · exact List.mem_append_left _ he
      · exact List.mem_append_right _ (List.mem_cons_of_mem _ he)

/-- the event queue has line `i` with the lower end point `a` and the upper end point `b` -/
def Recorded (m : SiteMap α ι SiteEvent) (i : Nat) (a b : V2 α) : Prop :=
  (∃ e ∈ m, i ∈ e.2.add ∧ (e.1.1 = a ∨ siteCmp a e.1.1 = some .eq)) ∧
  (∃ e ∈ m, i ∈ e.2.drop ∧ (e.1.1 = b ∨ siteCmp b e.1.1 = some .eq))

theorem addEndPoints_total [TreeShape α] (hc : FiniteComparable α) (i : Nat) (a b : V2 α × ι) (ha : FiniteV2 a.1) (hb : FiniteV2 b.1)
    (m : SiteMap α ι SiteEvent) (hm : ∀ e ∈ m, FiniteV2 e.1.1) :
    ∃ m', addEndPoints i a b m = .ok m' ∧ (∀ e ∈ m', FiniteV2 e.1.1) ∧ Recorded m' i a.1 b.1 ∧
      ∀ j c d, Recorded m j c d → Recorded m' j c d := by
  obtain ⟨m1, h1, h2, ⟨e1, he1, hk1, v1, hv1⟩, h4⟩ := siteUpdate_total hc a ha
    (fun v => let e := v.getD .empty; ({ e with add := e.add ++ [i] } : SiteEvent)) m hm
  obtain ⟨m2, g1, g2, ⟨e2, he2, hk2, v2, hv2⟩, g4⟩ := siteUpdate_total hc b hb
    (fun v => let e := v.getD .empty; ({ e with drop := e.drop ++ [i] } : SiteEvent)) m1 h2
  have k1 : ∀ e ∈ m, ∃ e' ∈ m1, e'.1 = e.1 ∧ e.2.add ⊆ e'.2.add ∧ e.2.drop ⊆ e'.2.drop := by
    intro e he
    obtain ⟨e', he', hk, hv | hv⟩ := h4 e he
    · exact ⟨e', he', hk, by rw [hv]; simp, by rw [hv]; simp⟩
    · exact ⟨e', he', hk, by rw [hv]; simp, by rw [hv]; simp⟩
  have k2 : ∀ e ∈ m1, ∃ e' ∈ m2, e'.1 = e.1 ∧ e.2.add ⊆ e'.2.add ∧ e.2.drop ⊆ e'.2.drop := by
    intro e he
    obtain ⟨e', he', hk, hv | hv⟩ := g4 e he
    · exact ⟨e', he', hk, by rw [hv]; simp, by rw [hv]; simp⟩
    · exact ⟨e', he', hk, by rw [hv]; simp, by rw [hv]; simp⟩
  refine ⟨m2, by unfold addEndPoints; rw [h1]; exact g1, g2, ⟨?_, ?_⟩, ?_⟩
  · obtain ⟨e', he', hk, hs, -⟩ := k2 e1 he1
    refine ⟨e', he', hs (by rw [hv1]; simp), ?_⟩
    rw [hk]
    rcases hk1 with hk1 | hk1
    · exact Or.inl (by rw [hk1])
    · exact Or.inr hk1
  · refine ⟨e2, he2, by rw [hv2]; simp, ?_⟩
    rcases hk2 with hk2 | hk2
    · exact Or.inl (by rw [hk2])
    · exact Or.inr hk2
  · rintro j c d ⟨⟨e, he, hi, hp⟩, ⟨e', he', hi', hp'⟩⟩
    constructor
    · obtain ⟨f, hf, hk, hs, -⟩ := k1 e he
      obtain ⟨f', hf', hk', hs', -⟩ := k2 f hf
      exact ⟨f', hf', hs' (hs hi), by rw [hk', hk]; exact hp⟩
    · obtain ⟨f, hf, hk, -, hs⟩ := k1 e' he'
      obtain ⟨f', hf', hk', -, hs'⟩ := k2 f hf
      exact ⟨f', hf', hs' (hs hi'), by rw [hk', hk]; exact hp'⟩

/-- the stored form of a line: the input or the input with the end points swapped -/
def IsStored (l m : Line2 α) : Prop := m = l ∨ m = ⟨l.end, l.start⟩

theorem withLinesFold_total [TreeShape α] (hc : FiniteComparable α) : ∀ (input : List (Line2 α)) (n : Nat) (d : SweepData α),
    (∀ e ∈ d.events, FiniteV2 e.1.1) → d.lines.length = n →
    ((∃ l ∈ input, ¬ (FiniteV2 l.start ∧ FiniteV2 l.end)) ∧ (input.zipIdx n).foldlM withLinesStep d = .error .invalid) ∨
    ((∀ l ∈ input, FiniteV2 l.start ∧ FiniteV2 l.end) ∧ ∃ d', (input.zipIdx n).foldlM withLinesStep d = .ok d' ∧
      d'.lines.length = n + input.length ∧ d.lines <+: d'.lines ∧
      (∀ i a b, Recorded d.events i a b → Recorded d'.events i a b) ∧
      ∀ i l, input[i]? = some l → ∃ m, d'.lines[n + i]? = some m ∧ IsStored l m ∧ Recorded d'.events (n + i) m.start m.end) := by
  intro input
  induction input with
  | nil =>
    intro n d hd hn
    exact Or.inr ⟨by simp, d, rfl, by simpa using hn, List.prefix_refl _, fun _ _ _ h => h, by simp⟩
  | cons l input ih =>
    intro n d hd hn
    rw [List.zipIdx_cons, List.foldlM_cons]
    by_cases hl : finiteEnds l.start l.end = true
    · have hl' := (finiteEnds_iff _ _).1 hl
      obtain ⟨m, hm⟩ : ∃ m : Line2 α, (if !(siteCmp l.start l.end == some .lt) then (⟨l.end, l.start⟩ : Line2 α) else l) = m := ⟨_, rfl⟩
      have hst : IsStored l m := by
        rw [← hm]; split
        · exact Or.inr rfl
        · exact Or.inl rfl
      have hmf : FiniteV2 m.start ∧ FiniteV2 m.end := by
        rcases hst with rfl | rfl
        · exact hl'
        · exact ⟨hl'.2, hl'.1⟩
      obtain ⟨ev, h1, h2, h3, h4⟩ := addEndPoints_total hc n (m.start, ()) (m.end, ()) hmf.1 hmf.2 d.events hd
      have hstep : withLinesStep d (l, n) = .ok { d with events := ev, lines := d.lines ++ [m] } := by
        unfold withLinesStep
        simp only [hl, Bool.not_true, Bool.false_eq_true, if_false, hm, h1, bind, Except.bind]
      rw [hstep]
      rcases ih (n + 1) { d with events := ev, lines := d.lines ++ [m] } h2 (by simp [hn]) with ⟨⟨l', hl1, hl2⟩, he⟩ | ⟨hall, d', g1, g2, g3, g4, g5⟩
      · exact Or.inl ⟨⟨l', List.mem_cons_of_mem _ hl1, hl2⟩, he⟩
      · refine Or.inr ⟨?_, d', g1, ?_, (List.prefix_append _ _).trans g3, ?_, ?_⟩
        · intro l' h
          rcases List.mem_cons.1 h with rfl | h
          · exact hl'
          · exact hall l' h
        · rw [g2]; simp only [List.length_cons]; omega
        · intro i a b h; exact g4 i a b (h4 i a b h)
        · intro i l' hi
          cases i with
          | zero =>
            simp only [List.getElem?_cons_zero, Option.some_inj] at hi
            subst hi
            refine ⟨m, ?_, hst, g4 _ _ _ h3⟩
            obtain ⟨t, ht⟩ := g3
            simp only at ht
            rw [← ht, Nat.add_zero, List.getElem?_append_left (by simp [hn]), List.getElem?_append_right (by omega)]
            simp [hn]
          | succ i =>
            rw [List.getElem?_cons_succ] at hi
            obtain ⟨m', k1, k2, k3⟩ := g5 i l' hi
            have : n + (i + 1) = n + 1 + i := by omega
            rw [this]
            exact ⟨m', k1, k2, k3⟩
    · left
      refine ⟨⟨l, List.mem_cons_self, fun h => hl ((finiteEnds_iff _ _).2 h)⟩, ?_⟩
      have : withLinesStep d (l, n) = .error .invalid := by
        unfold withLinesStep
        simp only [Bool.not_eq_true] at hl
        simp only [hl, Bool.not_false, if_true]
      rw [this]
      rfl

/-- C45: `with_lines` fails iff some coordinate is not finite (for every number type in which finite numbers can
be compared) -/
theorem C45_error_iff_not_finite [TreeShape α] (hc : FiniteComparable α) (ign stop : Bool) (input : List (Line2 α)) :
    withLines { SweepData.default with ignoreEnds := ign, stopAtFirst := stop } input = .error .invalid ↔
      ∃ l ∈ input, ¬ (FiniteV2 l.start ∧ FiniteV2 l.end) := by
  rcases withLinesFold_total hc input 0 { SweepData.default with ignoreEnds := ign, stopAtFirst := stop }
    (by simp [SweepData.default]) rfl with ⟨h1, h2⟩ | ⟨h1, d, h2, -⟩
  · exact ⟨fun _ => h1, fun _ => h2⟩
  · constructor
    · intro h
      unfold withLines at h
      rw [h2] at h
      cases h
    · rintro ⟨l, hl, hn⟩
      exact absurd (h1 l hl) hn

/-- C45: otherwise every line is stored under its index, and its end points are events -/
theorem C45_accepts_and_records [TreeShape α] (hc : FiniteComparable α) (ign stop : Bool) (input : List (Line2 α))
    (hfin : ∀ l ∈ input, FiniteV2 l.start ∧ FiniteV2 l.end) :
    ∃ d, withLines { SweepData.default with ignoreEnds := ign, stopAtFirst := stop } input = .ok d ∧
      d.lines.length = input.length ∧
      ∀ i l, input[i]? = some l → ∃ m, d.lines[i]? = some m ∧ IsStored l m ∧ Recorded d.events i m.start m.end := by
  rcases withLinesFold_total hc input 0 { SweepData.default with ignoreEnds := ign, stopAtFirst := stop }
    (by simp [SweepData.default]) rfl with ⟨⟨l, hl, hn⟩, h2⟩ | ⟨h1, d, h2, h3, -, -, h6⟩
  · exact absurd (hfin l hl) hn
  · refine ⟨d, h2, by simpa using h3, ?_⟩
    intro i l hl
    have := h6 i l hl
    simpa using this

theorem withEdgesFold_total [TreeShape α] (hc : FiniteComparable α) (vs : List (V2 α)) : ∀ (input : List (Nat × Nat)) (n : Nat) (d : IndexedSweepData α),
    (∀ e ∈ input, e.1 < vs.length ∧ e.2 < vs.length) → d.vertices = vs →
    (∀ e ∈ d.events, FiniteV2 e.1.1) → d.lines.length = n →
    ((∃ e ∈ input, ∃ p, (vs[e.1]? = some p ∨ vs[e.2]? = some p) ∧ ¬ FiniteV2 p) ∧ (input.zipIdx n).foldlM withEdgesStep d = .error .invalid) ∨
    ((∀ e ∈ input, ∀ p, (vs[e.1]? = some p ∨ vs[e.2]? = some p) → FiniteV2 p) ∧ ∃ d', (input.zipIdx n).foldlM withEdgesStep d = .ok d' ∧
      d'.vertices = vs ∧ d'.lines = d.lines ++ input ∧
      (∀ i a b, Recorded d.events i a b → Recorded d'.events i a b) ∧
      ∀ i e, input[i]? = some e → ∃ a b, ((vs[e.1]? = some a ∧ vs[e.2]? = some b) ∨ (vs[e.1]? = some b ∧ vs[e.2]? = some a)) ∧
        Recorded d'.events (n + i) a b) := by
  intro input
  induction input with
  | nil =>
    intro n d _ hv hd hn
    exact Or.inr ⟨by simp, d, rfl, hv, by simp, fun _ _ _ h => h, by simp⟩
  | cons e input ih =>
    intro n d hin hv hd hn
    rw [List.zipIdx_cons, List.foldlM_cons]
    obtain ⟨hb1, hb2⟩ := hin e List.mem_cons_self
    obtain ⟨p, hp⟩ : ∃ p, vs[e.1]? = some p := ⟨_, List.getElem?_eq_getElem hb1⟩
    obtain ⟨q, hq⟩ : ∃ q, vs[e.2]? = some q := ⟨_, List.getElem?_eq_getElem hb2⟩
    by_cases hl : finiteEnds p q = true
    · have hl' := (finiteEnds_iff _ _).1 hl
      have hkeys : ∃ ka kb : V2 α × Nat, (if !(siteCmp p q == some .lt) then ((q, e.2), (p, e.1)) else ((p, e.1), (q, e.2))) = (ka, kb) ∧
          FiniteV2 ka.1 ∧ FiniteV2 kb.1 ∧ ((vs[e.1]? = some ka.1 ∧ vs[e.2]? = some kb.1) ∨ (vs[e.1]? = some kb.1 ∧ vs[e.2]? = some ka.1)) := by
        split
        · exact ⟨_, _, rfl, hl'.2, hl'.1, Or.inr ⟨hp, hq⟩⟩
        · exact ⟨_, _, rfl, hl'.1, hl'.2, Or.inl ⟨hp, hq⟩⟩
      obtain ⟨ka, kb, hk1, hk2, hk3, hk4⟩ := hkeys
      obtain ⟨ev, h1, h2, h3, h4⟩ := addEndPoints_total hc n ka kb hk2 hk3 d.events hd
      have hstep : withEdgesStep d (e, n) = .ok { d with events := ev, lines := d.lines ++ [e] } := by
        unfold withEdgesStep
        simp only [hv, idx, hp, hq, bind, Except.bind, hl, Bool.not_true, Bool.false_eq_true, if_false, hk1, h1]
      rw [hstep]
      rcases ih (n + 1) { d with events := ev, lines := d.lines ++ [e] } (fun e he => hin e (List.mem_cons_of_mem _ he)) hv h2 (by simp [hn]) with
        ⟨⟨e', hl1, hl2⟩, he⟩ | ⟨hall, d', g1, g2, g3, g4, g5⟩
      · exact Or.inl ⟨⟨e', List.mem_cons_of_mem _ hl1, hl2⟩, he⟩
      · refine Or.inr ⟨?_, d', g1, g2, by rw [g3]; simp, ?_, ?_⟩
        · intro e' h x hx
          rcases List.mem_cons.1 h with rfl | h
          · rcases hx with hx | hx
            · rw [hp] at hx; simp only [Option.some_inj] at hx; subst hx; exact hl'.1
            · rw [hq] at hx; simp only [Option.some_inj] at hx; subst hx; exact hl'.2
          · exact hall e' h x hx
        · intro i a b h; exact g4 i a b (h4 i a b h)
        · intro i e' hi
          cases i with
          | zero =>
            simp only [List.getElem?_cons_zero, Option.some_inj] at hi
            subst hi
            exact ⟨ka.1, kb.1, hk4, g4 _ _ _ h3⟩
          | succ i =>
            rw [List.getElem?_cons_succ] at hi
            have : n + (i + 1) = n + 1 + i := by omega
            rw [this]
            exact g5 i e' hi
    · left
      constructor
      · rw [finiteEnds_iff] at hl
        by_cases h : FiniteV2 p
        · exact ⟨e, List.mem_cons_self, q, Or.inr hq, fun h' => hl ⟨h, h'⟩⟩
        · exact ⟨e, List.mem_cons_self, p, Or.inl hp, h⟩
      · have : withEdgesStep d (e, n) = .error .invalid := by
          unfold withEdgesStep
          simp only [Bool.not_eq_true] at hl
          simp only [hv, idx, hp, hq, bind, Except.bind, hl, Bool.not_false, if_true]
        rw [this]
        rfl

/-- C45, indexed version: `with_edges` fails with `InvalidData` iff some end point of an edge has a coordinate that is
not finite (the indices must be valid, otherwise it panics); otherwise the edges are stored and their end points are events -/
theorem C45_indexed [TreeShape α] (hc : FiniteComparable α) (ign stop : Bool) (vs : List (V2 α)) (edges : List (Nat × Nat))
    (hin : ∀ e ∈ edges, e.1 < vs.length ∧ e.2 < vs.length) :
    (withEdges { IndexedSweepData.new vs with ignoreEnds := ign, stopAtFirst := stop } edges = .error .invalid ↔
      ∃ e ∈ edges, ∃ p, (vs[e.1]? = some p ∨ vs[e.2]? = some p) ∧ ¬ FiniteV2 p) ∧
    ((∀ e ∈ edges, ∀ p, (vs[e.1]? = some p ∨ vs[e.2]? = some p) → FiniteV2 p) →
      ∃ d, withEdges { IndexedSweepData.new vs with ignoreEnds := ign, stopAtFirst := stop } edges = .ok d ∧
        d.vertices = vs ∧ d.lines = edges ∧
        ∀ i e, edges[i]? = some e → ∃ a b, ((vs[e.1]? = some a ∧ vs[e.2]? = some b) ∨ (vs[e.1]? = some b ∧ vs[e.2]? = some a)) ∧
          Recorded d.events i a b) := by
  rcases withEdgesFold_total hc vs edges 0 { IndexedSweepData.new vs with ignoreEnds := ign, stopAtFirst := stop } hin rfl
    (by simp [IndexedSweepData.new]) rfl with ⟨h1, h2⟩ | ⟨h1, d, h2, h3, h4, -, h6⟩
  · refine ⟨⟨fun _ => h1, fun _ => h2⟩, fun h => ?_⟩
    obtain ⟨e, he, p, hp, hn⟩ := h1
    exact absurd (h e he p hp) hn
  · constructor
    · constructor
      · intro h
        unfold withEdges at h
        rw [h2] at h
        cases h
      · rintro ⟨e, he, p, hp, hn⟩
        exact absurd (h1 e he p hp) hn
    · intro _
      refine ⟨d, h2, h3, by simpa [IndexedSweepData.new] using h4, ?_⟩
      intro i e he
      simpa using h6 i e he

end

/-- `FiniteComparable` holds for numbers with NaN and infinities -/
theorem fq_finiteComparable : FiniteComparable FQ := by
  intro a b ha hb
  cases a <;> cases b <;> simp [Scalar.isFinite] at ha hb
  rename_i a b
  have h1 : Scalar.le (FQ.fin a) (FQ.fin b) = decide (a ≤ b) := by
    show (FQ.lt (.fin a) (.fin b) || FQ.beq (.fin a) (.fin b)) = decide (a ≤ b)
    rw [Bool.eq_iff_iff]
    simp [FQ.lt, FQ.beq, le_iff_lt_or_eq]
  have h2 : Scalar.ge (FQ.fin a) (FQ.fin b) = decide (b ≤ a) := by
    show (FQ.lt (.fin b) (.fin a) || FQ.beq (.fin b) (.fin a)) = decide (b ≤ a)
    rw [Bool.eq_iff_iff]
    simp [FQ.lt, FQ.beq, le_iff_lt_or_eq]
  unfold Scalar.pcmp
  rw [h1, h2]
  rcases le_total a b with h | h
  · by_cases h' : b ≤ a <;> simp [h, h']
  · by_cases h' : a ≤ b <;> simp [h, h']

/-- C45: an infinite coordinate in the second line is rejected; finite lines are accepted -/
example : haveI : TreeShape FQ := TreeShape.oneNode FQ
    withLines (SweepData.default : SweepData FQ)
      [⟨⟨.fin 0, .fin 0⟩, ⟨.fin 1, .fin 1⟩⟩, ⟨⟨.fin 0, .pinf⟩, ⟨.fin 1, .fin 0⟩⟩] = .error .invalid ∧
    (withLines (SweepData.default : SweepData FQ) [⟨⟨.fin 0, .fin 2⟩, ⟨.fin 1, .fin 1⟩⟩]) =
      .ok ⟨false, false, [((⟨.fin 1, .fin 1⟩, ()), ⟨[], [0], []⟩), ((⟨.fin 0, .fin 2⟩, ()), ⟨[0], [], []⟩)],
        [⟨⟨.fin 1, .fin 1⟩, ⟨.fin 0, .fin 2⟩⟩]⟩ := by decide +kernel

section
variable {K : Type} [Scalar K] [Field K] [LinearOrder K] [ExactScalar K] [ExactSqrt K]

theorem rearranged_get {input : List (Line2 K)} {i : Nat} {l : Line2 K} (h : (input.map rearranged)[i]? = some l) :
    ∃ m, input[i]? = some m ∧ l = rearranged m := by
  rw [List.getElem?_map] at h
  obtain ⟨m, hm, hl⟩ := Option.map_eq_some_iff.1 h
  exact ⟨m, hm, hl.symm⟩

theorem rearranged_ends (m : Line2 K) (p : V2 K) :
    (p = (rearranged m).start ∨ p = (rearranged m).end) ↔ (p = m.start ∨ p = m.end) := (ends_iff m p).symm

/-- C46: every reported position is a point of every line reported there (plain version) -/
theorem C46_reported_points_are_common [TreeShape K] (order : Nat → List Nat → List Nat) (hord : ∀ n l, (order n l).Perm l)
    (ign stop : Bool) (input : List (Line2 K)) (fuel : Nat)
    (hf : 2 * input.length + input.length * input.length < fuel) :
    ∃ r, sweepIntersections order fuel ign stop input = .ok r ∧
      ∀ x ∈ r, ∀ i ∈ x.2, ∃ l, input[i]? = some l ∧ OnSegment2 l.start l.end x.1 := by
  obtain ⟨r, H, h1, h2⟩ := plain_core order hord ign stop input fuel hf
  refine ⟨_, h1, ?_⟩
  intro x hx i hi
  obtain ⟨y, hy, rfl⟩ := List.mem_map.1 hx
  obtain ⟨l, hl, hp⟩ := (h2.entry hy).1 i hi
  obtain ⟨m, hm, rfl⟩ := rearranged_get hl
  exact ⟨m, hm, (lo_mem_seg m _).1 hp⟩

/-- C47: the reported positions are strictly increasing (plain version) -/
theorem C47_positions_increase [TreeShape K] (order : Nat → List Nat → List Nat) (hord : ∀ n l, (order n l).Perm l)
    (ign stop : Bool) (input : List (Line2 K)) (fuel : Nat)
    (hf : 2 * input.length + input.length * input.length < fuel) :
    ∃ r, sweepIntersections order fuel ign stop input = .ok r ∧
      r.Pairwise (fun a b => SweepBefore a.1 b.1) := by
  obtain ⟨r, H, h1, h2⟩ := plain_core order hord ign stop input fuel hf
  exact ⟨_, h1, List.pairwise_map.2 h2.sorted⟩

/-- C48: `compute` terminates: at most `2 n + n²` rounds for `n` lines, whatever the order in which the hash set is
iterated (plain version) -/
theorem C48_terminates [TreeShape K] (order : Nat → List Nat → List Nat) (hord : ∀ n l, (order n l).Perm l)
    (ign stop : Bool) (input : List (Line2 K)) (fuel : Nat)
    (hf : 2 * input.length + input.length * input.length < fuel) :
    ∃ r, sweepIntersections order fuel ign stop input = .ok r := by
  obtain ⟨r, H, h1, h2⟩ := plain_core order hord ign stop input fuel hf
  exact ⟨_, h1⟩

/-- C48, indexed version -/
theorem C48_indexed_terminates [TreeShape K] (order : Nat → List Nat → List Nat) (hord : ∀ n l, (order n l).Perm l)
    (ign stop : Bool) (vs : List (V2 K)) (edges : List (Nat × Nat))
    (hin : ∀ e ∈ edges, e.1 < vs.length ∧ e.2 < vs.length) (fuel : Nat)
    (hf : 2 * edges.length + edges.length * edges.length < fuel) :
    ∃ r, indexedSweepIntersections order fuel ign stop vs edges = .ok r := by
  obtain ⟨tab, r, H, h1, -⟩ := indexed_core order hord ign stop vs ⟨0, 0⟩ edges hin fuel hf
  exact ⟨_, h1⟩

/-- C49: the vertices that were there keep their indices and the reported indices are valid -/
theorem C49_vertices_preserved [TreeShape K] (order : Nat → List Nat → List Nat) (hord : ∀ n l, (order n l).Perm l)
    (ign stop : Bool) (vs : List (V2 K)) (edges : List (Nat × Nat))
    (hin : ∀ e ∈ edges, e.1 < vs.length ∧ e.2 < vs.length) (fuel : Nat)
    (hf : 2 * edges.length + edges.length * edges.length < fuel) :
    ∃ tab r, indexedSweepIntersections order fuel ign stop vs edges = .ok (tab, r) ∧ vs <+: tab ∧
      ∀ x ∈ r, x.1 < tab.length := by
  obtain ⟨tab, r, H, h1, h2, h3, h4⟩ := indexed_core order hord ign stop vs ⟨0, 0⟩ edges hin fuel hf
  refine ⟨tab, _, h1, h2, ?_⟩
  intro x hx
  obtain ⟨y, hy, rfl⟩ := List.mem_map.1 hx
  exact (List.getElem?_eq_some_iff.1 (h3 y hy)).1

/-- C46, indexed version: the reported vertex is a point of every edge reported for it -/
theorem C46_indexed_reported_points_are_common [TreeShape K] (order : Nat → List Nat → List Nat) (hord : ∀ n l, (order n l).Perm l)
    (ign stop : Bool) (vs : List (V2 K)) (edges : List (Nat × Nat))
    (hin : ∀ e ∈ edges, e.1 < vs.length ∧ e.2 < vs.length) (fuel : Nat)
    (hf : 2 * edges.length + edges.length * edges.length < fuel) :
    ∃ tab r, indexedSweepIntersections order fuel ign stop vs edges = .ok (tab, r) ∧
      ∀ x ∈ r, ∃ p, tab[x.1]? = some p ∧ ∀ i ∈ x.2, ∃ e a b, edges[i]? = some e ∧ vs[e.1]? = some a ∧ vs[e.2]? = some b ∧
        OnSegment2 a b p := by
  obtain ⟨tab, r, H, h1, h2, h3, h4⟩ := indexed_core order hord ign stop vs ⟨0, 0⟩ edges hin fuel hf
  refine ⟨tab, _, h1, ?_⟩
  intro x hx
  obtain ⟨y, hy, rfl⟩ := List.mem_map.1 hx
  refine ⟨_, h3 y hy, ?_⟩
  intro i hi
  obtain ⟨l, hl, hp⟩ := (h4.entry hy).1 i hi
  rw [List.getElem?_map] at hl
  obtain ⟨e, he, rfl⟩ := Option.map_eq_some_iff.1 hl
  obtain ⟨hb1, hb2⟩ := hin e (List.mem_of_getElem? he)
  have g1 : vs[e.1]? = some vs[e.1] := List.getElem?_eq_getElem hb1
  have g2 : vs[e.2]? = some vs[e.2] := List.getElem?_eq_getElem hb2
  refine ⟨e, _, _, he, g1, g2, ?_⟩
  unfold edgeLine at hp
  rw [g1, g2] at hp
  exact hp

/-- C47, indexed version -/
theorem C47_indexed_positions_increase [TreeShape K] (order : Nat → List Nat → List Nat) (hord : ∀ n l, (order n l).Perm l)
    (ign stop : Bool) (vs : List (V2 K)) (edges : List (Nat × Nat))
    (hin : ∀ e ∈ edges, e.1 < vs.length ∧ e.2 < vs.length) (fuel : Nat)
    (hf : 2 * edges.length + edges.length * edges.length < fuel) :
    ∃ tab r, indexedSweepIntersections order fuel ign stop vs edges = .ok (tab, r) ∧
      r.Pairwise (fun a b => ∃ p q, tab[a.1]? = some p ∧ tab[b.1]? = some q ∧ SweepBefore p q) := by
  obtain ⟨tab, r, H, h1, h2, h3, h4⟩ := indexed_core order hord ign stop vs ⟨0, 0⟩ edges hin fuel hf
  refine ⟨tab, _, h1, ?_⟩
  rw [List.pairwise_map]
  exact h4.sorted.imp_of_mem (fun ha hb hab => ⟨_, _, h3 _ ha, h3 _ hb, hab⟩)

/-- C56: if end points count and the algorithm does not stop early, lines with a common end point are reported there
(plain version) -/
theorem C56_shared_end_points_are_reported [TreeShape K] (order : Nat → List Nat → List Nat) (hord : ∀ n l, (order n l).Perm l)
    (input : List (Line2 K)) (fuel : Nat) (hf : 2 * input.length + input.length * input.length < fuel) :
    ∃ r, sweepIntersections order fuel false false input = .ok r ∧
      ∀ (i j : Nat) (l m : Line2 K) (p : V2 K), i ≠ j → input[i]? = some l → input[j]? = some m →
        (p = l.start ∨ p = l.end) → (p = m.start ∨ p = m.end) → ∃ x ∈ r, x.1 = p ∧ i ∈ x.2 ∧ j ∈ x.2 := by
  obtain ⟨r, H, h1, h2⟩ := plain_core order hord false false input fuel hf
  refine ⟨_, h1, ?_⟩
  intro i j l m p hij hl hm hp hp'
  obtain ⟨x, hx, h3, h4, h5⟩ := h2.shared hij (l := rearranged l) (m := rearranged m) (by rw [List.getElem?_map, hl]; rfl)
    (by rw [List.getElem?_map, hm]; rfl) ((rearranged_ends l p).2 hp) ((rearranged_ends m p).2 hp')
  exact ⟨_, List.mem_map.2 ⟨x, hx, rfl⟩, h3, h4, h5⟩

/-- C56, indexed version -/
theorem C56_indexed_shared_end_points_are_reported [TreeShape K] (order : Nat → List Nat → List Nat) (hord : ∀ n l, (order n l).Perm l)
    (vs : List (V2 K)) (edges : List (Nat × Nat))
    (hin : ∀ e ∈ edges, e.1 < vs.length ∧ e.2 < vs.length) (fuel : Nat)
    (hf : 2 * edges.length + edges.length * edges.length < fuel) :
    ∃ tab r, indexedSweepIntersections order fuel false false vs edges = .ok (tab, r) ∧
      ∀ (i j : Nat) (e f : Nat × Nat) (p : V2 K), i ≠ j → edges[i]? = some e → edges[j]? = some f →
        (vs[e.1]? = some p ∨ vs[e.2]? = some p) → (vs[f.1]? = some p ∨ vs[f.2]? = some p) →
        ∃ x ∈ r, tab[x.1]? = some p ∧ i ∈ x.2 ∧ j ∈ x.2 := by
  obtain ⟨tab, r, H, h1, h2, h3, h4⟩ := indexed_core order hord false false vs ⟨0, 0⟩ edges hin fuel hf
  refine ⟨tab, _, h1, ?_⟩
  intro i j e f p hij he hf' hp hp'
  have hline : ∀ e : Nat × Nat, (vs[e.1]? = some p ∨ vs[e.2]? = some p) →
      p = (edgeLine vs ⟨0, 0⟩ e).start ∨ p = (edgeLine vs ⟨0, 0⟩ e).end := by
    intro e h
    unfold edgeLine
    rcases h with h | h
    · left; simp only; rw [h]; rfl
    · right; simp only; rw [h]; rfl
  obtain ⟨x, hx, g3, g4, g5⟩ := h4.shared hij (l := edgeLine vs ⟨0, 0⟩ e) (m := edgeLine vs ⟨0, 0⟩ f)
    (by rw [List.getElem?_map, he]; rfl) (by rw [List.getElem?_map, hf']; rfl) (hline e hp) (hline f hp')
  exact ⟨_, List.mem_map.2 ⟨x, hx, rfl⟩, by rw [← g3]; exact h3 x hx, g4, g5⟩

/-- C57: the lines reported for a position are sorted, at least two, and different from each other if none of them has
length zero (plain version) -/
theorem C57_at_least_two_lines [TreeShape K] (order : Nat → List Nat → List Nat) (hord : ∀ n l, (order n l).Perm l)
    (ign stop : Bool) (input : List (Line2 K)) (fuel : Nat)
    (hf : 2 * input.length + input.length * input.length < fuel) :
    ∃ r, sweepIntersections order fuel ign stop input = .ok r ∧
      ∀ x ∈ r, 2 ≤ x.2.length ∧ x.2.Pairwise (· ≤ ·) ∧
        ((∀ i ∈ x.2, ∀ l, input[i]? = some l → l.start ≠ l.end) → x.2.Pairwise (· < ·)) := by
  obtain ⟨r, H, h1, h2⟩ := plain_core order hord ign stop input fuel hf
  refine ⟨_, h1, ?_⟩
  intro x hx
  obtain ⟨y, hy, rfl⟩ := List.mem_map.1 hx
  obtain ⟨-, g2, g3, g4, -⟩ := h2.entry hy
  refine ⟨g2, g3, fun hz => ?_⟩
  have hnd := g4 (by
    intro i hi l hl
    obtain ⟨m, hm, rfl⟩ := rearranged_get hl
    have := hz i hi m hm
    unfold rearranged
    simp only
    rcases (lo_hi m).2 with ⟨h1, h2⟩ | ⟨h1, h2⟩ <;> rw [h1, h2]
    · exact this
    · exact this.symm)
  exact List.Pairwise.imp₂ (fun a b h1 h2 => lt_of_le_of_ne h1 h2) g3 hnd

/-- C58: if end points are ignored, every reported position is inside (not an end point) of one of the reported lines, and a
second line goes through it -/
theorem C58_ignoring_end_points [TreeShape K] (order : Nat → List Nat → List Nat) (hord : ∀ n l, (order n l).Perm l)
    (stop : Bool) (input : List (Line2 K)) (fuel : Nat)
    (hf : 2 * input.length + input.length * input.length < fuel) :
    ∃ r, sweepIntersections order fuel true stop input = .ok r ∧
      ∀ x ∈ r, ∃ (i j : Nat) (l m : Line2 K), i ≠ j ∧ i ∈ x.2 ∧ j ∈ x.2 ∧ input[i]? = some l ∧ input[j]? = some m ∧
        OnSegment2 l.start l.end x.1 ∧ OnSegment2 m.start m.end x.1 ∧ x.1 ≠ l.start ∧ x.1 ≠ l.end := by
  obtain ⟨r, H, h1, h2⟩ := plain_core order hord true stop input fuel hf
  refine ⟨_, h1, ?_⟩
  intro x hx
  obtain ⟨y, hy, rfl⟩ := List.mem_map.1 hx
  obtain ⟨g1, -, -, -, g5⟩ := h2.entry hy
  obtain ⟨i, j, hij, hi, hj, l, hl, hp, hne⟩ := g5 rfl
  obtain ⟨m, hm, hpm⟩ := g1 j hj
  obtain ⟨l', hl', rfl⟩ := rearranged_get hl
  obtain ⟨m', hm', rfl⟩ := rearranged_get hm
  have := rearranged_ends l' y.1.1
  exact ⟨i, j, l', m', hij, hi, hj, hl', hm', (lo_mem_seg _ _).1 hp, (lo_mem_seg _ _).1 hpm, by tauto, by tauto⟩

/-- C58: if the algorithm stops at the first intersection it reports at most one position -/
theorem C58_stops_at_the_first [TreeShape K] (order : Nat → List Nat → List Nat) (hord : ∀ n l, (order n l).Perm l)
    (ign : Bool) (input : List (Line2 K)) (fuel : Nat)
    (hf : 2 * input.length + input.length * input.length < fuel) :
    ∃ r, sweepIntersections order fuel ign true input = .ok r ∧ r.length ≤ 1 := by
  obtain ⟨r, H, h1, h2⟩ := plain_core order hord ign true input fuel hf
  exact ⟨_, h1, by rw [List.length_map]; exact h2.few rfl⟩

/-- C58: `is_self_intersecting` of a line string of at least ten points answers, and `true` means that two different edges
have a common point that is inside one of them -/
theorem C58_self_intersecting_is_true [TreeShape K] (order : Nat → List Nat → List Nat) (hord : ∀ n l, (order n l).Perm l)
    (line : List (V2 K)) (fuel : Nat) (hf : 2 * line.length + line.length * line.length < fuel) :
    ∃ b, isSelfIntersectingLong order fuel line = .ok b ∧
      (b = true → ∃ (i j : Nat) (l m : Line2 K) (p : V2 K), i ≠ j ∧ (windowIter2 line)[i]? = some l ∧ (windowIter2 line)[j]? = some m ∧
        OnSegment2 l.start l.end p ∧ OnSegment2 m.start m.end p ∧ p ≠ l.start ∧ p ≠ l.end) := by
  have hlen : (windowIter2 line).length ≤ line.length := by
    rw [windowIter2, List.length_map, Intersect.windows2_length]
    omega
  have hmul := Nat.mul_le_mul hlen hlen
  obtain ⟨r, h1, h2⟩ := C58_ignoring_end_points order hord true (windowIter2 line) fuel (by omega)
  refine ⟨decide (r.length > 0), ?_, ?_⟩
  · unfold isSelfIntersectingLong
    rw [h1]; rfl
  · intro h
    rw [decide_eq_true_iff] at h
    obtain ⟨x, hx⟩ := List.exists_mem_of_ne_nil r (by rintro rfl; simp at h)
    obtain ⟨i, j, l, m, hij, -, -, hl, hm, hp, hq, hne⟩ := h2 x hx
    exact ⟨i, j, l, m, x.1, hij, hl, hm, hp, hq, hne⟩

end

/-! ## examples and findings -/

/-- the identity order of the hash set -/
def keepOrder (_ : Nat) (l : List Nat) : List Nat := l

/-- the line from `(a, b)` to `(c, d)` -/
def seg (a b c d : ℚ) : Line2 FQ := ⟨⟨.fin a, .fin b⟩, ⟨.fin c, .fin d⟩⟩

/-- the examples are computed with two shapes of the search trees -/
def shapes : List (TreeShape FQ) := [TreeShape.oneNode FQ, TreeShape.middle FQ]

/-- two crossing lines and a third one through an end point: the theorems are not vacuous -/
example : ∀ T ∈ shapes, haveI : TreeShape FQ := T
    sweepIntersections keepOrder 50 false false [seg 0 0 4 4, seg 4 0 0 4, seg 4 4 9 5] =
    .ok [(⟨.fin 2, .fin 2⟩, [0, 1]), (⟨.fin 4, .fin 4⟩, [0, 2])] ∧
  sweepIntersections keepOrder 50 true true [seg 0 0 4 4, seg 4 0 0 4, seg 4 4 9 5] =
    .ok [(⟨.fin 2, .fin 2⟩, [0, 1])] := by decide +kernel

/-- C59, finding: an end point of a line on another line is not reported if it is the first point of the line that the sweep
line meets -/
theorem C59_start_point_on_a_line_is_missed : ∀ T ∈ shapes, haveI : TreeShape FQ := T
    sweepIntersections keepOrder 50 false false [seg 3 0 0 0, seg 3 1 2 0] = .ok [] ∧
    sweepIntersections keepOrder 50 false false [seg 0 0 5 5, seg 3 3 2 8] = .ok [] := by decide +kernel

/-- C59, finding: a proper crossing is missed where two lines cross at the height of an end point of a third line: lines 0
and 2 cross in the interior of both, but only the crossing of 1 and 2 is reported -/
theorem C59_crossing_is_missed : ∀ T ∈ shapes, haveI : TreeShape FQ := T
    sweepIntersections keepOrder 50 false false [seg 6 3 0 5, seg 0 4 2 1, seg 0 2 2 5] =
      .ok [(⟨.fin (2 / 3), .fin 3⟩, [1, 2])] ∧
    (seg 6 3 0 5).intersectionPoint (seg 0 2 2 5) = some (.point ⟨.fin (18 / 11), .fin (49 / 11)⟩) := by decide +kernel

/-- C57, finding: a line of length zero is reported as intersecting itself -/
theorem C57_zero_length_line_meets_itself : ∀ T ∈ shapes, haveI : TreeShape FQ := T
    sweepIntersections keepOrder 50 false false [seg 1 1 1 1] = .ok [(⟨.fin 1, .fin 1⟩, [0, 0])] := by decide +kernel

/-- C45, finding: the index starts again at 0 in a second call of `with_lines`: the end points of the lines of the
second call are recorded with the numbers of the lines of the first call -/
theorem C45_second_call_restarts_the_index : ∀ T ∈ shapes, haveI : TreeShape FQ := T
    (do let d ← withLines (SweepData.default : SweepData FQ) [seg 10 0 11 9]
        let d ← withLines d [seg 0 0 4 4, seg 4 0 0 4]
        .ok d.events) =
      (.ok [((⟨.fin 0, .fin 0⟩, ()), ⟨[], [0], []⟩), ((⟨.fin 4, .fin 0⟩, ()), ⟨[], [1], []⟩), ((⟨.fin 10, .fin 0⟩, ()), ⟨[], [0], []⟩),
        ((⟨.fin 0, .fin 4⟩, ()), ⟨[1], [], []⟩), ((⟨.fin 4, .fin 4⟩, ()), ⟨[0], [], []⟩), ((⟨.fin 11, .fin 9⟩, ()), ⟨[0], [], []⟩)] :
        Except Err _) := by decide +kernel

/-- the indexed version on the same lines: a vertex is added for the crossing -/
example : ∀ T ∈ shapes, haveI : TreeShape FQ := T
    indexedSweepIntersections keepOrder 50 false false [(⟨.fin 0, .fin 0⟩ : V2 FQ), ⟨.fin 4, .fin 4⟩, ⟨.fin 4, .fin 0⟩, ⟨.fin 0, .fin 4⟩]
      [(0, 1), (2, 3)] =
    .ok ([⟨.fin 0, .fin 0⟩, ⟨.fin 4, .fin 4⟩, ⟨.fin 4, .fin 0⟩, ⟨.fin 0, .fin 4⟩, ⟨.fin 2, .fin 2⟩], [(4, [0, 1])]) := by decide +kernel

end Verif.Props
