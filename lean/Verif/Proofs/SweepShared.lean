import Verif.Proofs.SweepRawInit
import Mathlib.Order.Compare
/-!
# The sweep line without laws of arithmetic: shared end points

If the comparison of keys is exact on the end points (`Sharp`), the queue has one entry for every end point, with all
lines that start or end there, and the loop reports these lines when it comes to the entry.
-/
set_option linter.unusedSectionVars false
set_option linter.unusedVariables false
set_option linter.unusedSimpArgs false
namespace Verif.SweepRaw
open Verif Verif.Model Verif.Props Scalar
variable {α : Type} [Scalar α] {ι σ V P : Type} [LinearOrder P]

/-- on the points in `S` the comparison of keys is the one of the values of `pos` -/
def Sharp (S : V2 α → Prop) (pos : V2 α → P) : Prop :=
  ∀ a b, S a → S b → siteCmp a b = some (compare (pos a) (pos b))

/-- the keys of a queue are in `S` and sorted -/
structure Neat (S : V2 α → Prop) (pos : V2 α → P) (m : SiteMap α ι V) : Prop where
  keys : ∀ e ∈ m, S e.1.1
  sorted : m.Pairwise (fun a b => pos a.1.1 < pos b.1.1)

theorem Neat.unique {S : V2 α → Prop} {pos : V2 α → P} {m : SiteMap α ι V} (h : Neat S pos m) {x y : (V2 α × ι) × V}
    (hx : x ∈ m) (hy : y ∈ m) (e : pos x.1.1 = pos y.1.1) : x = y := by
  have hn : (m.map (fun a => pos a.1.1)).Nodup := by
    rw [List.Nodup, List.pairwise_map]
    exact h.sorted.imp (fun h => h.ne)
  exact List.inj_on_of_nodup_map hn hx hy e

/-- `get_mut` or `insert` with a key in `S` -/
theorem update_neat [TreeShape α] {S : V2 α → Prop} {pos : V2 α → P} (hs : Sharp S pos) {m : SiteMap α ι V} (hm : Neat S pos m)
    {key : V2 α × ι} (hk : S key.1) (g : Option V → V) :
    ∃ m', siteUpdate key (fun v => .ok (g v)) m = .ok m' ∧ Neat S pos m' ∧
      (∀ x ∈ m, ∃ y ∈ m', y.1 = x.1 ∧ (y.2 = x.2 ∨ y.2 = g (some x.2))) ∧
      ∃ y ∈ m', pos y.1.1 = pos key.1 ∧ ∃ o, y.2 = g o := by
  rcases Sweep.siteUpdate_split key m (fun e he => by rw [hs _ _ hk (hm.keys e he)]; simp) with
    ⟨pre, e, post, h1, h2, -, h4⟩ | ⟨pre, post, h1, h2, h3, -, h5⟩
  · have he : e ∈ m := by rw [h1]; simp
    rw [hs _ _ hk (hm.keys e he), Option.some.injEq, compare_eq_iff_eq] at h2
    refine ⟨pre ++ (e.1, g (some e.2)) :: post, h4 _, ⟨?_, ?_⟩, ?_, ⟨(e.1, g (some e.2)), by simp, h2.symm, _, rfl⟩⟩
    · intro x hx
      simp only [List.mem_append, List.mem_cons] at hx
      rcases hx with hx | rfl | hx
      · exact hm.keys x (by rw [h1]; simp [hx])
      · exact hm.keys e he
      · exact hm.keys x (by rw [h1]; simp [hx])
    · have := hm.sorted
      rw [h1, List.pairwise_append, List.pairwise_cons] at this
      obtain ⟨a1, ⟨a2, a3⟩, a4⟩ := this
      rw [List.pairwise_append, List.pairwise_cons]
      refine ⟨a1, ⟨a2, a3⟩, ?_⟩
      intro a ha b hb
      rcases List.mem_cons.1 hb with rfl | hb
      · exact a4 a ha e List.mem_cons_self
      · exact a4 a ha b (List.mem_cons_of_mem _ hb)
    · intro x hx
      rw [h1] at hx
      simp only [List.mem_append, List.mem_cons] at hx
      rcases hx with hx | rfl | hx
      · exact ⟨x, by simp [hx], rfl, Or.inl rfl⟩
      · exact ⟨(x.1, g (some x.2)), by simp, rfl, Or.inr rfl⟩
      · exact ⟨x, by simp [hx], rfl, Or.inl rfl⟩
  · have hlast : ∀ x ∈ pre, pos x.1.1 < pos key.1 := by
      intro x hx
      have hpw : pre.Pairwise (fun a b => pos a.1.1 < pos b.1.1) := by
        have := hm.sorted
        rw [h1, List.pairwise_append] at this
        exact this.1
      have hne : pre ≠ [] := by rintro rfl; simp at hx
      have hl := h2 _ (List.getLast?_eq_some_getLast hne)
      have hlm := List.getLast_mem hne
      rw [hs _ _ hk (hm.keys _ (by rw [h1]; exact List.mem_append_left _ hlm)), Option.some.injEq, compare_gt_iff_gt] at hl
      rcases eq_or_ne x (pre.getLast hne) with rfl | hx'
      · exact hl
      · have hsp := List.dropLast_append_getLast hne
        rw [← hsp, List.pairwise_append] at hpw
        rw [← hsp] at hx
        rcases List.mem_append.1 hx with hx | hx
        · exact (hpw.2.2 x hx _ (List.mem_singleton.2 rfl)).trans hl
        · exact absurd (List.mem_singleton.1 hx) hx'
    have hfirst : ∀ x ∈ post, pos key.1 < pos x.1.1 := by
      intro x hx
      have hpw : post.Pairwise (fun a b => pos a.1.1 < pos b.1.1) := by
        have := hm.sorted
        rw [h1, List.pairwise_append] at this
        exact this.2.1
      cases post with
      | nil => simp at hx
      | cons y post =>
        have hl := h3 y rfl
        rw [hs _ _ hk (hm.keys _ (by rw [h1]; simp)), Option.some.injEq, compare_lt_iff_lt] at hl
        rcases List.mem_cons.1 hx with rfl | hx
        · exact hl
        · exact hl.trans ((List.pairwise_cons.1 hpw).1 x hx)
    refine ⟨pre ++ (key, g none) :: post, h5 _, ⟨?_, ?_⟩, ?_, ⟨(key, g none), by simp, rfl, _, rfl⟩⟩
    · intro x hx
      simp only [List.mem_append, List.mem_cons] at hx
      rcases hx with hx | rfl | hx
      · exact hm.keys x (by rw [h1]; simp [hx])
      · exact hk
      · exact hm.keys x (by rw [h1]; simp [hx])
    · have := hm.sorted
      rw [h1, List.pairwise_append] at this
      obtain ⟨a1, a3, a4⟩ := this
      rw [List.pairwise_append, List.pairwise_cons]
      refine ⟨a1, ⟨hfirst, a3⟩, ?_⟩
      intro a ha b hb
      rcases List.mem_cons.1 hb with rfl | hb
      · exact hlast a ha
      · exact a4 a ha b hb
    · intro x hx
      rw [h1] at hx
      refine ⟨x, ?_, rfl, Or.inl rfl⟩
      simp only [List.mem_append, List.mem_cons] at hx ⊢
      tauto

/-- line `i` has an end point at (the position of) `p` -/
def At (pos : V2 α → P) (m : SiteMap α ι SiteEvent) (i : Nat) (p : V2 α) : Prop :=
  ∃ x ∈ m, pos x.1.1 = pos p ∧ (i ∈ x.2.drop ∨ i ∈ x.2.add)

theorem addEndPoints_neat [TreeShape α] {S : V2 α → Prop} {pos : V2 α → P} (hs : Sharp S pos) {m : SiteMap α ι SiteEvent} (hm : Neat S pos m)
    {n : Nat} {a b : V2 α × ι} (ha : S a.1) (hb : S b.1) :
    ∃ m', addEndPoints n a b m = .ok m' ∧ Neat S pos m' ∧ (∀ i p, At pos m i p → At pos m' i p) ∧ At pos m' n a.1 ∧ At pos m' n b.1 := by
  obtain ⟨m1, e1, n1, k1, y1, hy1, p1, o1, q1⟩ := update_neat hs hm ha
    (fun v => let e := v.getD .empty; ({ e with add := e.add ++ [n] } : SiteEvent))
  obtain ⟨m2, e2, n2, k2, y2, hy2, p2, o2, q2⟩ := update_neat hs n1 hb
    (fun v => let e := v.getD .empty; ({ e with drop := e.drop ++ [n] } : SiteEvent))
  have t1 : ∀ i p, At pos m i p → At pos m1 i p := by
    rintro i p ⟨x, hx, h1, h2⟩
    obtain ⟨y, hy, g1, g2⟩ := k1 x hx
    refine ⟨y, hy, by rw [g1]; exact h1, ?_⟩
    rcases g2 with g2 | g2 <;> rw [g2]
    · exact h2
    · exact h2.imp_right (fun h => List.mem_append_left _ h)
  have t2 : ∀ i p, At pos m1 i p → At pos m2 i p := by
    rintro i p ⟨x, hx, h1, h2⟩
    obtain ⟨y, hy, g1, g2⟩ := k2 x hx
    refine ⟨y, hy, by rw [g1]; exact h1, ?_⟩
    rcases g2 with g2 | g2 <;> rw [g2]
    · exact h2
    · exact h2.imp_left (fun h => List.mem_append_left _ h)
  refine ⟨m2, ?_, n2, fun i p h => t2 i p (t1 i p h), t2 n a.1 ⟨y1, hy1, p1, Or.inr ?_⟩, ⟨y2, hy2, p2, Or.inl ?_⟩⟩
  · unfold addEndPoints
    rw [e1]
    exact e2
  · rw [q1]; simp
  · rw [q2]; simp

/-- `with_lines` -/
theorem withLines_neat [TreeShape α] {S : V2 α → Prop} {pos : V2 α → P} (hs : Sharp S pos) :
    ∀ (rest : List (Line2 α)) (n : Nat) (d d' : SweepData α), (rest.zipIdx n).foldlM withLinesStep d = .ok d' →
    Neat S pos d.events → (∀ l ∈ rest, S l.start ∧ S l.end) →
    Neat S pos d'.events ∧ (∀ i p, At pos d.events i p → At pos d'.events i p) ∧
      ∀ i l, rest[i]? = some l → At pos d'.events (n + i) l.start ∧ At pos d'.events (n + i) l.end := by
  intro rest
  induction rest with
  | nil =>
    intro n d d' h hm _
    cases h
    exact ⟨hm, fun _ _ h => h, by simp⟩
  | cons l rest ih =>
    intro n d d' h hm hS
    rw [List.zipIdx_cons, List.foldlM_cons] at h
    obtain ⟨hl, hrest⟩ := List.forall_mem_cons.1 hS
    have hstep : ∀ d1, withLinesStep d (l, n) = .ok d1 → Neat S pos d1.events ∧ (∀ i p, At pos d.events i p → At pos d1.events i p) ∧
        At pos d1.events n l.start ∧ At pos d1.events n l.end := by
      intro d1 h1
      unfold withLinesStep at h1
      simp only at h1
      split at h1
      · cases h1
      change (Except.bind (addEndPoints n ((stored l).start, ()) ((stored l).end, ()) d.events) _) = _ at h1
      have hst : S (stored l).start ∧ S (stored l).end := by
        rcases stored_cases l with e | e <;> rw [e]
        · exact hl
        · exact hl.symm
      obtain ⟨m', g1, g2, g3, g4, g5⟩ := addEndPoints_neat (n := n) (a := ((stored l).start, ())) (b := ((stored l).end, ())) hs hm hst.1 hst.2
      rw [g1] at h1
      cases h1
      refine ⟨g2, g3, ?_⟩
      rcases stored_cases l with e | e <;> rw [e] at g4 g5
      · exact ⟨g4, g5⟩
      · exact ⟨g5, g4⟩
    cases hd : withLinesStep d (l, n) with
    | error e => rw [hd] at h; cases h
    | ok d1 =>
      rw [hd] at h
      obtain ⟨a1, a2, a3, a4⟩ := hstep d1 hd
      obtain ⟨b1, b2, b3⟩ := ih (n + 1) d1 d' h a1 hrest
      refine ⟨b1, fun i p h => b2 i p (a2 i p h), ?_⟩
      intro i l' hi
      cases i with
      | zero =>
        cases hi
        exact ⟨b2 _ _ a3, b2 _ _ a4⟩
      | succ i =>
        have := b3 i l' hi
        rwa [show n + 1 + i = n + (i + 1) by omega] at this

/-- `with_edges` -/
theorem withEdges_neat [TreeShape α] {S : V2 α → Prop} {pos : V2 α → P} (hs : Sharp S pos) (vs : List (V2 α)) :
    ∀ (rest : List (Nat × Nat)) (n : Nat) (d d' : IndexedSweepData α), (rest.zipIdx n).foldlM withEdgesStep d = .ok d' → d.vertices = vs →
    Neat S pos d.events → (∀ e ∈ rest, ∀ p, vs[e.1]? = some p ∨ vs[e.2]? = some p → S p) →
    Neat S pos d'.events ∧ (∀ i p, At pos d.events i p → At pos d'.events i p) ∧
      ∀ i e, rest[i]? = some e → ∀ p, vs[e.1]? = some p ∨ vs[e.2]? = some p → At pos d'.events (n + i) p := by
  intro rest
  induction rest with
  | nil =>
    intro n d d' h _ hm _
    cases h
    exact ⟨hm, fun _ _ h => h, by simp⟩
  | cons l rest ih =>
    intro n d d' h hv hm hS
    rw [List.zipIdx_cons, List.foldlM_cons] at h
    obtain ⟨hl, hrest⟩ := List.forall_mem_cons.1 hS
    have hstep : ∀ d1, withEdgesStep d (l, n) = .ok d1 → d1.vertices = vs ∧ Neat S pos d1.events ∧ (∀ i p, At pos d.events i p → At pos d1.events i p) ∧
        ∀ p, vs[l.1]? = some p ∨ vs[l.2]? = some p → At pos d1.events n p := by
      intro d1 h1
      unfold withEdgesStep at h1
      simp only [hv] at h1
      cases ha : vs[l.1]? with
      | none => simp only [idx, ha, bind, Except.bind] at h1; cases h1
      | some a =>
      cases hb : vs[l.2]? with
      | none => simp only [idx, ha, hb, bind, Except.bind] at h1; cases h1
      | some b =>
      simp only [idx, ha, hb, bind, Except.bind] at h1
      split at h1
      · cases h1
      by_cases hc : (!(siteCmp a b == some .lt)) = true
      · obtain ⟨m', g1, g2, g3, g4, g5⟩ := addEndPoints_neat (n := n) (a := (b, l.2)) (b := (a, l.1)) hs hm (hl b (Or.inr hb)) (hl a (Or.inl ha))
        simp only [hc, if_true, g1] at h1
        cases h1
        refine ⟨rfl, g2, g3, ?_⟩
        rintro p (hp | hp) <;> cases hp
        · exact g5
        · exact g4
      · obtain ⟨m', g1, g2, g3, g4, g5⟩ := addEndPoints_neat (n := n) (a := (a, l.1)) (b := (b, l.2)) hs hm (hl a (Or.inl ha)) (hl b (Or.inr hb))
        rw [if_neg hc] at h1
        simp only [g1] at h1
        cases h1
        refine ⟨rfl, g2, g3, ?_⟩
        rintro p (hp | hp) <;> cases hp
        · exact g4
        · exact g5
    cases hd : withEdgesStep d (l, n) with
    | error e => rw [hd] at h; cases h
    | ok d1 =>
      rw [hd] at h
      obtain ⟨a0, a1, a2, a3⟩ := hstep d1 hd
      obtain ⟨b1, b2, b3⟩ := ih (n + 1) d1 d' h a0 a1 hrest
      refine ⟨b1, fun i p h => b2 i p (a2 i p h), ?_⟩
      intro i l' hi
      cases i with
      | zero =>
        cases hi
        exact fun p hp => b2 _ _ (a3 p hp)
      | succ i =>
        have := b3 i l' hi
        rwa [show n + 1 + i = n + (i + 1) by omega] at this

/-! ## the loop -/

/-- an update keeps all other entries -/
theorem siteUpdate_keeps [TreeShape α] {k : V2 α × ι} {f : Option V → Except Err V} {m m' : SiteMap α ι V} (h : siteUpdate k f m = .ok m') :
    ∀ x ∈ m, x ∈ m' ∨ ∃ v, f (some x.2) = .ok v ∧ (x.1, v) ∈ m' := by
  unfold siteUpdate at h
  cases hs : siteSearch V (m.map (·.1)) k m.length 0 m.length with
  | error e => rw [hs] at h; cases h
  | ok r =>
    obtain ⟨i, found⟩ := r
    rw [hs] at h
    simp only [bind, Except.bind] at h
    intro x hx
    cases found with
    | true =>
      cases hi : m[i]? with
      | none => rw [hi] at h; cases h
      | some e =>
        rw [hi] at h
        simp only at h
        cases hf : f (some e.2) with
        | error e' => rw [hf] at h; cases h
        | ok v =>
          rw [hf] at h
          cases h
          obtain ⟨hlt, he⟩ := List.getElem?_eq_some_iff.1 hi
          have hm : m = m.take i ++ e :: m.drop (i + 1) := by
            rw [← he, ← List.drop_eq_getElem_cons hlt, List.take_append_drop]
          rw [hm] at hx
          simp only [List.mem_append, List.mem_cons] at hx
          rcases hx with hx | rfl | hx
          · exact Or.inl (by simp only [List.mem_append]; exact Or.inl hx)
          · exact Or.inr ⟨v, hf, by simp⟩
          · exact Or.inl (by simp only [List.mem_append, List.mem_cons]; exact Or.inr (Or.inr hx))
    | false =>
      cases hf : f none with
      | error e' =>
        have : (match false, m[i]? with
          | true, some e => (Except.bind (f (some e.2)) fun v => .ok (m.take i ++ (e.1, v) :: m.drop (i + 1)))
          | true, none => .error .panic
          | false, _ => (Except.bind (f none) fun v => .ok (m.take i ++ (k, v) :: m.drop i))) = .ok m' := h
        simp only [hf] at this
        cases this
      | ok v =>
        have : (match false, m[i]? with
          | true, some e => (Except.bind (f (some e.2)) fun v => .ok (m.take i ++ (e.1, v) :: m.drop (i + 1)))
          | true, none => .error .panic
          | false, _ => (Except.bind (f none) fun v => .ok (m.take i ++ (k, v) :: m.drop i))) = .ok m' := h
        simp only [hf] at this
        cases this
        left
        rw [← List.take_append_drop i m] at hx
        simp only [List.mem_append, List.mem_cons] at hx ⊢
        tauto

/-- the entries keep their key, their starting and their ending lines -/
def EvKeep (a b : SiteMap α ι SiteEvent) : Prop :=
  ∀ x ∈ a, ∃ y ∈ b, y.1 = x.1 ∧ y.2.drop = x.2.drop ∧ y.2.add = x.2.add

/-- the entries keep their key and their lines -/
def ResKeep (a b : SiteMap α ι (List Nat)) : Prop :=
  ∀ x ∈ a, ∃ y ∈ b, y.1 = x.1 ∧ ∀ i ∈ x.2, i ∈ y.2

theorem EvKeep.refl (a : SiteMap α ι SiteEvent) : EvKeep a a := fun x hx => ⟨x, hx, rfl, rfl, rfl⟩
theorem EvKeep.trans {a b c : SiteMap α ι SiteEvent} (h : EvKeep a b) (g : EvKeep b c) : EvKeep a c := by
  intro x hx
  obtain ⟨y, hy, h1, h2, h3⟩ := h x hx
  obtain ⟨z, hz, g1, g2, g3⟩ := g y hy
  exact ⟨z, hz, g1.trans h1, g2.trans h2, g3.trans h3⟩
theorem ResKeep.refl (a : SiteMap α ι (List Nat)) : ResKeep a a := fun x hx => ⟨x, hx, rfl, fun _ h => h⟩
theorem ResKeep.trans {a b c : SiteMap α ι (List Nat)} (h : ResKeep a b) (g : ResKeep b c) : ResKeep a c := by
  intro x hx
  obtain ⟨y, hy, h1, h2⟩ := h x hx
  obtain ⟨z, hz, g1, g2⟩ := g y hy
  exact ⟨z, hz, g1.trans h1, fun i hi => g2 i (h2 i hi)⟩

theorem foldM_keeps {S A : Type} {step : S → A → Except Err S} {R : S → S → Prop} (refl : ∀ s, R s s)
    (trans : ∀ a b c, R a b → R b c → R a c) (hstep : ∀ s a s', step s a = .ok s' → R s s') :
    ∀ (l : List A) (s s' : S), l.foldlM step s = .ok s' → R s s' := by
  intro l
  induction l with
  | nil => intro s s' h; cases h; exact refl _
  | cons a l ih =>
    intro s s' h
    rw [List.foldlM_cons] at h
    cases h1 : step s a with
    | error e => rw [h1] at h; cases h
    | ok s1 => rw [h1] at h; exact trans _ _ _ (hstep _ _ _ h1) (ih _ _ h)

theorem addIntersection_keeps {ops : SweepOps α ι σ} {tab : σ} {pos : V2 α} {lines : List Nat} {e e' : SiteEvent}
    (h : addIntersection ops tab pos lines (some e) = .ok e') : e'.drop = e.drop ∧ e'.add = e.add := by
  unfold addIntersection at h
  cases h1 : interiorLines ops tab pos lines with
  | error x => rw [h1] at h; cases h
  | ok new =>
    rw [h1] at h
    simp only [bind, Except.bind] at h
    split at h <;> cases h <;> exact ⟨rfl, rfl⟩

theorem findNewStep_keeps [TreeShape α] {ops : SweepOps α ι σ} {sweep : V2 α} {s s' : σ × SiteMap α ι SiteEvent} {pair : Nat × Nat}
    (h : findNewStep ops sweep s pair = .ok s') : EvKeep s.2 s'.2 := by
  unfold findNewStep at h
  cases h1 : ops.line s.1 pair.1 with
  | error x => rw [h1] at h; cases h
  | ok l =>
  cases h2 : ops.line s.1 pair.2 with
  | error x => rw [h1, h2] at h; cases h
  | ok m =>
  rw [h1, h2] at h
  simp only [bind, Except.bind] at h
  split at h
  · cases h; exact EvKeep.refl _
  cases h3 : l.intersectionPoint m with
  | none => rw [h3] at h; cases h; exact EvKeep.refl _
  | some i =>
    rw [h3] at h
    simp only at h
    split at h
    · cases h
    split at h
    · change (Except.bind (siteUpdate (i.single, (ops.fresh s.1 i.single).1)
          (addIntersection ops (ops.fresh s.1 i.single).2 i.single [pair.1, pair.2]) s.2)
          (fun ev => .ok ((ops.fresh s.1 i.single).2, ev))) = .ok s' at h
      cases h4 : siteUpdate (i.single, (ops.fresh s.1 i.single).1)
          (addIntersection ops (ops.fresh s.1 i.single).2 i.single [pair.1, pair.2]) s.2 with
      | error x => rw [h4] at h; cases h
      | ok ev =>
        rw [h4] at h
        cases h
        intro x hx
        rcases siteUpdate_keeps h4 x hx with g | ⟨v, g1, g2⟩
        · exact ⟨x, g, rfl, rfl, rfl⟩
        · obtain ⟨e1, e2⟩ := addIntersection_keeps g1
          exact ⟨_, g2, rfl, e1, e2⟩
    · cases h; exact EvKeep.refl _

theorem findNewEvents_keeps [TreeShape α] {ops : SweepOps α ι σ} {sweep : V2 α} {a b : List Nat} {s s' : σ × SiteMap α ι SiteEvent}
    (h : findNewEvents ops sweep a b s = .ok s') : EvKeep s.2 s'.2 := by
  unfold findNewEvents at h
  exact foldM_keeps (R := fun s s' => EvKeep s.2 s'.2) (fun _ => EvKeep.refl _) (fun _ _ _ => EvKeep.trans)
    (fun _ _ _ => findNewStep_keeps) _ _ _ h

theorem newEvents_keeps [TreeShape α] {ops : SweepOps α ι σ} {sweep : V2 α} {e : SiteEvent} {m : MinMax α} {s s' : σ × SiteMap α ι SiteEvent}
    (h : newEvents ops sweep e m s = .ok s') : EvKeep s.2 s'.2 := by
  unfold newEvents at h
  split at h
  · split at h
    · exact findNewEvents_keeps h
    · cases h; exact EvKeep.refl _
  · cases h1 : (e.add ++ e.inter).foldlM (connectedStep ops s.1) MinMaxSlope.new with
    | error x => rw [h1] at h; cases h
    | ok c =>
      rw [h1] at h
      simp only [bind, Except.bind] at h
      have tail : ∀ s1 : σ × SiteMap α ι SiteEvent, (if (!m.slope.candRight.isEmpty) = true then findNewEvents ops sweep m.slope.candRight c.candRight s1 else Except.ok s1) = .ok s' →
          EvKeep s1.2 s'.2 := by
        intro s1 h
        split at h
        · exact findNewEvents_keeps h
        · cases h; exact EvKeep.refl _
      by_cases hc : (!m.slope.candLeft.isEmpty) = true
      · rw [if_pos hc] at h
        cases h2 : findNewEvents ops sweep m.slope.candLeft c.candLeft s with
        | error x => rw [h2] at h; cases h
        | ok s1 =>
          rw [h2] at h
          exact (findNewEvents_keeps h2).trans (tail s1 h)
      · rw [if_neg hc] at h
        exact tail s h

theorem handleEvent_keeps [TreeShape α] {ops : SweepOps α ι σ} {order : List Nat → List Nat} {ign : Bool} {key : V2 α × ι} {e : SiteEvent}
    {s s' : SweepState α ι σ} (h : handleEvent ops order ign key e s = .ok s') :
    EvKeep s.events s'.events ∧ reportEvent ops ign s.tab key e s.result = .ok s'.result := by
  unfold handleEvent at h
  cases h1 : reportEvent ops ign s.tab key e s.result with
  | error x => rw [h1] at h; cases h
  | ok r =>
    rw [h1] at h
    simp only [bind, Except.bind] at h
    cases h2 : (order (s.active.filter (fun i => !e.drop.contains i))).foldlM (neighbourStep ops s.tab key.1 e) MinMax.new with
    | error x => rw [h2] at h; cases h
    | ok m =>
      rw [h2] at h
      simp only at h
      cases h3 : newEvents ops key.1 e m (s.tab, s.events) with
      | error x => rw [h3] at h; cases h
      | ok t =>
        rw [h3] at h
        cases h
        exact ⟨newEvents_keeps h3, rfl⟩

theorem reportLines_keeps [TreeShape α] {ops : SweepOps α ι σ} {tab : σ} {key : V2 α × ι} {r r' : SiteMap α ι (List Nat)} {a : List Nat}
    (h : reportLines ops tab key r a = .ok r') : ResKeep r r' := by
  unfold reportLines at h
  cases h1 : ops.keyPos tab key with
  | error x => rw [h1] at h; cases h
  | ok p =>
    rw [h1] at h
    simp only [bind, Except.bind] at h
    cases h2 : siteUpdate (p, key.2) (fun v => .ok (v.getD [])) r with
    | error x => rw [h2] at h; cases h
    | ok r1 =>
    rw [h2] at h
    have first : ResKeep r r1 := by
      intro x hx
      rcases siteUpdate_keeps h2 x hx with g | ⟨v, g1, g2⟩
      · exact ⟨x, g, rfl, fun _ h => h⟩
      · cases g1
        exact ⟨_, g2, rfl, fun _ h => h⟩
    refine first.trans ?_
    intro x hx
    rcases siteUpdate_keeps h x hx with g | ⟨v, g1, g2⟩
    · exact ⟨x, g, rfl, fun _ h => h⟩
    · cases g1
      refine ⟨_, g2, rfl, fun i hi => ?_⟩
      simp only [List.mem_insertionSort]
      exact List.mem_append_left _ hi

theorem reportFold_keeps [TreeShape α] {ops : SweepOps α ι σ} {tab : σ} {key : V2 α × ι} (ls : List (List Nat)) {r r' : SiteMap α ι (List Nat)}
    (h : ls.foldlM (reportLines ops tab key) r = .ok r') : ResKeep r r' :=
  foldM_keeps (R := ResKeep) ResKeep.refl (fun _ _ _ => ResKeep.trans) (fun _ _ _ => reportLines_keeps) ls r r' h

theorem reportEvent_keeps [TreeShape α] {ops : SweepOps α ι σ} {ign : Bool} {tab : σ} {key : V2 α × ι} {e : SiteEvent} {r r' : SiteMap α ι (List Nat)}
    (h : reportEvent ops ign tab key e r = .ok r') : ResKeep r r' := by
  unfold reportEvent at h
  by_cases hc : (if ign then decide (e.inter.length > 0)
      else decide (e.drop.length + e.add.length + e.inter.length > 1)) = true
  · rw [if_pos hc] at h; exact reportFold_keeps _ h
  · rw [if_neg hc] at h; cases h; exact ResKeep.refl _

section
variable {L : List (Line2 α)} {Lt : V2 α → V2 α → Prop} {N1 N2 N3 N4 : Line2 α → V2 α → Prop}

/-- an event with the key `k`, the ending lines `dr` and the starting lines `ad` has been reported -/
def Reported (k : V2 α) (dr ad : List Nat) (r : SiteMap α ι (List Nat)) : Prop :=
  ∃ y ∈ r, siteCmp k y.1.1 = some .eq ∧ ∀ i, i ∈ dr ∨ i ∈ ad → i ∈ y.2

theorem Reported.keep {k : V2 α} {dr ad : List Nat} {r r' : SiteMap α ι (List Nat)} (h : Reported k dr ad r)
    (hk : ResKeep r r') : Reported k dr ad r' := by
  obtain ⟨y, k1, k2, k3⟩ := h
  obtain ⟨z, z1, z2, z3⟩ := hk y k1
  exact ⟨z, z1, by rw [z2]; exact k2, fun i hi => z3 i (k3 i hi)⟩

/-- the event of a shared end point is reported -/
theorem reportEvent_shared [TreeShape α] {R : Rely α} (hR : R.holds) {P : Prop} {ops : SweepOps α ι σ} {T : σ → Prop} {Valid : σ → V2 α × ι → Prop}
    (ho : Ops ops L T Valid) (hl : Laws R L Lt N1 N2 N3 N4) {tab : σ} (ht : T tab) {key : V2 α × ι} (hv : Valid tab key)
    (hf : FiniteV2 key.1) (hK : R.K key.1) {e : SiteEvent} {r r' : SiteMap α ι (List Nat)} (hr : RI R P L N4 Valid tab r)
    (htwo : 2 ≤ e.drop.length + e.add.length) (h : reportEvent ops false tab key e r = .ok r') : Reported key.1 e.drop e.add r' := by
  unfold reportEvent at h
  rw [if_pos (by simp only [Bool.false_eq_true, if_false, decide_eq_true_eq]; omega)] at h
  obtain ⟨ls, hls⟩ : ∃ ls, ls = [e.drop, e.add, e.inter].filter (fun l => !l.isEmpty) := ⟨_, rfl⟩
  have hfl : ls.flatten = e.drop ++ (e.add ++ e.inter) := by rw [hls]; exact filter_flat _ _ _
  have hne : ls ≠ [] := by
    intro h
    rw [h] at hfl
    have : (e.drop ++ (e.add ++ e.inter)).length = 0 := by rw [← hfl]; rfl
    rw [List.length_append, List.length_append] at this
    omega
  rw [← hls] at h
  have hmem : ∀ i, i ∈ e.drop ∨ i ∈ e.add → i ∈ ls.flatten := by
    intro i hi
    rw [hfl]
    simp only [List.mem_append]
    tauto
  rcases reportFold_raw (R := R) hl.comparable (ho.keyPos tab ht key hv) hf (siteCmp_refl (hl.refl _ hf)) hr.fin
      (Or.inl ⟨hR, hK, hr.inv hR⟩) hne with
    ⟨pre, x, post, h1, h3, h4⟩ | ⟨pre, post, h1, -, h4⟩
  · rw [h4] at h
    cases h
    refine ⟨_, List.mem_append_right _ List.mem_cons_self, h3, fun i hi => ?_⟩
    simp only [List.mem_insertionSort, List.mem_append]
    exact Or.inr (hmem i hi)
  · rw [h4] at h
    cases h
    refine ⟨_, List.mem_append_right _ List.mem_cons_self, siteCmp_refl (hl.refl _ hf), fun i hi => ?_⟩
    simp only [List.mem_insertionSort]
    exact hmem i hi

/-- the loop reports all shared end points of the queue -/
theorem sweepLoop_shared [TreeShape α] {R : Rely α} (hR : R.holds) {ops : SweepOps α ι σ} {T : σ → Prop} {Valid : σ → V2 α × ι → Prop} (ho : Ops ops L T Valid)
    (hl : Laws R L Lt N1 N2 N3 N4) {order : Nat → List Nat → List Nat} (hord : ∀ n l, (order n l).Perm l) :
    ∀ (fuel : Nat) (s s' : SweepState α ι σ), SI R False L N2 N4 T Valid s →
    sweepLoop ops order false false fuel s = .ok s' → ResKeep s.result s'.result ∧
      ∀ x ∈ s.events, 2 ≤ x.2.drop.length + x.2.add.length → Reported x.1.1 x.2.drop x.2.add s'.result := by
  intro fuel
  induction fuel with
  | zero => intro s s' _ h; cases h
  | succ fuel ih =>
    intro s s' hs h
    unfold sweepLoop at h
    split at h
    · rename_i hev
      cases h
      refine ⟨ResKeep.refl _, ?_⟩
      rw [hev]
      simp
    · rename_i key e0 rest0 hev
      have hI := hs.ei
      rw [hev] at hI
      have hmem : ((key, e0) : (V2 α × ι) × SiteEvent) ∈ (key, e0) :: rest0 := List.mem_cons_self
      rcases pop_raw (ops := ops) hl hI with ⟨hn, -⟩ | ⟨e, rest, hp, hE, hI', -, hsame⟩
      · exact absurd hR hn
      obtain ⟨rfl, rfl⟩ := hsame hR
      rw [hev, hp] at h
      simp only [bind, Except.bind] at h
      have hs' : SI R False L N2 N4 T Valid { s with events := rest } := ⟨hI', hs.ri, hs.actN, hs.act⟩
      have hv := hI.valid _ hmem
      have hf := hI.fin _ hmem
      have hK := hI.keys hR _ hmem
      simp only at hv hf hK
      rcases handleEvent_raw ho hl (hord fuel) false hs' hv hf (fun _ => hK) hE (fun h => h.elim) with
        ⟨h0, -⟩ | ⟨h1, -⟩ | ⟨s1, h1, h2, -⟩
      · exact absurd hR h0
      · rw [h1] at h; cases h
      · rw [h1] at h
        simp only [Bool.and_false, Bool.false_and, Bool.false_eq_true, if_false] at h
        obtain ⟨k1, k2⟩ := handleEvent_keeps h1
        obtain ⟨j1, j2⟩ := ih s1 s' h2 h
        refine ⟨(reportEvent_keeps k2).trans j1, ?_⟩
        intro x hx htwo
        rw [hev] at hx
        rcases List.mem_cons.1 hx with rfl | hx
        · exact (reportEvent_shared hR ho hl hs'.ei.tab hv hf hK hs'.ri htwo k2).keep j1
        · obtain ⟨y, y1, y2, y3, y4⟩ := k1 x hx
          have := j2 y y1 (by rw [y3, y4]; exact htwo)
          rw [y2, y3, y4] at this
          exact this

/-- two lines in an event are at least two -/
theorem two_of {i j : Nat} (hij : i ≠ j) {d a : List Nat} (hi : i ∈ d ∨ i ∈ a) (hj : j ∈ d ∨ j ∈ a) : 2 ≤ d.length + a.length := by
  have h : [i, j] ⊆ d ++ a := by
    intro k hk
    rw [List.mem_append]
    simp only [List.mem_cons, List.not_mem_nil, or_false] at hk
    rcases hk with rfl | rfl
    · exact hi
    · exact hj
  have hn : [i, j].Nodup := by simpa using hij
  have := (hn.subperm h).length_le
  simpa using this

/-- two lines with a common end point in the queue are reported together: in an entry with a position that counts as the
same as the key `k` in `S`, which has the place of `p` -/
theorem loop_shared [TreeShape α] {R : Rely α} (hR : R.holds) {S : V2 α → Prop} {pos : V2 α → P} {ops : SweepOps α ι σ} {T : σ → Prop} {Valid : σ → V2 α × ι → Prop}
    (ho : Ops ops L T Valid) (hl : Laws R L Lt N1 N2 N3 N4) {order : Nat → List Nat → List Nat} (hord : ∀ n l, (order n l).Perm l)
    {fuel : Nat} {s s' : SweepState α ι σ} (hs : SI R False L N2 N4 T Valid s) (hn : Neat S pos s.events)
    (h : sweepLoop ops order false false fuel s = .ok s') {i j : Nat} (hij : i ≠ j) {p q : V2 α}
    (hi : At pos s.events i p) (hj : At pos s.events j q) (hpq : pos p = pos q) :
    ∃ k : V2 α, S k ∧ pos k = pos p ∧ ∃ y ∈ s'.result, siteCmp k y.1.1 = some .eq ∧ i ∈ y.2 ∧ j ∈ y.2 := by
  obtain ⟨x, hx, x1, x2⟩ := hi
  obtain ⟨y, hy, y1, y2⟩ := hj
  obtain rfl := hn.unique hx hy (by rw [x1, y1, hpq])
  obtain ⟨y, a, b, c⟩ := (sweepLoop_shared hR ho hl hord fuel s s' hs h).2 x hx (two_of hij x2 y2)
  exact ⟨x.1.1, hn.keys x hx, x1, y, a, b, c i x2, c j y2⟩

end

section
variable {Lt : V2 α → V2 α → Prop} {N1 N2 N3 N4 : Line2 α → V2 α → Prop}

/-- the plain version -/
theorem plain_shared [TreeShape α] {R : Rely α} (hR : R.holds) {S : V2 α → Prop} {pos : V2 α → P} (hsh : Sharp S pos) (input : List (Line2 α))
    (hl : Laws R (input.map stored) Lt N1 N2 N3 N4) (hS : ∀ l ∈ input, S l.start ∧ S l.end)
    {order : Nat → List Nat → List Nat} (hord : ∀ n l, (order n l).Perm l) {fuel : Nat} {r : List (V2 α × List Nat)}
    (h : sweepIntersections order fuel false false input = .ok r) {i j : Nat} (hij : i ≠ j) {l m : Line2 α}
    (hi : input[i]? = some l) (hj : input[j]? = some m) {p q : V2 α} (hp : p = l.start ∨ p = l.end) (hq : q = m.start ∨ q = m.end)
    (hpq : pos p = pos q) :
    ∃ k : V2 α, S k ∧ pos k = pos p ∧ ∃ y ∈ r, siteCmp k y.1 = some .eq ∧ i ∈ y.2 ∧ j ∈ y.2 := by
  obtain ⟨ev, h1, h2⟩ := withLines_raw hl 0 input { SweepData.default with ignoreEnds := false, stopAtFirst := false }
    (fun i l h => by simpa using h) ⟨by simp [SweepData.default], by simp [SweepData.default], by simp [SweepData.default],
      by simp [SweepData.default], by simp [SweepData.default, measure], fun hR => R.nil hR, by simp [SweepData.default]⟩ (by simp [SweepData.default]) (by simp)
  obtain ⟨n1, -, n3⟩ := withLines_neat hsh input 0 _ _ h1 ⟨by simp [SweepData.default], by simp [SweepData.default]⟩ hS
  have hs : SI R False (input.map stored) N2 N4 (fun _ : Unit => True) (fun _ _ => True) ⟨(), ev, [], []⟩ :=
    ⟨⟨trivial, h2.fin, fun _ _ => trivial, h2.ev, h2.inv, h2.keys⟩, ⟨by simp, by simp, by simp, by simp, by simp, fun hR => R.nil hR⟩, by simp, by simp⟩
  unfold sweepIntersections at h
  have h1 : withLines { SweepData.default with ignoreEnds := false, stopAtFirst := false } input = _ := h1
  rw [h1] at h
  simp only [bind, Except.bind] at h
  unfold sweepCompute at h
  simp only [SweepData.default] at h
  cases hloop : sweepLoop (plainOps (input.map stored)) order false false fuel ⟨(), ev, [], []⟩ with
  | error e => rw [hloop] at h; cases h
  | ok s' =>
    rw [hloop] at h
    cases h
    simp only at n1 n3
    have ati := n3 i l hi
    have atj := n3 j m hj
    rw [Nat.zero_add] at ati atj
    have ai : At pos ev i p := by rcases hp with rfl | rfl; exacts [ati.1, ati.2]
    have aj : At pos ev j q := by rcases hq with rfl | rfl; exacts [atj.1, atj.2]
    obtain ⟨k, k1, k2, y, a1, a2, a3⟩ := loop_shared hR (plainOps_raw (input.map stored)) hl hord hs n1 hloop hij ai aj hpq
    exact ⟨k, k1, k2, _, List.mem_map.2 ⟨y, a1, rfl⟩, a2, a3⟩

/-- the indexed version -/
theorem indexed_shared [TreeShape α] {R : Rely α} (hR : R.holds) {S : V2 α → Prop} {pos : V2 α → P} (hsh : Sharp S pos) (vs : List (V2 α)) (z : V2 α) (edges : List (Nat × Nat))
    (hin : ∀ e ∈ edges, e.1 < vs.length ∧ e.2 < vs.length) (hl : Laws R (edges.map (lineOf vs z)) Lt N1 N2 N3 N4)
    (hS : ∀ e ∈ edges, ∀ p, vs[e.1]? = some p ∨ vs[e.2]? = some p → S p)
    {order : Nat → List Nat → List Nat} (hord : ∀ n l, (order n l).Perm l) {fuel : Nat} {tab : List (V2 α)} {r : List (Nat × List Nat)}
    (h : indexedSweepIntersections order fuel false false vs edges = .ok (tab, r)) (hfuel : enough edges.length < fuel) {i j : Nat} (hij : i ≠ j) {e e' : Nat × Nat}
    (hi : edges[i]? = some e) (hj : edges[j]? = some e') {p q : V2 α} (hp : vs[e.1]? = some p ∨ vs[e.2]? = some p)
    (hq : vs[e'.1]? = some q ∨ vs[e'.2]? = some q) (hpq : pos p = pos q) :
    ∃ k : V2 α, S k ∧ pos k = pos p ∧
      ∃ y ∈ r, ∃ t, tab[y.1]? = some t ∧ FiniteV2 t ∧ siteCmp k t = some .eq ∧ i ∈ y.2 ∧ j ∈ y.2 := by
  obtain ⟨ev, h1, h2⟩ := withEdges_raw z hin hl 0 edges { IndexedSweepData.new vs with ignoreEnds := false, stopAtFirst := false }
    (fun i l h => by simpa using h) ⟨by simp [IndexedSweepData.new], by simp [IndexedSweepData.new], by simp [IndexedSweepData.new],
      by simp [IndexedSweepData.new], by simp [IndexedSweepData.new, measure], fun hR => R.nil hR, by simp [IndexedSweepData.new]⟩ (by simp [IndexedSweepData.new]) rfl (by simp)
  obtain ⟨n1, -, n3⟩ := withEdges_neat hsh vs edges 0 _ _ h1 rfl ⟨by simp [IndexedSweepData.new], by simp [IndexedSweepData.new]⟩ hS
  have hs : SI R False (edges.map (lineOf vs z)) N2 N4 (fun tab => vs <+: tab) (fun tab k => tab[k.2]? = some k.1) ⟨vs, ev, [], []⟩ :=
    ⟨⟨List.prefix_refl _, h2.fin, h2.good, h2.ev, h2.inv, h2.keys⟩, ⟨by simp, by simp, by simp, by simp, by simp, fun hR => R.nil hR⟩, by simp, by simp⟩
  have hlen : (edges.map (lineOf vs z)).length = edges.length := List.length_map _
  have hm : R.holds → measure (edges.map (lineOf vs z)) Lt ev < fuel := by
    intro _
    refine lt_of_le_of_lt h2.meas ?_
    have : base (edges.map (lineOf vs z)) = 4 * (edges.length * edges.length) + 1 := by unfold base; rw [hlen]
    rw [this, hlen]
    exact hfuel
  unfold indexedSweepIntersections at h
  have h1 : withEdges { IndexedSweepData.new vs with ignoreEnds := false, stopAtFirst := false } edges = _ := h1
  rw [h1] at h
  simp only [bind, Except.bind] at h
  unfold indexedSweepCompute at h
  simp only [IndexedSweepData.new] at h
  rcases sweepLoop_raw (indexedOps_raw vs z edges hin) hl hord false false fuel _ hs hm (fun h => h.elim) with ⟨hn, -⟩ | ⟨hloop, -⟩ | ⟨s', hloop, g2⟩
  · exact absurd hR hn
  · rw [hloop] at h; cases h
  · rw [hloop] at h
    cases h
    simp only at n1 n3
    have ai : At pos ev i p := by
      have := n3 i e hi p hp
      rwa [Nat.zero_add] at this
    have aj : At pos ev j q := by
      have := n3 j e' hj q hq
      rwa [Nat.zero_add] at this
    obtain ⟨k, k1, k2, y, a1, a2, a3⟩ := loop_shared hR (indexedOps_raw vs z edges hin) hl hord hs n1 hloop hij ai aj hpq
    exact ⟨k, k1, k2, _, List.mem_map.2 ⟨y, a1, rfl⟩, _, g2.ri.valid y a1, g2.ri.fin y a1, a2, a3⟩

end
end Verif.SweepRaw
