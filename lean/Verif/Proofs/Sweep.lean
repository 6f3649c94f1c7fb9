import Verif.Proofs.SweepTree
import Verif.Spec.Laws
import Verif.Spec.Sweep
import Verif.Proofs.Intersect
/-!
# The sweep line algorithm: invariants
-/
set_option linter.unusedSectionVars false
set_option linter.unusedVariables false
set_option linter.unusedSimpArgs false
namespace Verif.Sweep
open Verif Verif.Spec Verif.Model Verif.Proofs.Intersect

section
variable {K : Type} [Scalar K] [Field K] [LinearOrder K] [ExactScalar K] {ι σ V : Type}

/-! ## the order of the events -/

theorem ulps_v2 (a b : V2 K) : V2.ulpsEq a b = true ↔ a = b := by
  cases a; cases b; simp [exact_simp]

theorem before_trans {a b c : V2 K} (h1 : SweepBefore a b) (h2 : SweepBefore b c) : SweepBefore a c := by
  unfold SweepBefore at *
  rcases h1 with h1 | ⟨h1, h1'⟩ <;> rcases h2 with h2 | ⟨h2, h2'⟩
  · exact Or.inl (h1.trans h2)
  · exact Or.inl (h2 ▸ h1)
  · exact Or.inl (h1 ▸ h2)
  · exact Or.inr ⟨h1.trans h2, h1'.trans h2'⟩

theorem before_irrefl (a : V2 K) : ¬ SweepBefore a a := by
  unfold SweepBefore
  rintro (h | ⟨-, h⟩) <;> exact lt_irrefl _ h

theorem before_ne {a b : V2 K} (h : SweepBefore a b) : a ≠ b := by
  rintro rfl; exact before_irrefl _ h

theorem before_total (a b : V2 K) : SweepBefore a b ∨ a = b ∨ SweepBefore b a := by
  unfold SweepBefore
  rcases lt_trichotomy a.y b.y with h | h | h
  · exact Or.inl (Or.inl h)
  · rcases lt_trichotomy a.x b.x with h' | h' | h'
    · exact Or.inl (Or.inr ⟨h, h'⟩)
    · exact Or.inr (Or.inl (Verif.Proofs.Intersect.v2_ext h' h))
    · exact Or.inr (Or.inr (Or.inr ⟨h.symm, h'⟩))
  · exact Or.inr (Or.inr (Or.inl h))

theorem siteCmp_eq (a b : V2 K) : siteCmp a b =
    if a.y = b.y then (if a.x = b.x then some .eq else some (compare a.x b.x)) else some (compare a.y b.y) := by
  unfold siteCmp
  simp only [exact_simp]

theorem siteCmp_lt {a b : V2 K} (h : SweepBefore a b) : siteCmp a b = some .lt := by
  rw [siteCmp_eq]
  rcases h with h | ⟨h, h'⟩
  · rw [if_neg h.ne, compare_lt_iff_lt.2 h]
  · rw [if_pos h, if_neg h'.ne, compare_lt_iff_lt.2 h']

theorem siteCmp_gt {a b : V2 K} (h : SweepBefore b a) : siteCmp a b = some .gt := by
  rw [siteCmp_eq]
  rcases h with h | ⟨h, h'⟩
  · rw [if_neg h.ne', compare_gt_iff_gt.2 h]
  · rw [if_pos h.symm, if_neg h'.ne', compare_gt_iff_gt.2 h']

theorem siteCmp_self (a : V2 K) : siteCmp a a = some .eq := by
  rw [siteCmp_eq]; simp

/-- the keys of a map are strictly increasing -/
def Sorted (m : SiteMap K ι V) : Prop := m.Pairwise (fun a b => SweepBefore a.1.1 b.1.1)

theorem Sorted.key_inj {m : SiteMap K ι V} (h : Sorted m) {a b : (V2 K × ι) × V} (ha : a ∈ m) (hb : b ∈ m)
    (hk : a.1.1 = b.1.1) : a = b := by
  induction m with
  | nil => cases ha
  | cons e t ih =>
    obtain ⟨h1, h2⟩ := List.pairwise_cons.1 h
    rcases List.mem_cons.1 ha with ha' | ha' <;> rcases List.mem_cons.1 hb with hb' | hb'
    · rw [ha', hb']
    · exact absurd hk (before_ne (ha' ▸ h1 b hb'))
    · exact absurd hk.symm (before_ne (hb' ▸ h1 a ha'))
    · exact ih h2 ha' hb'

theorem siteCmp_some_eq {a b : V2 K} (h : siteCmp a b = some .eq) : a = b := by
  rcases before_total a b with g | g | g
  · rw [siteCmp_lt g] at h; cases h
  · exact g
  · rw [siteCmp_gt g] at h; cases h
theorem siteCmp_some_lt {a b : V2 K} (h : siteCmp a b = some .lt) : SweepBefore a b := by
  rcases before_total a b with g | g | g
  · exact g
  · rw [g, siteCmp_self] at h; cases h
  · rw [siteCmp_gt g] at h; cases h
theorem siteCmp_some_gt {a b : V2 K} (h : siteCmp a b = some .gt) : SweepBefore b a := by
  rcases before_total a b with g | g | g
  · rw [siteCmp_lt g] at h; cases h
  · rw [g, siteCmp_self] at h; cases h
  · exact g
theorem siteCmp_ne_none (a b : V2 K) : siteCmp a b ≠ none := by
  intro h
  rcases before_total a b with g | g | g
  · rw [siteCmp_lt g] at h; cases h
  · rw [g, siteCmp_self] at h; cases h
  · rw [siteCmp_gt g] at h; cases h

/-- in a sorted tree the emulated `pop_first` takes the first entry, whatever the shape of the tree -/
theorem popFirst_sorted [TreeShape K] {k : V2 K × ι} {v : V} {rest : SiteMap K ι V} (hs : Sorted ((k, v) :: rest)) :
    popFirst k ((k, v) :: rest) = .ok (v, rest) := by
  obtain ⟨h1, h2⟩ := List.pairwise_cons.1 hs
  rcases siteUpdate_split k ((k, v) :: rest) (fun e _ => siteCmp_ne_none _ _) with
    ⟨pre, e, post, hm, hcmp, hf, -⟩ | ⟨pre, post, hm, hl, hr, -, -⟩
  · cases pre with
    | nil =>
      obtain ⟨rfl, rfl⟩ := List.cons.inj hm
      exact popFirst_found (pre := []) hf
    | cons x pre =>
      obtain ⟨-, rfl⟩ := List.cons.inj hm
      exact absurd (siteCmp_some_eq hcmp) (before_ne (h1 e (by simp)))
  · exfalso
    cases pre with
    | nil =>
      have := hr (k, v) (by rw [List.nil_append] at hm; rw [← hm]; rfl)
      rw [siteCmp_self] at this
      cases this
    | cons x pre =>
      obtain ⟨hx, hrest⟩ := List.cons.inj hm
      have hlast := hl _ (List.getLast?_eq_some_getLast (List.cons_ne_nil x pre))
      have hmem : (x :: pre).getLast (List.cons_ne_nil x pre) ∈ x :: pre := List.getLast_mem _
      generalize (x :: pre).getLast (List.cons_ne_nil x pre) = y at hlast hmem
      rcases List.mem_cons.1 hmem with rfl | hy
      · rw [← hx, siteCmp_self] at hlast
        cases hlast
      · have := h1 y (by rw [hrest]; exact List.mem_append_left _ hy)
        rw [siteCmp_lt this] at hlast
        cases hlast

/-- what `siteUpdate` does to a sorted map, whatever the shape of the tree is -/
theorem siteUpdate_ok [TreeShape K] (k : V2 K × ι) (f : Option V → Except Err V) : ∀ (m : SiteMap K ι V), Sorted m →
    (∀ v, (v = none ∨ ∃ e ∈ m, e.1.1 = k.1 ∧ v = some e.2) → ∃ w, f v = .ok w) →
    ∃ m', siteUpdate k f m = .ok m' ∧ Sorted m' ∧
      (∀ e, e ∈ m' ↔ (e ∈ m ∧ e.1.1 ≠ k.1) ∨ (∃ e0 ∈ m, e0.1.1 = k.1 ∧ e.1 = e0.1 ∧ f (some e0.2) = .ok e.2) ∨
        ((∀ e0 ∈ m, e0.1.1 ≠ k.1) ∧ e.1 = k ∧ f none = .ok e.2)) := by
  intro m hs hf
  rcases siteUpdate_split k m (fun e _ => siteCmp_ne_none _ _) with ⟨pre, a, post, rfl, hcmp, -, hu⟩ | ⟨pre, post, rfl, hl, hr, -, hu⟩
  · have hka : a.1.1 = k.1 := (siteCmp_some_eq hcmp).symm
    obtain ⟨w, hw⟩ := hf (some a.2) (Or.inr ⟨a, by simp, hka, rfl⟩)
    rw [hu, hw]
    have h0 := hs
    unfold Sorted at h0
    rw [List.pairwise_append, List.pairwise_cons] at h0
    obtain ⟨h1, ⟨h2, h3⟩, h4⟩ := h0
    have hpre : ∀ e ∈ pre, e.1.1 ≠ k.1 := fun e he => hka ▸ before_ne (h4 e he a List.mem_cons_self)
    have hpost : ∀ e ∈ post, e.1.1 ≠ k.1 := fun e he => hka ▸ (before_ne (h2 e he)).symm
    refine ⟨_, rfl, ?_, ?_⟩
    · unfold Sorted
      rw [List.pairwise_append, List.pairwise_cons]
      refine ⟨h1, ⟨h2, h3⟩, fun x hx y hy => ?_⟩
      rcases List.mem_cons.1 hy with rfl | hy
      · exact h4 x hx a List.mem_cons_self
      · exact h4 x hx y (List.mem_cons_of_mem _ hy)
    · intro e
      constructor
      · intro he
        rcases List.mem_append.1 he with he | he
        · exact Or.inl ⟨by simp [he], hpre e he⟩
        · rcases List.mem_cons.1 he with rfl | he
          · exact Or.inr (Or.inl ⟨a, by simp, hka, rfl, hw⟩)
          · exact Or.inl ⟨by simp [he], hpost e he⟩
      · rintro (⟨he, hk⟩ | ⟨e0, he0, hk, hk', hw'⟩ | ⟨hn, -⟩)
        · rcases List.mem_append.1 he with he | he
          · exact List.mem_append_left _ he
          · rcases List.mem_cons.1 he with rfl | he
            · exact absurd hka hk
            · exact List.mem_append_right _ (List.mem_cons_of_mem _ he)
        · rcases List.mem_append.1 he0 with he | he
          · exact absurd hk (hpre _ he)
          · rcases List.mem_cons.1 he with rfl | he
            · rw [hw] at hw'
              have : e = (e0.1, w) := Prod.ext hk' (by simpa using hw'.symm)
              rw [this]
              simp
            · exact absurd hk (hpost _ he)
        · exact absurd hka (hn a (by simp))
  · obtain ⟨w, hw⟩ := hf none (Or.inl rfl)
    rw [hu, hw]
    have h0 := hs
    unfold Sorted at h0
    rw [List.pairwise_append] at h0
    obtain ⟨h1, h2, h3⟩ := h0
    have hpre : ∀ e ∈ pre, SweepBefore e.1.1 k.1 := by
      intro e he
      obtain ⟨l, x, rfl⟩ : ∃ l x, pre = l ++ [x] := by
        rcases List.eq_nil_or_concat pre with h | ⟨l, x, h⟩
        · rw [h] at he; cases he
        · exact ⟨l, x, by rw [h, List.concat_eq_append]⟩
      have hx := siteCmp_some_gt (hl x (by simp))
      rcases List.mem_append.1 he with he | he
      · exact before_trans ((List.pairwise_append.1 h1).2.2 e he x (by simp)) hx
      · rw [List.mem_singleton.1 he]; exact hx
    have hpost : ∀ e ∈ post, SweepBefore k.1 e.1.1 := by
      intro e he
      cases post with
      | nil => cases he
      | cons x l =>
        have hx := siteCmp_some_lt (hr x rfl)
        rcases List.mem_cons.1 he with rfl | he
        · exact hx
        · exact before_trans hx ((List.pairwise_cons.1 h2).1 e he)
    have hall : ∀ e ∈ pre ++ post, e.1.1 ≠ k.1 := by
      intro e he
      rcases List.mem_append.1 he with he | he
      · exact before_ne (hpre e he)
      · exact (before_ne (hpost e he)).symm
    refine ⟨_, rfl, ?_, ?_⟩
    · unfold Sorted
      rw [List.pairwise_append, List.pairwise_cons]
      refine ⟨h1, ⟨hpost, h2⟩, fun x hx y hy => ?_⟩
      rcases List.mem_cons.1 hy with rfl | hy
      · exact hpre x hx
      · exact h3 x hx y hy
    · intro e
      constructor
      · intro he
        rcases List.mem_append.1 he with he | he
        · exact Or.inl ⟨List.mem_append_left _ he, hall e (List.mem_append_left _ he)⟩
        · rcases List.mem_cons.1 he with rfl | he
          · exact Or.inr (Or.inr ⟨hall, rfl, rfl⟩)
          · exact Or.inl ⟨List.mem_append_right _ he, hall e (List.mem_append_right _ he)⟩
      · rintro (⟨he, -⟩ | ⟨e0, he0, hk, -⟩ | ⟨-, hk, hw'⟩)
        · rcases List.mem_append.1 he with he | he
          · exact List.mem_append_left _ he
          · exact List.mem_append_right _ (List.mem_cons_of_mem _ he)
        · exact absurd hk (hall e0 he0)
        · have : e = (k, w) := Prod.ext hk (by simpa using hw'.symm)
          rw [this]
          simp

/-! ## invariants -/

/-- the end point of a line that the sweep line meets first -/
def lo (l : Line2 K) : V2 K := if siteCmp l.start l.end = some .lt then l.start else l.end
/-- the other end point -/
def hi (l : Line2 K) : V2 K := if siteCmp l.start l.end = some .lt then l.end else l.start

theorem lo_hi (l : Line2 K) : (SweepBefore (lo l) (hi l) ∨ lo l = hi l) ∧
    ((lo l = l.start ∧ hi l = l.end) ∨ (lo l = l.end ∧ hi l = l.start)) := by
  unfold lo hi
  rcases before_total l.start l.end with h | h | h
  · rw [siteCmp_lt h]; simp [h]
  · rw [h, siteCmp_self]; simp [h]
  · rw [siteCmp_gt h]; simp [h]

theorem on_lo (l : Line2 K) : OnSegment2 l.start l.end (lo l) := by
  rcases (lo_hi l).2 with ⟨h, -⟩ | ⟨h, -⟩ <;> rw [h]
  · exact onSeg_start _ _
  · exact onSeg_end _ _

theorem on_hi (l : Line2 K) : OnSegment2 l.start l.end (hi l) := by
  rcases (lo_hi l).2 with ⟨-, h⟩ | ⟨-, h⟩ <;> rw [h]
  · exact onSeg_end _ _
  · exact onSeg_start _ _

theorem ends_iff (l : Line2 K) (p : V2 K) : (p = l.start ∨ p = l.end) ↔ (p = lo l ∨ p = hi l) := by
  rcases (lo_hi l).2 with ⟨h, h'⟩ | ⟨h, h'⟩ <;> rw [h, h']
  exact or_comm

/-- `p` is a point of the line, but not an end point -/
def Interior (l : Line2 K) (p : V2 K) : Prop := OnSegment2 l.start l.end p ∧ p ≠ l.start ∧ p ≠ l.end

/-- what the event at `p` contains -/
structure EvOk (L : List (Line2 K)) (p : V2 K) (e : SiteEvent) : Prop where
  add : ∀ i, i ∈ e.add ↔ ∃ l, L[i]? = some l ∧ lo l = p
  drop : ∀ i, i ∈ e.drop ↔ ∃ l, L[i]? = some l ∧ hi l = p
  inter : ∀ i ∈ e.inter, ∃ l, L[i]? = some l ∧ Interior l p
  addN : e.add.Nodup
  dropN : e.drop.Nodup
  interN : e.inter.Nodup
  two : e.add = [] → e.drop = [] → 2 ≤ e.inter.length

/-- What the proofs need to know about the two versions: `T` is an invariant of the vertex table, `Valid`
relates keys to it. -/
structure OpsOk (ops : SweepOps K ι σ) (L : List (Line2 K)) (T : σ → Prop) (Valid : σ → V2 K × ι → Prop) : Prop where
  line : ∀ tab, T tab → ∀ i l, L[i]? = some l → ops.line tab i = .ok l
  fresh : ∀ tab, T tab → ∀ p, T (ops.fresh tab p).2
  validNew : ∀ tab, T tab → ∀ p, Valid (ops.fresh tab p).2 (p, (ops.fresh tab p).1)
  validMono : ∀ tab, T tab → ∀ p k, Valid tab k → Valid (ops.fresh tab p).2 k
  keyPos : ∀ tab, T tab → ∀ k, Valid tab k → ops.keyPos tab k = .ok k.1

/-- the event queue when the positions in `After` are still to come -/
structure EInv (L : List (Line2 K)) (T : σ → Prop) (Valid : σ → V2 K × ι → Prop) (After : V2 K → Prop) (Q : List (V2 K))
    (s : σ × SiteMap K ι SiteEvent) : Prop where
  tab : T s.1
  sorted : Sorted s.2
  after : ∀ e ∈ s.2, After e.1.1
  valid : ∀ e ∈ s.2, Valid s.1 e.1
  ev : ∀ e ∈ s.2, EvOk L e.1.1 e.2
  ends : ∀ (i : Nat) (l : Line2 K), L[i]? = some l → ∀ p, (p = lo l ∨ p = hi l) → After p → ∃ e ∈ s.2, e.1.1 = p
  inQ : ∀ e ∈ s.2, e.1.1 ∈ Q

/-- the intersection that `find_new_events` looks for -/
def Cand (sweep : V2 K) (l m : Line2 K) (p : V2 K) : Prop :=
  l.end ≠ m.end ∧ ∃ it, l.intersectionPoint m = some it ∧ it.single = p ∧ SweepBefore sweep p

/-- the queue `s'` contains everything in `s` -/
def Grow (s s' : SiteMap K ι SiteEvent) : Prop :=
  ∀ e ∈ s, ∃ e' ∈ s', e'.1 = e.1 ∧ ∀ k ∈ e.2.inter, k ∈ e'.2.inter

theorem Grow.refl (s : SiteMap K ι SiteEvent) : Grow s s := fun e he => ⟨e, he, rfl, fun _ h => h⟩
theorem Grow.trans {s t u : SiteMap K ι SiteEvent} (h1 : Grow s t) (h2 : Grow t u) : Grow s u := by
  intro e he
  obtain ⟨e1, m1, k1, i1⟩ := h1 e he
  obtain ⟨e2, m2, k2, i2⟩ := h2 e1 m1
  exact ⟨e2, m2, k2.trans k1, fun k hk => i2 k (i1 k hk)⟩

/-- the queue has an event at `p` for the line -/
def Queued (s : SiteMap K ι SiteEvent) (p : V2 K) (i : Nat) : Prop := ∃ e ∈ s, e.1.1 = p ∧ i ∈ e.2.inter

theorem Queued.mono {s t : SiteMap K ι SiteEvent} (h : Grow s t) {p : V2 K} {i : Nat} (hq : Queued s p i) : Queued t p i := by
  obtain ⟨e, he, hp, hi⟩ := hq
  obtain ⟨e', he', hk, hi'⟩ := h e he
  exact ⟨e', he', by rw [hk]; exact hp, hi' i hi⟩

theorem dedupAdj_mem : ∀ (l : List Nat) (a : Nat), a ∈ dedupAdj l ↔ a ∈ l
  | [], a => by simp [dedupAdj]
  | [b], a => by simp [dedupAdj]
  | b :: c :: t, a => by
    unfold dedupAdj
    have := dedupAdj_mem (c :: t) a
    split
    · rename_i h; subst h; rw [this]; simp
    · rw [List.mem_cons, this, List.mem_cons (l := c :: t)]

theorem dedupAdj_nodup : ∀ (l : List Nat), l.Pairwise (· ≤ ·) → (dedupAdj l).Nodup
  | [], _ => by simp [dedupAdj]
  | [b], _ => by simp [dedupAdj]
  | b :: c :: t, h => by
    unfold dedupAdj
    obtain ⟨h1, h2⟩ := List.pairwise_cons.1 h
    have := dedupAdj_nodup (c :: t) h2
    split
    · exact this
    · rename_i hne
      rw [List.nodup_cons]
      refine ⟨fun hm => ?_, this⟩
      rw [dedupAdj_mem] at hm
      have h3 := h1 c List.mem_cons_self
      rcases List.mem_cons.1 hm with rfl | hm
      · exact hne rfl
      · have := (List.pairwise_cons.1 h2).1 b hm
        omega

theorem interiorLines_ok {ops : SweepOps K ι σ} {L : List (Line2 K)} {T : σ → Prop} {Valid : σ → V2 K × ι → Prop}
    (ho : OpsOk ops L T Valid) {tab : σ} (ht : T tab) (p : V2 K) : ∀ (is : List Nat), (∀ i ∈ is, i < L.length) →
    ∃ js, interiorLines ops tab p is = .ok js ∧ ∀ i, i ∈ js ↔ i ∈ is ∧ ∃ l, L[i]? = some l ∧ p ≠ l.start ∧ p ≠ l.end := by
  intro is
  induction is with
  | nil => intro _; exact ⟨[], rfl, by simp⟩
  | cons a t ih =>
    intro h
    obtain ⟨js, h1, h2⟩ := ih (fun i hi => h i (List.mem_cons_of_mem _ hi))
    have ha : L[a]? = some (L[a]'(h a List.mem_cons_self)) := List.getElem?_eq_getElem _
    have hl := ho.line tab ht a _ ha
    obtain ⟨l, hl'⟩ : ∃ l, l = L[a]'(h a List.mem_cons_self) := ⟨_, rfl⟩
    rw [← hl'] at hl ha
    unfold interiorLines
    rw [hl, h1]
    simp only [bind, Except.bind]
    refine ⟨_, rfl, ?_⟩
    intro i
    have hb : (p.ulpsEq l.start || p.ulpsEq l.end) = true ↔ ¬ (p ≠ l.start ∧ p ≠ l.end) := by
      rw [Bool.or_eq_true, ulps_v2, ulps_v2]; tauto
    by_cases hc : (p.ulpsEq l.start || p.ulpsEq l.end) = true
    · rw [if_pos hc, h2, List.mem_cons]
      constructor
      · rintro ⟨h3, h4⟩; exact ⟨Or.inr h3, h4⟩
      · rintro ⟨rfl | h3, l', h4, h5⟩
        · rw [ha] at h4
          simp only [Option.some_inj] at h4
          subst h4
          exact absurd h5 (hb.1 hc)
        · exact ⟨h3, l', h4, h5⟩
    · rw [if_neg hc, List.mem_cons, h2, List.mem_cons]
      constructor
      · rintro (rfl | ⟨h3, h4⟩)
        · exact ⟨Or.inl rfl, l, ha, by rw [hb] at hc; exact not_not.1 hc⟩
        · exact ⟨Or.inr h3, h4⟩
      · rintro ⟨h3 | h3, h4⟩
        · exact Or.inl h3
        · exact Or.inr ⟨h3, h4⟩


theorem addIntersection_ok {ops : SweepOps K ι σ} {L : List (Line2 K)} {T : σ → Prop} {Valid : σ → V2 K × ι → Prop}
    (ho : OpsOk ops L T Valid) {tab : σ} (ht : T tab) (p : V2 K) (is : List Nat) (hi : ∀ i ∈ is, i < L.length)
    (e : SiteEvent) :
    ∃ e', addIntersection ops tab p is (some e) = .ok e' ∧ e'.add = e.add ∧ e'.drop = e.drop ∧
      (∀ i, i ∈ e'.inter ↔ i ∈ e.inter ∨ (i ∈ is ∧ ∃ l, L[i]? = some l ∧ p ≠ l.start ∧ p ≠ l.end)) ∧
      (e.inter.Nodup → e'.inter.Nodup) := by
  obtain ⟨js, h1, h2⟩ := interiorLines_ok ho ht p is hi
  unfold addIntersection
  rw [h1]
  simp only [bind, Except.bind]
  by_cases hj : js.isEmpty = true
  · rw [if_pos hj]
    refine ⟨e, rfl, rfl, rfl, fun i => ?_, fun h => h⟩
    rw [← h2]
    rw [List.isEmpty_iff] at hj
    simp [hj]
  · rw [if_neg hj]
    refine ⟨_, rfl, rfl, rfl, fun i => ?_, fun _ => ?_⟩
    · simp only [dedupAdj_mem, List.mem_insertionSort, List.mem_append, h2]
    · exact dedupAdj_nodup _ (List.pairwise_insertionSort _ _)

/-- lines that the algorithm can intersect in two points of view: the reported point is common -/
def Sound (L : List (Line2 K)) : Prop :=
  ∀ l ∈ L, ∀ m ∈ L, ∀ it, l.intersectionPoint m = some it →
    OnSegment2 l.start l.end it.single ∧ OnSegment2 m.start m.end it.single

theorem findNewStep_ok [TreeShape K] {ops : SweepOps K ι σ} {L : List (Line2 K)} {T : σ → Prop} {Valid : σ → V2 K × ι → Prop}
    (ho : OpsOk ops L T Valid) (hL : Sound L) {sweep : V2 K} {Q : List (V2 K)}
    (hQ : ∀ l ∈ L, ∀ m ∈ L, ∀ p, Cand sweep l m p → p ∈ Q) {s : σ × SiteMap K ι SiteEvent}
    (h : EInv L T Valid (SweepBefore sweep) Q s) {i j : Nat} {l m : Line2 K} (hi : L[i]? = some l) (hj : L[j]? = some m)
    (hij : i ≠ j) :
    ∃ s', findNewStep ops sweep s (i, j) = .ok s' ∧ EInv L T Valid (SweepBefore sweep) Q s' ∧ Grow s.2 s'.2 ∧
      (∀ k, Valid s.1 k → Valid s'.1 k) ∧
      ∀ p, Cand sweep l m p → (p ≠ l.start → p ≠ l.end → Queued s'.2 p i) ∧ (p ≠ m.start → p ≠ m.end → Queued s'.2 p j) := by
  have hlm : l ∈ L := List.mem_of_getElem? hi
  have hmm : m ∈ L := List.mem_of_getElem? hj
  unfold findNewStep
  simp only
  rw [ho.line _ h.tab i l hi, ho.line _ h.tab j m hj]
  simp only [bind, Except.bind]
  by_cases he : l.end.ulpsEq m.end = true
  · rw [if_pos he]
    refine ⟨s, rfl, h, Grow.refl _, fun _ h => h, ?_⟩
    rintro p ⟨hne, -⟩
    exact absurd ((ulps_v2 _ _).1 he) hne
  · rw [if_neg he]
    have hne : l.end ≠ m.end := fun e => he ((ulps_v2 _ _).2 e)
    cases hint : l.intersectionPoint m with
    | none =>
      refine ⟨s, rfl, h, Grow.refl _, fun _ h => h, ?_⟩
      rintro p ⟨-, it, h1, -⟩
      rw [hint] at h1; cases h1
    | some it =>
      simp only
      rw [finite_true, finite_true]
      simp only [Bool.not_true, Bool.or_self, Bool.false_eq_true, if_false]
      obtain ⟨p, hp⟩ : ∃ p, it.single = p := ⟨_, rfl⟩
      rw [hp]
      have hcond : (Scalar.ge p.y sweep.y && !(Scalar.beq p.y sweep.y && Scalar.lt p.x sweep.x) && !p.ulpsEq sweep) = true ↔
          SweepBefore sweep p := by
        have e1 : (!p.ulpsEq sweep) = true ↔ p ≠ sweep := by
          rw [Bool.not_eq_true', ← Bool.not_eq_true, ulps_v2]
        have e2 : (!(Scalar.beq p.y sweep.y && Scalar.lt p.x sweep.x)) = true ↔ ¬ (p.y = sweep.y ∧ p.x < sweep.x) := by
          rw [Bool.not_eq_true', ← Bool.not_eq_true, Bool.and_eq_true, beq_decide, lt_decide, decide_eq_true_eq,
            decide_eq_true_eq]
        rw [Bool.and_eq_true, Bool.and_eq_true, e1, e2, ge_decide, decide_eq_true_eq]
        unfold SweepBefore
        constructor
        · rintro ⟨⟨h1, h2⟩, h3⟩
          rcases lt_or_eq_of_le h1 with h1 | h1
          · exact Or.inl h1
          · refine Or.inr ⟨h1, lt_of_le_of_ne (not_lt.1 fun h4 => h2 ⟨h1.symm, h4⟩) fun h4 => h3 (v2_ext h4.symm h1.symm)⟩
        · rintro (h1 | ⟨h1, h2⟩)
          · exact ⟨⟨h1.le, fun h2 => h1.ne' h2.1⟩, by rintro rfl; exact lt_irrefl _ h1⟩
          · exact ⟨⟨h1.le, fun h3 => not_lt.2 h2.le h3.2⟩, by rintro rfl; exact lt_irrefl _ h2⟩
      by_cases hb : SweepBefore sweep p
      · rw [if_pos (hcond.2 hb)]
        have hcand : Cand sweep l m p := ⟨hne, it, hint, hp, hb⟩
        obtain ⟨on1, on2⟩ := hL l hlm m hmm it hint
        rw [hp] at on1 on2
        obtain ⟨tab', htab'⟩ : ∃ t, (ops.fresh s.1 p).2 = t := ⟨_, rfl⟩
        have hT' : T tab' := htab' ▸ ho.fresh s.1 h.tab p
        have hidx : ∀ k ∈ [i, j], k < L.length := by
          intro k hk
          simp at hk
          rcases hk with rfl | rfl
          · exact (List.getElem?_eq_some_iff.1 hi).1
          · exact (List.getElem?_eq_some_iff.1 hj).1
        obtain ⟨m', g1, g2, g3⟩ := siteUpdate_ok (p, (ops.fresh s.1 p).1) (addIntersection ops tab' p [i, j]) s.2 h.sorted (by
          intro v hv
          rcases hv with rfl | ⟨e, he, -, rfl⟩
          · exact ⟨_, rfl⟩
          · obtain ⟨e', h1, -⟩ := addIntersection_ok ho hT' p [i, j] hidx e.2
            exact ⟨e', h1⟩)
        rw [htab', g1]
        simp only
        refine ⟨(tab', m'), rfl, ?_, ?_, ?_, ?_⟩
        · -- the invariant
          have hvm : ∀ k, Valid s.1 k → Valid tab' k := fun k hk => htab' ▸ ho.validMono s.1 h.tab p k hk
          have key : ∀ e ∈ m', (∃ e0 ∈ s.2, e.1 = e0.1) ∨ (e.1 = (p, (ops.fresh s.1 p).1)) := by
            intro e he
            rcases (g3 e).1 he with ⟨he, -⟩ | ⟨e0, he0, -, hk, -⟩ | ⟨-, hk, -⟩
            · exact Or.inl ⟨e, he, rfl⟩
            · exact Or.inl ⟨e0, he0, hk⟩
            · exact Or.inr hk
          refine ⟨hT', g2, ?_, ?_, ?_, ?_, ?_⟩
          · intro e he
            rcases key e he with ⟨e0, he0, hk⟩ | hk
            · rw [hk]; exact h.after e0 he0
            · rw [hk]; exact hb
          · intro e he
            rcases key e he with ⟨e0, he0, hk⟩ | hk
            · rw [hk]; exact hvm _ (h.valid e0 he0)
            · rw [hk]; exact htab' ▸ ho.validNew s.1 h.tab p
          · intro e he
            rcases (g3 e).1 he with ⟨he, -⟩ | ⟨e0, he0, hkp, hk, hf⟩ | ⟨hno, hk, hf⟩
            · exact h.ev e he
            · obtain ⟨e', h1, h2, h3, h4, h5⟩ := addIntersection_ok ho hT' p [i, j] hidx e0.2
              rw [h1] at hf
              simp only [Except.ok.injEq] at hf
              subst hf
              have hev := h.ev e0 he0
              rw [hk]
              rw [hkp] at hev ⊢
              refine ⟨by rw [h2]; exact hev.add, by rw [h3]; exact hev.drop, ?_, by rw [h2]; exact hev.addN,
                by rw [h3]; exact hev.dropN, h5 hev.interN, ?_⟩
              · intro k hk
                rcases (h4 k).1 hk with hk | ⟨hk, l', hl', hp1, hp2⟩
                · exact hev.inter k hk
                · refine ⟨l', hl', ?_, hp1, hp2⟩
                  simp at hk
                  rcases hk with rfl | rfl
                  · rw [hi] at hl'; simp only [Option.some_inj] at hl'; subst hl'; exact on1
                  · rw [hj] at hl'; simp only [Option.some_inj] at hl'; subst hl'; exact on2
              · intro ha hd
                rw [h2] at ha; rw [h3] at hd
                have := hev.two ha hd
                have hsub : e0.2.inter ⊆ e.2.inter := fun k hk => (h4 k).2 (Or.inl hk)
                exact this.trans (hev.interN.subperm hsub).length_le
            · have hf' : e.2 = ⟨[], [], [i, j]⟩ := by
                simp only [addIntersection, SiteEvent.empty, Except.ok.injEq] at hf
                exact hf.symm
              rw [hk, hf']
              -- no event at `p`, so `p` is not an end point
              have hnoend : ∀ (k : Nat) (l' : Line2 K), L[k]? = some l' → p ≠ lo l' ∧ p ≠ Sweep.hi l' := by
                intro k l' hl'
                constructor
                · intro hp'
                  obtain ⟨e0, he0, hk0⟩ := h.ends k l' hl' p (Or.inl hp') hb
                  exact hno e0 he0 hk0
                · intro hp'
                  obtain ⟨e0, he0, hk0⟩ := h.ends k l' hl' p (Or.inr hp') hb
                  exact hno e0 he0 hk0
              have hint' : ∀ (k : Nat) (l' : Line2 K), L[k]? = some l' → p ≠ l'.start ∧ p ≠ l'.end := by
                intro k l' hl'
                have := hnoend k l' hl'
                have h2 := ends_iff l' p
                tauto
              refine ⟨?_, ?_, ?_, by simp, by simp, by simp [hij], by simp⟩
              · intro k
                simp only [List.not_mem_nil, false_iff]
                rintro ⟨l', hl', hlo⟩
                exact (hnoend k l' hl').1 hlo.symm
              · intro k
                simp only [List.not_mem_nil, false_iff]
                rintro ⟨l', hl', hlo⟩
                exact (hnoend k l' hl').2 hlo.symm
              · intro k hk
                simp at hk
                rcases hk with rfl | rfl
                · exact ⟨l, hi, on1, hint' _ _ hi⟩
                · exact ⟨m, hj, on2, hint' _ _ hj⟩
          · intro k l' hl' q hq hqa
            obtain ⟨e0, he0, hk0⟩ := h.ends k l' hl' q hq hqa
            by_cases hqp : e0.1.1 = p
            · obtain ⟨e', h1, -⟩ := addIntersection_ok ho hT' p [i, j] hidx e0.2
              exact ⟨(e0.1, e'), (g3 _).2 (Or.inr (Or.inl ⟨e0, he0, hqp, rfl, h1⟩)), hk0⟩
            · exact ⟨e0, (g3 _).2 (Or.inl ⟨he0, hqp⟩), hk0⟩
          · intro e he
            rcases key e he with ⟨e0, he0, hk⟩ | hk
            · rw [hk]; exact h.inQ e0 he0
            · rw [hk]; exact hQ l hlm m hmm p hcand
        · intro e0 he0
          by_cases hqp : e0.1.1 = p
          · obtain ⟨e', h1, -, -, h4, -⟩ := addIntersection_ok ho hT' p [i, j] hidx e0.2
            exact ⟨(e0.1, e'), (g3 _).2 (Or.inr (Or.inl ⟨e0, he0, hqp, rfl, h1⟩)), rfl, fun k hk => (h4 k).2 (Or.inl hk)⟩
          · exact ⟨e0, (g3 _).2 (Or.inl ⟨he0, hqp⟩), rfl, fun _ h => h⟩
        · exact fun k hk => htab' ▸ ho.validMono s.1 h.tab p k hk
        · rintro q ⟨-, it', hint', hq, -⟩
          rw [hint] at hint'
          simp only [Option.some_inj] at hint'
          subst hint'
          rw [hp] at hq
          subst hq
          by_cases hex : ∃ e0 ∈ s.2, e0.1.1 = p
          · obtain ⟨e0, he0, hk0⟩ := hex
            obtain ⟨e', h1, -, -, h4, -⟩ := addIntersection_ok ho hT' p [i, j] hidx e0.2
            have hm' : (e0.1, e') ∈ m' := (g3 _).2 (Or.inr (Or.inl ⟨e0, he0, hk0, rfl, h1⟩))
            exact ⟨fun h1 h2 => ⟨_, hm', hk0, (h4 i).2 (Or.inr ⟨by simp, l, hi, h1, h2⟩)⟩,
              fun h1 h2 => ⟨_, hm', hk0, (h4 j).2 (Or.inr ⟨by simp, m, hj, h1, h2⟩)⟩⟩
          · have hm' : ((p, (ops.fresh s.1 p).1), (⟨[], [], [i, j]⟩ : SiteEvent)) ∈ m' :=
              (g3 _).2 (Or.inr (Or.inr ⟨fun e0 he0 hk => hex ⟨e0, he0, hk⟩, rfl, rfl⟩))
            exact ⟨fun _ _ => ⟨_, hm', rfl, by simp⟩, fun _ _ => ⟨_, hm', rfl, by simp⟩⟩
      · rw [if_neg (fun hc => hb (hcond.1 hc))]
        refine ⟨s, rfl, h, Grow.refl _, fun _ h => h, ?_⟩
        rintro q ⟨-, it', hint', hq, hq'⟩
        rw [hint] at hint'
        simp only [Option.some_inj] at hint'
        subst hint'
        rw [hp] at hq
        subst hq
        exact absurd hq' hb


theorem findNewFold_ok [TreeShape K] {ops : SweepOps K ι σ} {L : List (Line2 K)} {T : σ → Prop} {Valid : σ → V2 K × ι → Prop}
    (ho : OpsOk ops L T Valid) (hL : Sound L) {sweep : V2 K} {Q : List (V2 K)}
    (hQ : ∀ l ∈ L, ∀ m ∈ L, ∀ p, Cand sweep l m p → p ∈ Q) : ∀ (P : List (Nat × Nat)) (s : σ × SiteMap K ι SiteEvent),
    EInv L T Valid (SweepBefore sweep) Q s → (∀ ij ∈ P, ij.1 < L.length ∧ ij.2 < L.length ∧ ij.1 ≠ ij.2) →
    ∃ s', P.foldlM (findNewStep ops sweep) s = .ok s' ∧ EInv L T Valid (SweepBefore sweep) Q s' ∧ Grow s.2 s'.2 ∧
      (∀ k, Valid s.1 k → Valid s'.1 k) ∧
      ∀ i j, (i, j) ∈ P → ∀ l m, L[i]? = some l → L[j]? = some m → ∀ p, Cand sweep l m p →
        (p ≠ l.start → p ≠ l.end → Queued s'.2 p i) ∧ (p ≠ m.start → p ≠ m.end → Queued s'.2 p j) := by
  intro P
  induction P with
  | nil => intro s h _; exact ⟨s, rfl, h, Grow.refl _, fun _ h => h, fun _ _ h => by cases h⟩
  | cons ij P ih =>
    intro s h hP
    obtain ⟨i, j⟩ := ij
    obtain ⟨h1, h2, h3⟩ := hP (i, j) List.mem_cons_self
    simp only at h1 h2 h3
    have hi : L[i]? = some L[i] := List.getElem?_eq_getElem _
    have hj : L[j]? = some L[j] := List.getElem?_eq_getElem _
    obtain ⟨s1, g1, g2, g3, g4, g5⟩ := findNewStep_ok ho hL hQ h hi hj h3
    obtain ⟨s2, f1, f2, f3, f4, f5⟩ := ih s1 g2 (fun ij h => hP ij (List.mem_cons_of_mem _ h))
    refine ⟨s2, ?_, f2, g3.trans f3, fun k hk => f4 k (g4 k hk), ?_⟩
    · rw [List.foldlM_cons, g1]
      exact f1
    · intro i' j' hm l m hl hmm p hc
      rcases List.mem_cons.1 hm with heq | hm
      · simp only [Prod.mk.injEq] at heq
        obtain ⟨rfl, rfl⟩ := heq
        rw [hi] at hl; rw [hj] at hmm
        simp only [Option.some_inj] at hl hmm
        subst hl hmm
        obtain ⟨a, b⟩ := g5 p hc
        exact ⟨fun h1 h2 => (a h1 h2).mono f3, fun h1 h2 => (b h1 h2).mono f3⟩
      · exact f5 i' j' hm l m hl hmm p hc

/-- exactly the pairs in `P` have been tested -/
structure Exactly (L : List (Line2 K)) (sweep : V2 K) (P : List (Nat × Nat)) (s s' : SiteMap K ι SiteEvent) : Prop where
  here : ∀ i j l m p, (i, j) ∈ P → L[i]? = some l → L[j]? = some m → Cand sweep l m p → ∃ e ∈ s', e.1.1 = p
  only : ∀ e ∈ s', (∃ e0 ∈ s, e0.1.1 = e.1.1) ∨
    ∃ i j l m, (i, j) ∈ P ∧ L[i]? = some l ∧ L[j]? = some m ∧ Cand sweep l m e.1.1
  queued : ∀ p k, Queued s' p k → Queued s p k ∨ ∃ i j l m, (i, j) ∈ P ∧ L[i]? = some l ∧ L[j]? = some m ∧ Cand sweep l m p ∧
    ((k = i ∧ p ≠ l.start ∧ p ≠ l.end) ∨ (k = j ∧ p ≠ m.start ∧ p ≠ m.end))

theorem findNewStep_exact [TreeShape K] {ops : SweepOps K ι σ} {L : List (Line2 K)} {T : σ → Prop} {Valid : σ → V2 K × ι → Prop}
    (ho : OpsOk ops L T Valid) {sweep : V2 K} {Q : List (V2 K)} {s s' : σ × SiteMap K ι SiteEvent}
    (h : EInv L T Valid (SweepBefore sweep) Q s) {i j : Nat} {l m : Line2 K} (hi : L[i]? = some l) (hj : L[j]? = some m)
    (hs : findNewStep ops sweep s (i, j) = .ok s') (hg : Grow s.2 s'.2) : Exactly L sweep [(i, j)] s.2 s'.2 := by
  have hkeep : s' = s → (∀ p, ¬ Cand sweep l m p) → Exactly L sweep [(i, j)] s.2 s'.2 := by
    rintro rfl hn
    refine ⟨?_, fun e he => Or.inl ⟨e, he, rfl⟩, fun p k hq => Or.inl hq⟩
    intro i' j' l' m' p hm hl' hm' hc
    simp only [List.mem_singleton, Prod.mk.injEq] at hm
    obtain ⟨rfl, rfl⟩ := hm
    rw [hi] at hl'; rw [hj] at hm'
    simp only [Option.some_inj] at hl' hm'
    subst hl' hm'
    exact absurd hc (hn p)
  unfold findNewStep at hs
  simp only at hs
  rw [ho.line _ h.tab i l hi, ho.line _ h.tab j m hj] at hs
  simp only [bind, Except.bind] at hs
  by_cases he : l.end.ulpsEq m.end = true
  · rw [if_pos he] at hs
    simp only [Except.ok.injEq] at hs
    refine hkeep hs.symm ?_
    rintro p ⟨hne, -⟩
    exact absurd ((ulps_v2 _ _).1 he) hne
  · rw [if_neg he] at hs
    have hne : l.end ≠ m.end := fun e => he ((ulps_v2 _ _).2 e)
    cases hint : l.intersectionPoint m with
    | none =>
      rw [hint] at hs
      simp only [Except.ok.injEq] at hs
      refine hkeep hs.symm ?_
      rintro p ⟨-, it, h1, -⟩
      rw [hint] at h1; cases h1
    | some it =>
      rw [hint] at hs
      simp only at hs
      rw [finite_true, finite_true] at hs
      simp only [Bool.not_true, Bool.or_self, Bool.false_eq_true, if_false] at hs
      obtain ⟨p, hp⟩ : ∃ p, it.single = p := ⟨_, rfl⟩
      rw [hp] at hs
      have hcond : (Scalar.ge p.y sweep.y && !(Scalar.beq p.y sweep.y && Scalar.lt p.x sweep.x) && !p.ulpsEq sweep) = true ↔
          SweepBefore sweep p := by
        have e1 : (!p.ulpsEq sweep) = true ↔ p ≠ sweep := by
          rw [Bool.not_eq_true', ← Bool.not_eq_true, ulps_v2]
        have e2 : (!(Scalar.beq p.y sweep.y && Scalar.lt p.x sweep.x)) = true ↔ ¬ (p.y = sweep.y ∧ p.x < sweep.x) := by
          rw [Bool.not_eq_true', ← Bool.not_eq_true, Bool.and_eq_true, beq_decide, lt_decide, decide_eq_true_eq,
            decide_eq_true_eq]
        rw [Bool.and_eq_true, Bool.and_eq_true, e1, e2, ge_decide, decide_eq_true_eq]
        unfold SweepBefore
        constructor
        · rintro ⟨⟨h1, h2⟩, h3⟩
          rcases lt_or_eq_of_le h1 with h1 | h1
          · exact Or.inl h1
          · refine Or.inr ⟨h1, lt_of_le_of_ne (not_lt.1 fun h4 => h2 ⟨h1.symm, h4⟩) fun h4 => h3 (v2_ext h4.symm h1.symm)⟩
        · rintro (h1 | ⟨h1, h2⟩)
          · exact ⟨⟨h1.le, fun h2 => h1.ne' h2.1⟩, by rintro rfl; exact lt_irrefl _ h1⟩
          · exact ⟨⟨h1.le, fun h3 => not_lt.2 h2.le h3.2⟩, by rintro rfl; exact lt_irrefl _ h2⟩
      have huniq : ∀ q, Cand sweep l m q → q = p := by
        rintro q ⟨-, it', hint', hq, -⟩
        rw [hint] at hint'
        simp only [Option.some_inj] at hint'
        subst hint'
        exact hq.symm.trans hp
      by_cases hb : SweepBefore sweep p
      · rw [if_pos (hcond.2 hb)] at hs
        have hcand : Cand sweep l m p := ⟨hne, it, hint, hp, hb⟩
        obtain ⟨tab', htab'⟩ : ∃ t, (ops.fresh s.1 p).2 = t := ⟨_, rfl⟩
        have hT' : T tab' := htab' ▸ ho.fresh s.1 h.tab p
        have hidx : ∀ k ∈ [i, j], k < L.length := by
          intro k hk
          simp at hk
          rcases hk with rfl | rfl
          · exact (List.getElem?_eq_some_iff.1 hi).1
          · exact (List.getElem?_eq_some_iff.1 hj).1
        obtain ⟨m', g1, g2, g3⟩ := siteUpdate_ok (p, (ops.fresh s.1 p).1) (addIntersection ops tab' p [i, j]) s.2 h.sorted (by
          intro v hv
          rcases hv with rfl | ⟨e, he, -, rfl⟩
          · exact ⟨_, rfl⟩
          · obtain ⟨e', h1, -⟩ := addIntersection_ok ho hT' p [i, j] hidx e.2
            exact ⟨e', h1⟩)
        rw [htab', g1] at hs
        simp only [Except.ok.injEq] at hs
        subst hs
        have hat : ∃ e ∈ m', e.1.1 = p := by
          by_cases hex : ∃ e0 ∈ s.2, e0.1.1 = p
          · obtain ⟨e0, he0, hk0⟩ := hex
            obtain ⟨e', h1, -⟩ := addIntersection_ok ho hT' p [i, j] hidx e0.2
            exact ⟨(e0.1, e'), (g3 _).2 (Or.inr (Or.inl ⟨e0, he0, hk0, rfl, h1⟩)), hk0⟩
          · exact ⟨((p, (ops.fresh s.1 p).1), (⟨[], [], [i, j]⟩ : SiteEvent)),
              (g3 _).2 (Or.inr (Or.inr ⟨fun e0 he0 hk => hex ⟨e0, he0, hk⟩, rfl, rfl⟩)), rfl⟩
        have hmem : ∀ k, k ∈ [i, j] → ∀ lk, L[k]? = some lk → p ≠ lk.start → p ≠ lk.end →
            (k = i ∧ p ≠ l.start ∧ p ≠ l.end) ∨ (k = j ∧ p ≠ m.start ∧ p ≠ m.end) := by
          intro k hk lk hlk hp1 hp2
          simp at hk
          rcases hk with rfl | rfl
          · rw [hi] at hlk; simp only [Option.some_inj] at hlk; subst hlk; exact Or.inl ⟨rfl, hp1, hp2⟩
          · rw [hj] at hlk; simp only [Option.some_inj] at hlk; subst hlk; exact Or.inr ⟨rfl, hp1, hp2⟩
        refine ⟨?_, ?_, ?_⟩
        · intro i' j' l' m'' q hm hl' hm'' hc
          simp only [List.mem_singleton, Prod.mk.injEq] at hm
          obtain ⟨rfl, rfl⟩ := hm
          rw [hi] at hl'; rw [hj] at hm''
          simp only [Option.some_inj] at hl' hm''
          subst hl' hm''
          rw [huniq q hc]
          exact hat
        · intro e he
          rcases (g3 e).1 he with ⟨he, -⟩ | ⟨e0, he0, -, hk, -⟩ | ⟨-, hk, -⟩
          · exact Or.inl ⟨e, he, rfl⟩
          · exact Or.inl ⟨e0, he0, by rw [hk]⟩
          · refine Or.inr ⟨i, j, l, m, by simp, hi, hj, ?_⟩
            rw [hk]; exact hcand
        · rintro q k ⟨e, he, rfl, hk⟩
          rcases (g3 e).1 he with ⟨he, -⟩ | ⟨e0, he0, hkp, hke, hf⟩ | ⟨hno, hke, hf⟩
          · exact Or.inl ⟨e, he, rfl, hk⟩
          · obtain ⟨e', h1, h2, h3, h4, h5⟩ := addIntersection_ok ho hT' p [i, j] hidx e0.2
            rw [h1] at hf
            simp only [Except.ok.injEq] at hf
            subst hf
            rcases (h4 k).1 hk with hk | ⟨hk, lk, hlk, hp1, hp2⟩
            · exact Or.inl ⟨e0, he0, by rw [hke], hk⟩
            · refine Or.inr ⟨i, j, l, m, by simp, hi, hj, ?_, ?_⟩
              · rw [hke, hkp]; exact hcand
              · rw [hke, hkp]; exact hmem k hk lk hlk hp1 hp2
          · have hf' : e.2 = ⟨[], [], [i, j]⟩ := by
              simp only [addIntersection, SiteEvent.empty, Except.ok.injEq] at hf
              exact hf.symm
            rw [hf'] at hk
            simp only at hk
            have hnoend : ∀ (k : Nat) (l' : Line2 K), L[k]? = some l' → p ≠ l'.start ∧ p ≠ l'.end := by
              intro k l' hl'
              have h2 := ends_iff l' p
              have hlo : p ≠ lo l' := fun hp' => by
                obtain ⟨e0, he0, hk0⟩ := h.ends k l' hl' p (Or.inl hp') hb
                exact hno e0 he0 hk0
              have hhi : p ≠ Sweep.hi l' := fun hp' => by
                obtain ⟨e0, he0, hk0⟩ := h.ends k l' hl' p (Or.inr hp') hb
                exact hno e0 he0 hk0
              tauto
            refine Or.inr ⟨i, j, l, m, by simp, hi, hj, ?_, ?_⟩
            · rw [hke]; exact hcand
            · rw [hke]
              simp only
              have hkl := List.getElem?_eq_getElem (hidx k hk)
              exact hmem k hk _ hkl (hnoend k _ hkl).1 (hnoend k _ hkl).2
      · rw [if_neg (fun hc => hb (hcond.1 hc))] at hs
        simp only [Except.ok.injEq] at hs
        refine hkeep hs.symm ?_
        intro q hq
        have := huniq q hq
        subst this
        obtain ⟨-, -, -, -, hq'⟩ := hq
        exact hb hq'

theorem findNewFold_exact [TreeShape K] {ops : SweepOps K ι σ} {L : List (Line2 K)} {T : σ → Prop} {Valid : σ → V2 K × ι → Prop}
    (ho : OpsOk ops L T Valid) (hL : Sound L) {sweep : V2 K} {Q : List (V2 K)}
    (hQ : ∀ l ∈ L, ∀ m ∈ L, ∀ p, Cand sweep l m p → p ∈ Q) : ∀ (P : List (Nat × Nat)) (s s' : σ × SiteMap K ι SiteEvent),
    EInv L T Valid (SweepBefore sweep) Q s → (∀ ij ∈ P, ij.1 < L.length ∧ ij.2 < L.length ∧ ij.1 ≠ ij.2) →
    P.foldlM (findNewStep ops sweep) s = .ok s' → Exactly L sweep P s.2 s'.2 := by
  intro P
  induction P with
  | nil =>
    intro s s' h _ hs
    have hs : s = s' := by
      have : (Except.ok s : Except Err _) = .ok s' := hs
      simpa using this
    subst hs
    exact ⟨(by intro _ _ _ _ _ h; cases h), fun e he => Or.inl ⟨e, he, rfl⟩, fun p k hq => Or.inl hq⟩
  | cons ij P ih =>
    intro s s' h hP hs
    obtain ⟨i, j⟩ := ij
    obtain ⟨h1, h2, h3⟩ := hP (i, j) List.mem_cons_self
    simp only at h1 h2 h3
    have hi : L[i]? = some L[i] := List.getElem?_eq_getElem _
    have hj : L[j]? = some L[j] := List.getElem?_eq_getElem _
    obtain ⟨s1, g1, g2, g3, g4, g5⟩ := findNewStep_ok ho hL hQ h hi hj h3
    rw [List.foldlM_cons, g1] at hs
    obtain ⟨s2, f1, f2, f3, f4, f5⟩ := findNewFold_ok ho hL hQ P s1 g2 (fun ij h => hP ij (List.mem_cons_of_mem _ h))
    have hs : P.foldlM (findNewStep ops sweep) s1 = .ok s' := hs
    have hs2 : s2 = s' := by rw [f1] at hs; simpa using hs
    subst hs2
    have e1 := findNewStep_exact ho h hi hj g1 g3
    have e2 := ih s1 s2 g2 (fun ij h => hP ij (List.mem_cons_of_mem _ h)) hs
    refine ⟨?_, ?_, ?_⟩
    · intro i' j' l m p hm hl hmm hc
      rcases List.mem_cons.1 hm with heq | hm
      · obtain ⟨e, he, hp⟩ := e1.here i' j' l m p (by rw [heq]; simp) hl hmm hc
        obtain ⟨e', he', hk, -⟩ := f3 e he
        exact ⟨e', he', by rw [hk]; exact hp⟩
      · exact e2.here i' j' l m p hm hl hmm hc
    · intro e he
      rcases e2.only e he with ⟨e0, he0, hk⟩ | ⟨i', j', l, m, hm, h4⟩
      · rcases e1.only e0 he0 with ⟨e1, he1, hk1⟩ | ⟨i', j', l, m, hm, h4⟩
        · exact Or.inl ⟨e1, he1, hk1.trans hk⟩
        · refine Or.inr ⟨i', j', l, m, ?_, ?_⟩
          · simp only [List.mem_singleton] at hm
            rw [hm]; exact List.mem_cons_self
          · rw [← hk]; exact h4
      · exact Or.inr ⟨i', j', l, m, List.mem_cons_of_mem _ hm, h4⟩
    · intro p k hq
      rcases e2.queued p k hq with hq | ⟨i', j', l, m, hm, h4⟩
      · rcases e1.queued p k hq with hq | ⟨i', j', l, m, hm, h4⟩
        · exact Or.inl hq
        · refine Or.inr ⟨i', j', l, m, ?_, h4⟩
          simp only [List.mem_singleton] at hm
          rw [hm]; exact List.mem_cons_self
      · exact Or.inr ⟨i', j', l, m, List.mem_cons_of_mem _ hm, h4⟩

/-! ## the candidates -/

/-- the pure version of `neighbourStep` -/
def nbStep (L : List (Line2 K)) (sweep : V2 K) (e : SiteEvent) (m : MinMax K) (i : Nat) : MinMax K :=
  if e.inter.contains i then m
  else match L[i]? with
    | none => m
    | some l =>
      match sweeplineIntersection sweep l with
      | none => m
      | some (x, slope) => m.update sweep.x x slope i

theorem neighbourFold_ok {ops : SweepOps K ι σ} {L : List (Line2 K)} {T : σ → Prop} {Valid : σ → V2 K × ι → Prop}
    (ho : OpsOk ops L T Valid) {tab : σ} (ht : T tab) (sweep : V2 K) (e : SiteEvent) : ∀ (is : List Nat) (m : MinMax K),
    (∀ i ∈ is, i < L.length) → is.foldlM (neighbourStep ops tab sweep e) m = .ok (is.foldl (nbStep L sweep e) m) := by
  intro is
  induction is with
  | nil => intro m _; rfl
  | cons i is ih =>
    intro m h
    rw [List.foldlM_cons, List.foldl_cons]
    have hi : L[i]? = some (L[i]'(h i List.mem_cons_self)) := List.getElem?_eq_getElem _
    have : neighbourStep ops tab sweep e m i = .ok (nbStep L sweep e m i) := by
      unfold neighbourStep nbStep
      rw [ho.line tab ht i _ hi, hi]
      simp only [bind, Except.bind]
      split
      · rfl
      · cases sweeplineIntersection sweep (L[i]'(h i List.mem_cons_self)) with
        | none => rfl
        | some v => rfl
    rw [this]
    exact ih _ (fun i hi => h i (List.mem_cons_of_mem _ hi))

/-- the pure version of `connectedStep` -/
def connStep (L : List (Line2 K)) (m : MinMaxSlope K) (i : Nat) : MinMaxSlope K :=
  match L[i]? with
  | none => m
  | some l => m.updateBoth l i

theorem connectedFold_ok {ops : SweepOps K ι σ} {L : List (Line2 K)} {T : σ → Prop} {Valid : σ → V2 K × ι → Prop}
    (ho : OpsOk ops L T Valid) {tab : σ} (ht : T tab) : ∀ (is : List Nat) (m : MinMaxSlope K),
    (∀ i ∈ is, i < L.length) → is.foldlM (connectedStep ops tab) m = .ok (is.foldl (connStep L) m) := by
  intro is
  induction is with
  | nil => intro m _; rfl
  | cons i is ih =>
    intro m h
    rw [List.foldlM_cons, List.foldl_cons]
    have hi : L[i]? = some (L[i]'(h i List.mem_cons_self)) := List.getElem?_eq_getElem _
    have : connectedStep ops tab m i = .ok (connStep L m i) := by
      unfold connectedStep connStep
      rw [ho.line tab ht i _ hi, hi]
      rfl
    rw [this]
    exact ih _ (fun i hi => h i (List.mem_cons_of_mem _ hi))

theorem updateLeft_cand (m : MinMaxSlope K) (c : Bool) (x : K) (i k : Nat) (h : k ∈ (m.updateLeft c x i).candLeft) :
    k ∈ m.candLeft ∨ k = i := by
  unfold MinMaxSlope.updateLeft at h
  cases c <;> cases hb : m.bestLeft <;> simp [hb] at h <;> (try split at h) <;> (try split at h) <;> (try simp at h) <;> tauto

theorem updateLeft_right (m : MinMaxSlope K) (c : Bool) (x : K) (i : Nat) :
    (m.updateLeft c x i).candRight = m.candRight := by
  unfold MinMaxSlope.updateLeft
  cases c <;> cases hb : m.bestLeft <;> simp [hb] <;> split <;> (try split) <;> simp

theorem updateRight_cand (m : MinMaxSlope K) (c : Bool) (x : K) (i k : Nat) (h : k ∈ (m.updateRight c x i).candRight) :
    k ∈ m.candRight ∨ k = i := by
  unfold MinMaxSlope.updateRight at h
  cases c <;> cases hb : m.bestRight <;> simp [hb] at h <;> (try split at h) <;> (try split at h) <;> (try simp at h) <;> tauto

theorem updateRight_left (m : MinMaxSlope K) (c : Bool) (x : K) (i : Nat) :
    (m.updateRight c x i).candLeft = m.candLeft := by
  unfold MinMaxSlope.updateRight
  cases c <;> cases hb : m.bestRight <;> simp [hb] <;> split <;> (try split) <;> simp

theorem connFold_cand (L : List (Line2 K)) : ∀ (is : List Nat) (m : MinMaxSlope K) (k : Nat),
    (k ∈ (is.foldl (connStep L) m).candLeft → k ∈ m.candLeft ∨ k ∈ is) ∧
    (k ∈ (is.foldl (connStep L) m).candRight → k ∈ m.candRight ∨ k ∈ is) := by
  intro is
  induction is with
  | nil => intro m k; exact ⟨Or.inl, Or.inl⟩
  | cons i is ih =>
    intro m k
    rw [List.foldl_cons]
    obtain ⟨h1, h2⟩ := ih (connStep L m i) k
    have hs : (k ∈ (connStep L m i).candLeft → k ∈ m.candLeft ∨ k = i) ∧
        (k ∈ (connStep L m i).candRight → k ∈ m.candRight ∨ k = i) := by
      unfold connStep
      cases L[i]? with
      | none => exact ⟨Or.inl, Or.inl⟩
      | some l =>
        simp only [MinMaxSlope.updateBoth]
        constructor
        · intro h
          rw [updateRight_left] at h
          exact updateLeft_cand _ _ _ _ _ h
        · intro h
          rcases updateRight_cand _ _ _ _ _ h with h | h
          · rw [updateLeft_right] at h; exact Or.inl h
          · exact Or.inr h
    rw [List.mem_cons]
    exact ⟨fun h => by rcases h1 h with h | h; (· rcases hs.1 h with h | h <;> tauto); (· tauto),
      fun h => by rcases h2 h with h | h; (· rcases hs.2 h with h | h <;> tauto); (· tauto)⟩

/-- line `i` meets the sweep line at `x` -/
def CrossesAt (L : List (Line2 K)) (sweep : V2 K) (i : Nat) (x slope : K) : Prop :=
  ∃ l, L[i]? = some l ∧ sweeplineIntersection sweep l = some (x, slope)

/-- the candidates to the left are lines to the left, and so on -/
structure NbOk (L : List (Line2 K)) (sweep : V2 K) (e : SiteEvent) (is : List Nat) (m : MinMax K) : Prop where
  left : ∀ i ∈ m.slope.candLeft, i ∈ is ∧ i ∉ e.inter ∧ ∃ x s, CrossesAt L sweep i x s ∧ x < sweep.x
  right : ∀ i ∈ m.slope.candRight, i ∈ is ∧ i ∉ e.inter ∧ ∃ x s, CrossesAt L sweep i x s ∧ sweep.x < x

theorem update_cand (m : MinMax K) (px x sl : K) (i k : Nat) :
    (k ∈ (m.update px x sl i).slope.candLeft → k ∈ m.slope.candLeft ∨ (k = i ∧ x < px)) ∧
    (k ∈ (m.update px x sl i).slope.candRight → k ∈ m.slope.candRight ∨ (k = i ∧ px < x)) := by
  unfold MinMax.update
  rw [lt_decide, gt_decide]
  simp only [decide_eq_true_eq]
  by_cases h1 : x < px
  · rw [if_pos h1]
    have key : ∀ c, (k ∈ (m.slope.updateLeft c sl i).candLeft → k ∈ m.slope.candLeft ∨ (k = i ∧ x < px)) ∧
        (k ∈ (m.slope.updateLeft c sl i).candRight → k ∈ m.slope.candRight ∨ (k = i ∧ px < x)) := by
      intro c
      constructor
      · intro h
        rcases updateLeft_cand _ _ _ _ _ h with h | h
        · exact Or.inl h
        · exact Or.inr ⟨h, h1⟩
      · intro h
        rw [updateLeft_right] at h
        exact Or.inl h
    cases m.bestLeft with
    | none => exact key false
    | some cur =>
      simp only
      split
      · exact key false
      · split
        · exact key true
        · exact ⟨Or.inl, Or.inl⟩
  · rw [if_neg h1]
    by_cases h2 : px < x
    · rw [if_pos h2]
      have key : ∀ c, (k ∈ (m.slope.updateRight c sl i).candLeft → k ∈ m.slope.candLeft ∨ (k = i ∧ x < px)) ∧
          (k ∈ (m.slope.updateRight c sl i).candRight → k ∈ m.slope.candRight ∨ (k = i ∧ px < x)) := by
        intro c
        constructor
        · intro h
          rw [updateRight_left] at h
          exact Or.inl h
        · intro h
          rcases updateRight_cand _ _ _ _ _ h with h | h
          · exact Or.inl h
          · exact Or.inr ⟨h, h2⟩
      cases m.bestRight with
      | none => exact key false
      | some cur =>
        simp only
        split
        · exact key false
        · split
          · exact key true
          · exact ⟨Or.inl, Or.inl⟩
    · rw [if_neg h2]
      exact ⟨Or.inl, Or.inl⟩

theorem nbFold_ok (L : List (Line2 K)) (sweep : V2 K) (e : SiteEvent) (all : List Nat) : ∀ (is : List Nat) (m : MinMax K),
    (∀ i ∈ is, i ∈ all) → NbOk L sweep e all m → NbOk L sweep e all (is.foldl (nbStep L sweep e) m) := by
  intro is
  induction is with
  | nil => intro m _ h; exact h
  | cons i is ih =>
    intro m hs h
    rw [List.foldl_cons]
    refine ih _ (fun k hk => hs k (List.mem_cons_of_mem _ hk)) ?_
    unfold nbStep
    by_cases hc : e.inter.contains i = true
    · rw [if_pos hc]; exact h
    · rw [if_neg hc]
      have hni : i ∉ e.inter := by simpa using hc
      cases hl : L[i]? with
      | none => exact h
      | some l =>
        simp only
        cases hx : sweeplineIntersection sweep l with
        | none => exact h
        | some v =>
          obtain ⟨x, sl⟩ := v
          simp only
          refine ⟨fun k hk => ?_, fun k hk => ?_⟩
          · rcases (update_cand m _ _ _ _ _).1 hk with hk | ⟨rfl, hk⟩
            · exact h.left k hk
            · exact ⟨hs k List.mem_cons_self, hni, x, sl, ⟨l, hl, hx⟩, by assumption⟩
          · rcases (update_cand m _ _ _ _ _).2 hk with hk | ⟨rfl, hk⟩
            · exact h.right k hk
            · exact ⟨hs k List.mem_cons_self, hni, x, sl, ⟨l, hl, hx⟩, by assumption⟩

/-- the pairs that `handle_event` tests for intersections -/
def sweepPairs (L : List (Line2 K)) (sweep : V2 K) (e : SiteEvent) (is : List Nat) : List (Nat × Nat) :=
  let m := is.foldl (nbStep L sweep e) MinMax.new
  if e.inter.length + e.add.length = 0 then
    m.slope.candLeft.flatMap (fun l => m.slope.candRight.map (fun r => (l, r)))
  else
    let c := (e.add ++ e.inter).foldl (connStep L) MinMaxSlope.new
    m.slope.candLeft.flatMap (fun l => c.candLeft.map (fun r => (l, r))) ++
      m.slope.candRight.flatMap (fun l => c.candRight.map (fun r => (l, r)))

end
end Verif.Sweep
