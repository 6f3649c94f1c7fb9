import Verif.Proofs.SweepComplete
/-!
# The sweep line algorithm in general position: the invariant about neighbours
-/
set_option linter.unusedSectionVars false
set_option linter.unusedVariables false
set_option linter.unusedSimpArgs false
namespace Verif.Sweep
open Verif Verif.Spec Verif.Model Verif.Proofs.Intersect

section
variable {K : Type} [Scalar K] [Field K] [LinearOrder K] [ExactScalar K] [ExactSqrt K] {ι σ V : Type}

theorem exists_first (P : V2 K → Prop) : ∀ (Q : List (V2 K)), (∃ p ∈ Q, P p) →
    ∃ p ∈ Q, P p ∧ ∀ q ∈ Q, P q → q = p ∨ SweepBefore p q := by
  intro Q
  induction Q with
  | nil => rintro ⟨p, hp, -⟩; cases hp
  | cons a Q ih =>
    intro h
    by_cases hQ : ∃ p ∈ Q, P p
    · obtain ⟨p, hp, hP, hmin⟩ := ih hQ
      by_cases ha : P a ∧ SweepBefore a p
      · refine ⟨a, List.mem_cons_self, ha.1, fun q hq hPq => ?_⟩
        rcases List.mem_cons.1 hq with rfl | hq
        · exact Or.inl rfl
        · rcases hmin q hq hPq with rfl | h
          · exact Or.inr ha.2
          · exact Or.inr (before_trans ha.2 h)
      · refine ⟨p, List.mem_cons_of_mem _ hp, hP, fun q hq hPq => ?_⟩
        rcases List.mem_cons.1 hq with rfl | hq
        · rcases before_total q p with h | h | h
          · exact absurd ⟨hPq, h⟩ ha
          · exact Or.inl h
          · exact Or.inr h
        · exact hmin q hq hPq
    · obtain ⟨p, hp, hP⟩ := h
      rcases List.mem_cons.1 hp with rfl | hp
      · refine ⟨p, List.mem_cons_self, hP, fun q hq hPq => ?_⟩
        rcases List.mem_cons.1 hq with rfl | hq
        · exact Or.inl rfl
        · exact absurd ⟨q, hq, hPq⟩ hQ
      · exact absurd ⟨p, hp, hP⟩ hQ

theorem exists_least {O : Type} [LinearOrder O] (P : Nat → Prop) (f : Nat → O) : ∀ (Q : List Nat), (∃ p ∈ Q, P p) →
    ∃ p ∈ Q, P p ∧ ∀ q ∈ Q, P q → f p ≤ f q := by
  intro Q
  induction Q with
  | nil => rintro ⟨p, hp, -⟩; cases hp
  | cons a Q ih =>
    intro h
    by_cases hQ : ∃ p ∈ Q, P p
    · obtain ⟨p, hp, hP, hmin⟩ := ih hQ
      by_cases ha : P a ∧ f a < f p
      · refine ⟨a, List.mem_cons_self, ha.1, fun q hq hPq => ?_⟩
        rcases List.mem_cons.1 hq with rfl | hq
        · exact le_rfl
        · exact ha.2.le.trans (hmin q hq hPq)
      · refine ⟨p, List.mem_cons_of_mem _ hp, hP, fun q hq hPq => ?_⟩
        rcases List.mem_cons.1 hq with rfl | hq
        · exact not_lt.1 fun h => ha ⟨hPq, h⟩
        · exact hmin q hq hPq
    · obtain ⟨p, hp, hP⟩ := h
      rcases List.mem_cons.1 hp with rfl | hp
      · refine ⟨p, List.mem_cons_self, hP, fun q hq hPq => ?_⟩
        rcases List.mem_cons.1 hq with rfl | hq
        · exact le_rfl
        · exact absurd ⟨q, hq, hPq⟩ hQ
      · exact absurd ⟨p, hp, hP⟩ hQ

variable {L : List (Line2 K)}

theorem notEnd_of_strict {l : Line2 K} {p : V2 K} (h1 : (lo l).y < p.y) (h2 : p.y < (hi l).y) : ¬ IsEnd l p := by
  rw [IsEnd, ends_iff]
  rintro (rfl | rfl)
  · exact lt_irrefl _ h1
  · exact lt_irrefl _ h2

/-- the common point is what `intersectionPoint` finds -/
theorem cross_single (gp : SweepPosition L) {i j : Nat} (hij : i ≠ j) {l m : Line2 K} (hl : L[i]? = some l)
    (hm : L[j]? = some m) {p : V2 K} (h1 : IsOn l p) (h2 : IsOn m p) :
    ∃ it, l.intersectionPoint m = some it ∧ it.single = p := by
  have hd := (intersectionPoint_denotes l m p).2 ⟨h1, h2⟩
  have hc : Common L i j p := ⟨l, m, hl, hm, h1, h2⟩
  cases hit : l.intersectionPoint m with
  | none => rw [hit] at hd; exact hd.elim
  | some it =>
    refine ⟨it, rfl, ?_⟩
    have hs := sound_of L l (List.mem_of_getElem? hl) m (List.mem_of_getElem? hm) it hit
    exact gp.once i j _ _ hij ⟨l, m, hl, hm, hs.1, hs.2⟩ hc

theorem cross_site (gp : SweepPosition L) {i j : Nat} (hij : i ≠ j) {l m : Line2 K} (hl : L[i]? = some l)
    (hm : L[j]? = some m) {p : V2 K} (h1 : IsOn l p) (h2 : IsOn m p) : p ∈ sites L := by
  obtain ⟨it, h3, h4⟩ := cross_single gp hij hl hm h1 h2
  unfold sites
  refine List.mem_append_right _ (List.mem_flatMap.2 ⟨l, List.mem_of_getElem? hl, List.mem_filterMap.2 ⟨m, List.mem_of_getElem? hm, ?_⟩⟩)
  rw [h3, Option.map_some, h4]

/-- line `i` is on the sweep line just above `k` -/
structure Act (L : List (Line2 K)) (k : V2 K) (i : Nat) (l : Line2 K) : Prop where
  get : L[i]? = some l
  lo : ¬ SweepBefore k (lo l)
  hi : SweepBefore k (hi l)

theorem Act.mem {k : V2 K} {i : Nat} {l : Line2 K} (h : Act L k i l) : l ∈ L := List.mem_of_getElem? h.get

theorem end_special {l : Line2 K} (hl : l ∈ L) : Special L (lo l) ∧ Special L (hi l) := by
  constructor
  · exact Or.inl ⟨l, hl, (ends_iff l _).2 (Or.inl rfl)⟩
  · exact Or.inl ⟨l, hl, (ends_iff l _).2 (Or.inr rfl)⟩

theorem before_y {p q : V2 K} (h : SweepBefore p q) : p.y ≤ q.y := by
  rcases h with h | ⟨h, -⟩
  · exact h.le
  · exact h.le

theorem Act.heights {k : V2 K} {i : Nat} {l : Line2 K} (h : Act L k i l) :
    (Sweep.lo l).y ≤ k.y ∧ k.y ≤ (Sweep.hi l).y := by
  constructor
  · by_contra hc
    exact h.lo (Or.inl (not_le.1 hc))
  · exact before_y h.hi

theorem special_before (gp : SweepPosition L) {p q : V2 K} {i j : Nat} (hij : i ≠ j) (hp : Special L p)
    (hq : Common L i j q) (h : SweepBefore p q) : p.y < q.y := by
  rcases h with h | ⟨h, h'⟩
  · exact h
  · rw [gp.heights i j q p hij hq hp h.symm] at h'
    exact absurd h' (lt_irrefl _)

theorem common_at (gp : SweepPosition L) {i j : Nat} {l m : Line2 K} (hl : L[i]? = some l) (hm : L[j]? = some m) {y : K}
    (h1 : (lo l).y ≤ y ∧ y ≤ (hi l).y) (h2 : (lo m).y ≤ y ∧ y ≤ (hi m).y) (he : xAt l y = xAt m y) :
    IsOn l ⟨xAt l y, y⟩ ∧ IsOn m ⟨xAt l y, y⟩ := by
  refine ⟨on_of_between (gp.slanted l (List.mem_of_getElem? hl)) h1.1 h1.2, ?_⟩
  rw [he]
  exact on_of_between (gp.slanted m (List.mem_of_getElem? hm)) h2.1 h2.2

/-- two lines on the sweep line are in different places just above -/
theorem pos_ne (gp : SweepPosition L) {k : V2 K} {i j : Nat} (hij : i ≠ j) {l m : Line2 K}
    (hl : Act L k i l) (hm : Act L k j m) (a2 : k.y < (Sweep.hi l).y) (b2 : k.y < (Sweep.hi m).y) : pos k.y l ≠ pos k.y m := by
  intro h
  unfold pos at h
  have h' : (xAt l k.y, slp l) = (xAt m k.y, slp m) := h
  rw [Prod.mk.injEq] at h'
  obtain ⟨e1, e2⟩ := h'
  obtain ⟨a1, -⟩ := hl.heights
  obtain ⟨b1, -⟩ := hm.heights
  obtain ⟨y, hy⟩ : ∃ y, y = min (hi l).y (hi m).y := ⟨_, rfl⟩
  have hky : k.y < y := by rw [hy]; exact lt_min a2 b2
  have c1 := common_at gp hl.get hm.get (y := k.y) ⟨a1, a2.le⟩ ⟨b1, b2.le⟩ e1
  have e3 : xAt l y = xAt m y := by rw [xAt_shift l k.y, xAt_shift m k.y, e1, e2]
  have c2 := common_at gp hl.get hm.get (y := y) ⟨a1.trans hky.le, by rw [hy]; exact min_le_left _ _⟩
    ⟨b1.trans hky.le, by rw [hy]; exact min_le_right _ _⟩ e3
  have := gp.once i j _ _ hij ⟨l, m, hl.get, hm.get, c1⟩ ⟨l, m, hl.get, hm.get, c2⟩
  simp only [V2.mk.injEq] at this
  exact hky.ne this.2

/-- neighbours just above `k` that cross later are in the queue -/
def Adj (L : List (Line2 K)) (k : V2 K) (A : List Nat) (events : SiteMap K ι SiteEvent) : Prop :=
  ∀ i j l m, i ∈ A → j ∈ A → L[i]? = some l → L[j]? = some m → pos k.y l < pos k.y m →
    (∀ n ∈ A, ∀ o, L[n]? = some o → ¬ (pos k.y l < pos k.y o ∧ pos k.y o < pos k.y m)) →
    ∀ p, IsOn l p → IsOn m p → SweepBefore k p → (¬ IsEnd l p → Queued events p i) ∧ (¬ IsEnd m p → Queued events p j)

/-- `p` is an interior point of the line `i`, one of `A` -/
def Through (L : List (Line2 K)) (A : List Nat) (i : Nat) (p : V2 K) : Prop :=
  i ∈ A ∧ ∃ l, L[i]? = some l ∧ IsOn l p ∧ ¬ IsEnd l p

/-- `p` is a point of the line `i`, one of `A` -/
def Meets (L : List (Line2 K)) (A : List Nat) (i : Nat) (p : V2 K) : Prop :=
  i ∈ A ∧ ∃ l, L[i]? = some l ∧ IsOn l p

theorem Through.meets {A : List Nat} {i : Nat} {p : V2 K} (h : Through L A i p) : Meets L A i p := by
  obtain ⟨h1, l, h2, h3, -⟩ := h
  exact ⟨h1, l, h2, h3⟩

/-- `p` is an interior point of a line in `A` and a point of another one -/
def Crosses (L : List (Line2 K)) (A : List Nat) (p : V2 K) : Prop := ∃ i j, i ≠ j ∧ Through L A i p ∧ Meets L A j p

theorem Crosses.site (gp : SweepPosition L) {A : List Nat} {p : V2 K} (h : Crosses L A p) : p ∈ sites L ∧ Special L p := by
  obtain ⟨i, j, hij, ⟨-, l, hl, h1, -⟩, ⟨-, m, hm, h2⟩⟩ := h
  exact ⟨cross_site gp hij hl hm h1 h2, Or.inr ⟨i, j, hij, l, m, hl, hm, h1, h2⟩⟩

/-- no crossing of lines in `A` between the heights -/
def NoCross (L : List (Line2 K)) (A : List Nat) (y z : K) : Prop := ∀ q, Crosses L A q → y < q.y → q.y < z → False

theorem keep_order_act (gp : SweepPosition L) {k : V2 K} {A : List Nat} {i j : Nat} {l m : Line2 K}
    (hi : i ∈ A) (hj : j ∈ A) (hij : i ≠ j) (hl : Act L k i l) (hm : Act L k j m) {z : K} (hz : k.y ≤ z)
    (hlz : z ≤ (Sweep.hi l).y) (hmz : z ≤ (Sweep.hi m).y) (hno : NoCross L A k.y z) (h : pos k.y l < pos k.y m) :
    xAt l z ≤ xAt m z := by
  rcases hz.eq_or_lt with hz | hz
  · rw [← hz]
    rcases (pos_lt _ _ _).1 h with h | h
    · exact h.le
    · exact h.1.le
  refine keep_order hz h ?_
  intro w h1 h2 he
  obtain ⟨a1, a2⟩ := hl.heights
  obtain ⟨b1, b2⟩ := hm.heights
  obtain ⟨c1, c2⟩ := common_at gp hl.get hm.get (y := w) ⟨a1.trans h1.le, h2.le.trans hlz⟩ ⟨b1.trans h1.le, h2.le.trans hmz⟩ he
  refine hno ⟨xAt l w, w⟩ ⟨i, j, hij, ⟨hi, l, hl.get, c1, ?_⟩, ⟨hj, m, hm.get, c2⟩⟩ h1 h2
  exact notEnd_of_strict (lt_of_le_of_lt a1 h1) (lt_of_lt_of_le h2 hlz)

/-- the lines through the first crossing are queued there -/
theorem queued_at_first (gp : SweepPosition L) {k : V2 K} (hk : Special L k) {A : List Nat}
    (hA : ∀ i, i ∈ A ↔ ∃ l, Act L k i l) {events : SiteMap K ι SiteEvent} (hadj : Adj L k A events) {p : V2 K}
    (hp : SweepBefore k p) (hends : ∀ i l, Act L k i l → p.y ≤ (hi l).y) (hno : NoCross L A k.y p.y) {i j : Nat} (hij : i ≠ j)
    (hi : Through L A i p) (hj : Meets L A j p) : Queued events p i := by
  obtain ⟨hiA, l, hl, hpl, hnl⟩ := hi
  obtain ⟨l', hAl⟩ := (hA i).1 hiA
  obtain rfl : l' = l := by have := hAl.get; rw [hl] at this; simpa using this.symm
  have hky : k.y < p.y := by
    obtain ⟨-, m, hm, hpm⟩ := id hj
    exact special_before gp hij hk ⟨l', m, hl, hm, hpl, hpm⟩ hp
  have hpx := on_xAt (gp.slanted l' hAl.mem) hpl
  -- a line between two lines through `p` goes through `p`
  have key : ∀ n ∈ A, ∀ o, L[n]? = some o → n ≠ i → xAt o p.y = p.x → Meets L A n p := by
    intro n hn o ho hni hx
    obtain ⟨o', hAo⟩ := (hA n).1 hn
    obtain rfl : o' = o := by have := hAo.get; rw [ho] at this; simpa using this.symm
    have hon : IsOn o' p := by
      have := on_of_between (gp.slanted o' hAo.mem) (y := p.y) ((hAo.heights).1.trans hky.le) (hends n o' hAo)
      rw [hx] at this
      exact this
    exact ⟨hn, o', ho, hon⟩
  have thr : ∀ n m, Meets L A n p → L[n]? = some m → Act L k n m ∧ xAt m p.y = p.x ∧ IsOn m p := by
    rintro n m ⟨hn, m', hm', h1⟩ hm
    obtain rfl : m' = m := by rw [hm] at hm'; simpa using hm'.symm
    obtain ⟨m'', hAm⟩ := (hA n).1 hn
    obtain rfl : m'' = m' := by have := hAm.get; rw [hm] at this; simpa using this.symm
    exact ⟨hAm, (on_xAt (gp.slanted m'' hAm.mem) h1).symm, h1⟩
  let f : Nat → K ×ₗ K := fun n => (L[n]?).elim (toLex (0, 0)) (pos k.y)
  have hf : ∀ n o, L[n]? = some o → f n = pos k.y o := by
    intro n o ho; simp only [f, ho, Option.elim_some]
  obtain ⟨hjA, m, hm, hpm⟩ := id hj
  obtain ⟨hAm, hxm, -⟩ := thr j m hj hm
  rcases lt_or_gt_of_ne (pos_ne gp hij hAl hAm (hky.trans_le (hends i l' hAl)) (hky.trans_le (hends j m hAm))) with hlt | hgt
  · obtain ⟨j', hj', ⟨hT', hne', hlt'⟩, hmin⟩ := exists_least (fun n => Meets L A n p ∧ n ≠ i ∧ f i < f n) f A
      ⟨j, hjA, hj, hij.symm, by rw [hf i _ hl, hf j _ hm]; exact hlt⟩
    obtain ⟨-, m', hm', -⟩ := id hT'
    obtain ⟨hAm', hxm', hpm'⟩ := thr j' m' hT' hm'
    rw [hf i _ hl, hf j' _ hm'] at hlt'
    refine (hadj i j' l' m' hiA hj' hl hm' hlt' ?_ p hpl hpm' hp).1 hnl
    rintro n hn o ho ⟨g1, g2⟩
    obtain ⟨o', hAo⟩ := (hA n).1 hn
    obtain rfl : o' = o := by have := hAo.get; rw [ho] at this; simpa using this.symm
    have hni : n ≠ i := by
      rintro rfl; rw [hl] at ho; simp only [Option.some_inj] at ho; subst ho; exact lt_irrefl _ g1
    have hnj : n ≠ j' := by
      rintro rfl; rw [hm'] at ho; simp only [Option.some_inj] at ho; subst ho; exact lt_irrefl _ g2
    have k1 := keep_order_act gp hiA hn hni.symm hAl hAo hky.le (hends i _ hAl) (hends n _ hAo) hno g1
    have k2 := keep_order_act gp hn hj' hnj hAo hAm' hky.le (hends n _ hAo) (hends j' _ hAm') hno g2
    rw [← hpx] at k1
    rw [hxm'] at k2
    have hT := key n hn o' ho hni (le_antisymm k2 k1)
    have := hmin n hn ⟨hT, hni, by rw [hf i _ hl, hf n _ ho]; exact g1⟩
    rw [hf j' _ hm', hf n _ ho] at this
    exact absurd g2 (not_lt.2 this)
  · obtain ⟨j', hj', ⟨hT', hne', hlt'⟩, hmin⟩ := exists_least (O := (K ×ₗ K)ᵒᵈ) (fun n => Meets L A n p ∧ n ≠ i ∧ f n < f i)
      (fun n => OrderDual.toDual (f n)) A ⟨j, hjA, hj, hij.symm, by rw [hf i _ hl, hf j _ hm]; exact hgt⟩
    obtain ⟨-, m', hm', -⟩ := id hT'
    obtain ⟨hAm', hxm', hpm'⟩ := thr j' m' hT' hm'
    rw [hf i _ hl, hf j' _ hm'] at hlt'
    refine (hadj j' i m' l' hj' hiA hm' hl hlt' ?_ p hpm' hpl hp).2 hnl
    rintro n hn o ho ⟨g1, g2⟩
    obtain ⟨o', hAo⟩ := (hA n).1 hn
    obtain rfl : o' = o := by have := hAo.get; rw [ho] at this; simpa using this.symm
    have hni : n ≠ i := by
      rintro rfl; rw [hl] at ho; simp only [Option.some_inj] at ho; subst ho; exact lt_irrefl _ g2
    have hnj : n ≠ j' := by
      rintro rfl; rw [hm'] at ho; simp only [Option.some_inj] at ho; subst ho; exact lt_irrefl _ g1
    have k1 := keep_order_act gp hj' hn hnj.symm hAm' hAo hky.le (hends j' _ hAm') (hends n _ hAo) hno g1
    have k2 := keep_order_act gp hn hiA hni hAo hAl hky.le (hends n _ hAo) (hends i _ hAl) hno g2
    rw [← hpx] at k2
    rw [hxm'] at k1
    have hT := key n hn o' ho hni (le_antisymm k2 k1)
    have := hmin n hn ⟨hT, hni, by rw [hf i _ hl, hf n _ ho]; exact g2⟩
    rw [OrderDual.toDual_le_toDual, hf j' _ hm', hf n _ ho] at this
    exact absurd g1 (not_lt.2 this)

/-- the first crossing is not before the next event; if it is there, then its lines are queued there -/
theorem first_crossing (gp : SweepPosition L) {k k' : V2 K} (hk : Special L k) {A : List Nat}
    (hA : ∀ i, i ∈ A ↔ ∃ l, Act L k i l) {events : SiteMap K ι SiteEvent} (hadj : Adj L k A events)
    (hends : ∀ i l, Act L k i l → hi l = k' ∨ SweepBefore k' (hi l))
    (hq : ∀ p i, Queued events p i → p = k' ∨ SweepBefore k' p) {p : V2 K} (hc : Crosses L A p) (hp : SweepBefore k p)
    (hpk : p = k' ∨ SweepBefore p k') :
    p = k' ∧ ∀ i, Through L A i p → Queued events p i := by
  obtain ⟨p0, hp0, ⟨hc0, hb0⟩, hmin⟩ := exists_first (fun p => Crosses L A p ∧ SweepBefore k p) (sites L)
    ⟨p, (hc.site gp).1, hc, hp⟩
  have hp0k : p0 = k' ∨ SweepBefore p0 k' := by
    rcases hmin p (hc.site gp).1 ⟨hc, hp⟩ with rfl | h
    · exact hpk
    · rcases hpk with rfl | h'
      · exact Or.inr h
      · exact Or.inr (before_trans h h')
  have hle : ∀ {a b : V2 K}, a = b ∨ SweepBefore a b → a.y ≤ b.y := by
    rintro a b (rfl | h | ⟨h, -⟩)
    · exact le_rfl
    · exact h.le
    · exact h.le
  have hends' : ∀ i l, Act L k i l → p0.y ≤ (hi l).y := by
    intro i l hl
    refine (hle hp0k).trans (hle ?_)
    rcases hends i l hl with h | h
    · exact Or.inl h.symm
    · exact Or.inr h
  have hno : NoCross L A k.y p0.y := by
    intro q hq1 hq2 hq3
    rcases hmin q (hq1.site gp).1 ⟨hq1, Or.inl hq2⟩ with rfl | h
    · exact lt_irrefl _ hq3
    · exact absurd (hle (Or.inr h)) (not_le.2 hq3)
  have hQ : ∀ i, Through L A i p0 → Queued events p0 i := by
    intro i hi
    obtain ⟨a, b, hab, ha, hb⟩ := hc0
    by_cases hia : i = a
    · exact queued_at_first gp hk hA hadj hb0 hends' hno (by rw [hia]; exact hab) hi hb
    · exact queued_at_first gp hk hA hadj hb0 hends' hno hia hi ha.meets
  have hp0' : p0 = k' := by
    obtain ⟨a, b, hab, ha, hb⟩ := hc0
    rcases hq p0 a (hQ a ha) with h | h
    · exact h
    · rcases hp0k with h' | h'
      · exact h'
      · exact absurd (before_trans h h') (before_irrefl _)
  have hpp : p = p0 := by
    rcases hmin p (hc.site gp).1 ⟨hc, hp⟩ with h | h
    · exact h
    · rw [hp0'] at h ⊢
      rcases hpk with h' | h'
      · exact h'
      · exact absurd (before_trans h h') (before_irrefl _)
  exact ⟨hpp.trans hp0', fun i hi => by rw [hpp] at hi ⊢; exact hQ i hi⟩

end
end Verif.Sweep
