import Verif.Proofs.SweepGP
/-!
# The sweep line algorithm in general position: one event
-/
set_option linter.unusedSectionVars false
set_option linter.unusedVariables false
set_option linter.unusedSimpArgs false
namespace Verif.Sweep
open Verif Verif.Spec Verif.Model Verif.Proofs.Intersect

section
variable {K : Type} [Scalar K] [Field K] [LinearOrder K] [ExactScalar K] [ExactSqrt K] {ι σ V : Type}
variable {L : List (Line2 K)}

theorem event_special {p : V2 K} {e : SiteEvent} (h : EvOk L p e) : Special L p := by
  by_cases ha : e.add = []
  · by_cases hd : e.drop = []
    · have h2 := h.two ha hd
      have hN := h.interN
      match hli : e.inter with
      | [] => rw [hli] at h2; simp at h2
      | [a] => rw [hli] at h2; simp at h2
      | a :: b :: t =>
        rw [hli] at hN
        have hab : a ≠ b := by
          rintro rfl; simp at hN
        obtain ⟨l, hl, hint⟩ := h.inter a (by rw [hli]; simp)
        obtain ⟨m, hm, hint'⟩ := h.inter b (by rw [hli]; simp)
        exact Or.inr ⟨a, b, hab, l, m, hl, hm, hint.1, hint'.1⟩
    · obtain ⟨i, hi⟩ := List.exists_mem_of_ne_nil _ hd
      obtain ⟨l, hl, hp⟩ := (h.drop i).1 hi
      exact hp ▸ (end_special (List.mem_of_getElem? hl)).2
  · obtain ⟨i, hi⟩ := List.exists_mem_of_ne_nil _ ha
    obtain ⟨l, hl, hp⟩ := (h.add i).1 hi
    exact hp ▸ (end_special (List.mem_of_getElem? hl)).1

theorem lo_isEnd (l : Line2 K) : IsEnd l (lo l) := (ends_iff l _).2 (Or.inl rfl)
theorem hi_isEnd (l : Line2 K) : IsEnd l (hi l) := (ends_iff l _).2 (Or.inr rfl)

theorem some_eq {i : Nat} {l m : Line2 K} (h : L[i]? = some l) (h' : L[i]? = some m) : l = m := by
  rw [h] at h'; simpa using h'

theorem lo_isFirst {l : Line2 K} (h : l.start.y ≠ l.end.y) : IsFirstEnd l (lo l) := by
  refine ⟨lo_isEnd l, fun q hq hb => ?_⟩
  rw [IsEnd, ends_iff] at hq
  rcases hq with rfl | rfl
  · exact before_irrefl _ hb
  · exact absurd (before_y hb) (not_le.2 (lo_y h))

/-- a point of a line that is not its first end -/
theorem above_lo {l : Line2 K} (h : l.start.y ≠ l.end.y) {p : V2 K} (hp : IsOn l p) (hn : p ≠ lo l) : (lo l).y < p.y := by
  by_cases he : IsEnd l p
  · rw [IsEnd, ends_iff] at he
    rcases he with rfl | rfl
    · exact absurd rfl hn
    · exact lo_y h
  · exact (on_strict h hp he).1

/-- a point of a line is not above its last end -/
theorem below_hi {l : Line2 K} (h : l.start.y ≠ l.end.y) {p : V2 K} (hp : IsOn l p) : p.y ≤ (hi l).y := by
  by_cases he : IsEnd l p
  · rw [IsEnd, ends_iff] at he
    rcases he with rfl | rfl
    · exact (lo_y h).le
    · exact le_rfl
  · exact (on_strict h hp he).2.le

/-- a crossing is a candidate of `find_new_events` -/
theorem cand_of (gp : SweepPosition L) {i j : Nat} (hij : i ≠ j) {l m : Line2 K} (hl : L[i]? = some l) (hm : L[j]? = some m)
    {k p : V2 K} (h1 : IsOn l p) (h2 : IsOn m p) (h3 : ¬ (IsEnd l p ∧ IsEnd m p)) (hk : SweepBefore k p) : Cand k l m p := by
  obtain ⟨it, g1, g2⟩ := cross_single gp hij hl hm h1 h2
  refine ⟨fun he => h3 ?_, it, g1, g2, hk⟩
  have : Common L i j l.end := ⟨l, m, hl, hm, onSeg_end _ _, he ▸ onSeg_end _ _⟩
  have hp := gp.once i j _ _ hij ⟨l, m, hl, hm, h1, h2⟩ this
  exact ⟨Or.inr hp, Or.inr (hp.trans he)⟩

/-- what is known about the sweep line when the event `e` at `k` is handled -/
structure Ctx (L : List (Line2 K)) (k : V2 K) (e : SiteEvent) (events rest events' : SiteMap K ι SiteEvent) (A A' is : List Nat) : Prop where
  gp : SweepPosition L
  ev : EvOk L k e
  prev : A = [] ∨ ∃ k0, Special L k0 ∧ SweepBefore k0 k ∧ (∀ i, i ∈ A ↔ ∃ l, Act L k0 i l) ∧ Adj L k0 A events
  hends : ∀ i ∈ A, ∀ l, L[i]? = some l → hi l = k ∨ SweepBefore k (hi l)
  hq : ∀ p i, Queued events p i → (p = k ∧ i ∈ e.inter) ∨ (SweepBefore k p ∧ Queued rest p i)
  act : ∀ i, i ∈ A' ↔ ∃ l, Act L k i l
  old : ∀ i l, Act L k i l → lo l = k ∨ (i ∈ A ∧ i ∉ e.drop)
  keep : ∀ i ∈ A, i ∉ e.drop → i ∈ A'
  isN : is.Nodup
  isMem : ∀ i, i ∈ is ↔ i ∈ A ∧ i ∉ e.drop
  grow : Grow rest events'
  dropA : ∀ i ∈ e.drop, i ∈ A
  found : ∀ i j, (i, j) ∈ sweepPairs L k e is → ∀ l m, L[i]? = some l → L[j]? = some m → ∀ p, Cand k l m p →
      (p ≠ l.start → p ≠ l.end → Queued events' p i) ∧ (p ≠ m.start → p ≠ m.end → Queued events' p j)

variable {k : V2 K} {e : SiteEvent} {events rest events' : SiteMap K ι SiteEvent} {A A' is : List Nat}

namespace Ctx

theorem special (c : Ctx L k e events rest events' A A' is) : Special L k := event_special c.ev

theorem get (c : Ctx L k e events rest events' A A' is) {i : Nat} (hi : i ∈ A') {l : Line2 K} (hl : L[i]? = some l) : Act L k i l := by
  obtain ⟨l', h⟩ := (c.act i).1 hi
  exact some_eq h.get hl ▸ h

/-- the lines through the event are those that begin there, and those that cross there -/
theorem through (c : Ctx L k e events rest events' A A' is) {i : Nat} (hi : i ∈ A') {l : Line2 K} (hl : L[i]? = some l)
    (hx : xAt l k.y = k.x) : i ∈ e.add ∨ i ∈ e.inter := by
  have hAl := c.get hi hl
  have hgp := c.gp
  rcases c.old i l hAl with h | ⟨hiA, hnd⟩
  · exact Or.inl ((c.ev.add i).2 ⟨l, hl, h⟩)
  · right
    rcases c.prev with h | ⟨k0, hk0, hkk, hA, hadj⟩
    · rw [h] at hiA; cases hiA
    have hAl0 : Act L k0 i l := by
      obtain ⟨l', h⟩ := (hA i).1 hiA
      exact some_eq h.get hl ▸ h
    have hon : IsOn l k := by
      have := on_of_between (hgp.slanted l hAl.mem) (y := k.y) ((hAl.heights).1) (hAl.heights).2
      rw [hx] at this
      exact this
    have hnE : ¬ IsEnd l k := by
      rw [IsEnd, ends_iff]
      rintro (h | h)
      · exact hAl0.lo (h ▸ hkk)
      · exact hnd ((c.ev.drop i).2 ⟨l, hl, h.symm⟩)
    -- a second line comes here
    have hsecond : ∃ j, j ≠ i ∧ Meets L A j k := by
      by_cases hd : e.drop = []
      · by_cases ha : e.add = []
        · have h2 := c.ev.two ha hd
          obtain ⟨j, hj, hji⟩ : ∃ j ∈ e.inter, j ≠ i := by
            by_contra hcon
            push Not at hcon
            have : e.inter ⊆ [i] := fun j hj => by rw [hcon j hj]; simp
            have := (c.ev.interN.subperm this).length_le
            simp at this; omega
          obtain ⟨m, hm, hint⟩ := c.ev.inter j hj
          have hnm : ¬ IsEnd m k := by
            rintro (h | h)
            · exact hint.2.1 h
            · exact hint.2.2 h
          have hms := on_strict (hgp.slanted m (List.mem_of_getElem? hm)) hint.1 hnm
          have hjA' : j ∈ A' := (c.act j).2 ⟨m, hm, fun hb => not_lt.2 (before_y hb) hms.1,
            Or.inl hms.2⟩
          have hjA : j ∈ A := by
            rcases c.old j m (c.get hjA' hm) with h | h
            · rw [h] at hms; exact absurd hms.1 (lt_irrefl _)
            · exact h.1
          exact ⟨j, hji, hjA, m, hm, hint.1⟩
        · exfalso
          obtain ⟨j, hj⟩ := List.exists_mem_of_ne_nil _ ha
          obtain ⟨m, hm, hp⟩ := (c.ev.add j).1 hj
          by_cases hij : j = i
          · subst hij
            obtain rfl := some_eq hm hl
            exact hnE (hp ▸ lo_isEnd m)
          · exact hnE (hgp.noT j i m l k hij hm hl hon (hp ▸ lo_isFirst (hgp.slanted m (List.mem_of_getElem? hm))))
      · obtain ⟨j, hj⟩ := List.exists_mem_of_ne_nil _ hd
        obtain ⟨m, hm, hp⟩ := (c.ev.drop j).1 hj
        exact ⟨j, by rintro rfl; exact hnd hj, c.dropA j hj, m, hm, hp ▸ on_hi m⟩
    obtain ⟨j, hji, hM⟩ := hsecond
    have hT : Through L A i k := ⟨hiA, l, hl, hon, hnE⟩
    have hfc := first_crossing hgp hk0 hA hadj (k' := k) (fun n o ho => c.hends n ((hA n).2 ⟨o, ho⟩) o ho.get)
      (fun p n hp => by
        rcases c.hq p n hp with h | h
        · exact Or.inl h.1
        · exact Or.inr h.1) (p := k) ⟨i, j, hji.symm, hT, hM⟩ hkk (Or.inl rfl)
    rcases c.hq k i (hfc.2 i hT) with h | h
    · exact h.2
    · exact absurd h.1 (before_irrefl _)

/-- lines that begin or cross at the event are on the sweep line after it -/
theorem at_event (c : Ctx L k e events rest events' A A' is) {i : Nat} (hi : i ∈ e.add ∨ i ∈ e.inter) :
    ∃ l, L[i]? = some l ∧ i ∈ A' ∧ Act L k i l ∧ xAt l k.y = k.x := by
  have hgp := c.gp
  rcases hi with hi | hi
  · obtain ⟨l, hl, hp⟩ := (c.ev.add i).1 hi
    have hAct : Act L k i l := by
      refine ⟨hl, by rw [hp]; exact before_irrefl _, ?_⟩
      rw [← hp]
      exact Or.inl (lo_y (hgp.slanted l (List.mem_of_getElem? hl)))
    refine ⟨l, hl, (c.act i).2 ⟨l, hAct⟩, hAct, ?_⟩
    have := on_xAt (hgp.slanted l (List.mem_of_getElem? hl)) (on_lo l)
    rw [hp] at this
    exact this.symm
  · obtain ⟨l, hl, hint⟩ := c.ev.inter i hi
    have hn : ¬ IsEnd l k := by
      rintro (h | h)
      · exact hint.2.1 h
      · exact hint.2.2 h
    have hs := on_strict (hgp.slanted l (List.mem_of_getElem? hl)) hint.1 hn
    have hAct : Act L k i l := ⟨hl, fun hb => not_lt.2 (before_y hb) hs.1, Or.inl hs.2⟩
    exact ⟨l, hl, (c.act i).2 ⟨l, hAct⟩, hAct, (on_xAt (hgp.slanted l (List.mem_of_getElem? hl)) hint.1).symm⟩

/-- lines that are not at the event were there before -/
theorem before_event (c : Ctx L k e events rest events' A A' is) {i : Nat} (hi : i ∈ A') {l : Line2 K} (hl : L[i]? = some l)
    (hx : xAt l k.y ≠ k.x) : i ∈ A ∧ i ∉ e.drop ∧ i ∉ e.inter ∧ i ∈ is := by
  have hAl := c.get hi hl
  rcases c.old i l hAl with h | ⟨h1, h2⟩
  · have := on_xAt (c.gp.slanted l (List.mem_of_getElem? hl)) (on_lo l)
    rw [h] at this
    exact absurd this.symm hx
  · refine ⟨h1, h2, fun hint => ?_, (c.isMem i).2 ⟨h1, h2⟩⟩
    obtain ⟨l', hl', -, -, h⟩ := c.at_event (Or.inr hint)
    obtain rfl := some_eq hl' hl
    exact hx h

/-- two lines are at the same place at the height of the event only at the event -/
theorem tie (c : Ctx L k e events rest events' A A' is) {i j : Nat} (hi : i ∈ A') (hj : j ∈ A') (hij : i ≠ j) {l m : Line2 K}
    (hl : L[i]? = some l) (hm : L[j]? = some m) (hx : xAt l k.y = xAt m k.y) : xAt l k.y = k.x := by
  have h1 := (c.get hi hl).heights
  have h2 := (c.get hj hm).heights
  obtain ⟨c1, c2⟩ := common_at c.gp hl hm (y := k.y) ⟨h1.1, h1.2⟩ ⟨h2.1, h2.2⟩ hx
  have := c.gp.heights i j ⟨xAt l k.y, k.y⟩ k hij ⟨l, m, hl, hm, c1, c2⟩ c.special rfl
  exact congrArg V2.x this

theorem left_cand (c : Ctx L k e events rest events' A A' is) {i : Nat} (hi : i ∈ A') {l : Line2 K} (hl : L[i]? = some l)
    (hx : xAt l k.y < k.x) (hb : ∀ n ∈ A', ∀ o, L[n]? = some o → ¬ (xAt l k.y < xAt o k.y ∧ xAt o k.y < k.x)) :
    i ∈ (is.foldl (nbStep L k e) MinMax.new).slope.candLeft := by
  obtain ⟨h1, h2, h3, h4⟩ := c.before_event hi hl hx.ne
  refine nb_left hl c.gp.slanted h3 hx is _ c.isN ?_ (Or.inr ⟨h4, Or.inl ⟨rfl, rfl⟩⟩)
  intro j hj hji hjn o ho hox
  have hjA' : j ∈ A' := c.keep j ((c.isMem j).1 hj).1 ((c.isMem j).1 hj).2
  rcases lt_trichotomy (xAt o k.y) (xAt l k.y) with h | h | h
  · exact h
  · have := c.tie hjA' hi hji ho hl h
    exact absurd this hox.ne
  · exact absurd ⟨h, hox⟩ (hb j hjA' o ho)

theorem right_cand (c : Ctx L k e events rest events' A A' is) {i : Nat} (hi : i ∈ A') {l : Line2 K} (hl : L[i]? = some l)
    (hx : k.x < xAt l k.y) (hb : ∀ n ∈ A', ∀ o, L[n]? = some o → ¬ (k.x < xAt o k.y ∧ xAt o k.y < xAt l k.y)) :
    i ∈ (is.foldl (nbStep L k e) MinMax.new).slope.candRight := by
  obtain ⟨h1, h2, h3, h4⟩ := c.before_event hi hl hx.ne'
  refine nb_right hl c.gp.slanted h3 hx is _ c.isN ?_ (Or.inr ⟨h4, Or.inl ⟨rfl, rfl⟩⟩)
  intro j hj hji hjn o ho hox
  have hjA' : j ∈ A' := c.keep j ((c.isMem j).1 hj).1 ((c.isMem j).1 hj).2
  rcases lt_trichotomy (xAt l k.y) (xAt o k.y) with h | h | h
  · exact h
  · have := c.tie hjA' hi hji ho hl h.symm
    exact absurd this hox.ne'
  · exact absurd ⟨hox, h⟩ (hb j hjA' o ho)

theorem conn_nodup (c : Ctx L k e events rest events' A A' is) : (e.add ++ e.inter).Nodup := by
  refine List.Nodup.append c.ev.addN c.ev.interN ?_
  intro i hi hi'
  obtain ⟨l, hl, hp⟩ := (c.ev.add i).1 hi
  obtain ⟨l', hl', hint⟩ := c.ev.inter i hi'
  obtain rfl := some_eq hl hl'
  have := lo_isEnd l
  rw [hp] at this
  rcases this with h | h
  · exact hint.2.1 h
  · exact hint.2.2 h

theorem strict (c : Ctx L k e events rest events' A A' is) {i : Nat} (hi : i ∈ A') {l : Line2 K} (hl : L[i]? = some l)
    (hx : xAt l k.y = k.x) : k.y < (Sweep.hi l).y := by
  rcases c.through hi hl hx with h | h
  · obtain ⟨l', hl', hp⟩ := (c.ev.add i).1 h
    obtain rfl := some_eq hl' hl
    rw [← hp]
    exact lo_y (c.gp.slanted l' (List.mem_of_getElem? hl))
  · obtain ⟨l', hl', hint⟩ := c.ev.inter i h
    obtain rfl := some_eq hl' hl
    have hn : ¬ IsEnd l' k := by
      rintro (h | h)
      · exact hint.2.1 h
      · exact hint.2.2 h
    exact (on_strict (c.gp.slanted l' (List.mem_of_getElem? hl)) hint.1 hn).2

/-- the slopes of the lines at the event are different -/
theorem slope_ne (c : Ctx L k e events rest events' A A' is) {i j : Nat} (hij : i ≠ j) {l m : Line2 K} (hi : i ∈ A') (hj : j ∈ A')
    (hl : L[i]? = some l) (hm : L[j]? = some m) (hx : xAt l k.y = k.x) (hx' : xAt m k.y = k.x) : slp l ≠ slp m := by
  intro h
  refine pos_ne c.gp hij (c.get hi hl) (c.get hj hm) (c.strict hi hl hx) (c.strict hj hm hx') ?_
  unfold pos
  rw [hx, hx', h]

theorem left_conn (c : Ctx L k e events rest events' A A' is) {j : Nat} (hj : j ∈ A') {m : Line2 K} (hm : L[j]? = some m)
    (hx : xAt m k.y = k.x) (hb : ∀ n ∈ A', ∀ o, L[n]? = some o → ¬ (xAt o k.y = k.x ∧ slp o < slp m)) :
    j ∈ ((e.add ++ e.inter).foldl (connStep L) MinMaxSlope.new).candLeft := by
  refine conn_left hm c.gp.slanted _ _ c.conn_nodup ?_ (Or.inr ⟨List.mem_append.2 (c.through hj hm hx), Or.inl rfl⟩)
  intro n hn hnj o ho
  obtain ⟨o', ho', hnA', -, hox⟩ := c.at_event (List.mem_append.1 hn)
  obtain rfl := some_eq ho' ho
  rcases lt_trichotomy (slp m) (slp o') with h | h | h
  · exact h
  · exact absurd h (c.slope_ne hnj.symm hj hnA' hm ho hx hox)
  · exact absurd ⟨hox, h⟩ (hb n hnA' o' ho)

theorem right_conn (c : Ctx L k e events rest events' A A' is) {j : Nat} (hj : j ∈ A') {m : Line2 K} (hm : L[j]? = some m)
    (hx : xAt m k.y = k.x) (hb : ∀ n ∈ A', ∀ o, L[n]? = some o → ¬ (xAt o k.y = k.x ∧ slp m < slp o)) :
    j ∈ ((e.add ++ e.inter).foldl (connStep L) MinMaxSlope.new).candRight := by
  refine conn_right hm c.gp.slanted _ _ c.conn_nodup ?_ (Or.inr ⟨List.mem_append.2 (c.through hj hm hx), Or.inl rfl⟩)
  intro n hn hnj o ho
  obtain ⟨o', ho', hnA', -, hox⟩ := c.at_event (List.mem_append.1 hn)
  obtain rfl := some_eq ho' ho
  rcases lt_trichotomy (slp o') (slp m) with h | h | h
  · exact h
  · exact absurd h (c.slope_ne hnj hnA' hj ho hm hox hx)
  · exact absurd ⟨hox, h⟩ (hb n hnA' o' ho)

/-- the event of two neighbours is found -/
theorem adj (c : Ctx L k e events rest events' A A' is) : Adj L k A' events' := by
  intro i j l m hi hj hl hm hlt hbtw p hpl hpm hkp
  by_cases hboth : IsEnd l p ∧ IsEnd m p
  · exact ⟨fun h => absurd hboth.1 h, fun h => absurd hboth.2 h⟩
  have hgp := c.gp
  have hij : i ≠ j := by
    rintro rfl; obtain rfl := some_eq hl hm; exact lt_irrefl _ hlt
  have hcand := cand_of hgp hij hl hm hpl hpm hboth hkp
  have hcand' := cand_of hgp hij.symm hm hl hpm hpl (fun h => hboth h.symm) hkp
  have hpl' : ¬ IsEnd l p → p ≠ l.start ∧ p ≠ l.end := by unfold IsEnd; tauto
  have hpm' : ¬ IsEnd m p → p ≠ m.start ∧ p ≠ m.end := by unfold IsEnd; tauto
  have hAl := c.get hi hl
  have hAm := c.get hj hm
  have hkpy : k.y < p.y := special_before hgp hij c.special ⟨l, m, hl, hm, hpl, hpm⟩ hkp
  have hle : xAt l k.y ≤ xAt m k.y := by
    rcases (pos_lt _ _ _).1 hlt with h | h
    · exact h.le
    · exact h.1.le
  by_cases hx : xAt l k.y = k.x
  · by_cases hx' : xAt m k.y = k.x
    · -- both lines cross here
      exfalso
      have h1 := hAl.heights
      have h2 := hAm.heights
      obtain ⟨c1, c2⟩ := common_at hgp hl hm (y := k.y) ⟨h1.1, h1.2⟩ ⟨h2.1, h2.2⟩ (hx.trans hx'.symm)
      have := hgp.once i j _ _ hij ⟨l, m, hl, hm, hpl, hpm⟩ ⟨l, m, hl, hm, c1, c2⟩
      rw [hx] at this
      rw [this] at hkp
      exact before_irrefl _ hkp
    · -- `m` is the neighbour to the right
      have hmx : k.x < xAt m k.y := lt_of_le_of_ne (hx ▸ hle) (Ne.symm hx')
      have h1 := c.right_cand hj hm hmx (by
        rintro n hn o ho ⟨g1, g2⟩
        refine hbtw n hn o ho ⟨?_, ?_⟩
        · rw [pos_lt, hx]; exact Or.inl g1
        · rw [pos_lt]; exact Or.inl g2)
      have h2 := c.right_conn hi hl hx (by
        rintro n hn o ho ⟨g1, g2⟩
        refine hbtw n hn o ho ⟨?_, ?_⟩
        · rw [pos_lt]; exact Or.inr ⟨hx.trans g1.symm, g2⟩
        · rw [pos_lt, g1]; exact Or.inl hmx)
      have hat := c.through hi hl hx
      have hne : ¬ (e.inter.length + e.add.length = 0) := by
        rcases hat with h | h
        · have := List.length_pos_of_mem h; omega
        · have := List.length_pos_of_mem h; omega
      have hpair : (j, i) ∈ sweepPairs L k e is := by
        unfold sweepPairs
        simp only
        rw [if_neg hne]
        exact List.mem_append_right _ (List.mem_flatMap.2 ⟨j, h1, List.mem_map.2 ⟨i, h2, rfl⟩⟩)
      have := c.found j i hpair m l hm hl p hcand'
      exact ⟨fun h => this.2 (hpl' h).1 (hpl' h).2, fun h => this.1 (hpm' h).1 (hpm' h).2⟩
  · by_cases hx' : xAt m k.y = k.x
    · have hlx : xAt l k.y < k.x := lt_of_le_of_ne (hx' ▸ hle) hx
      have h1 := c.left_cand hi hl hlx (by
        rintro n hn o ho ⟨g1, g2⟩
        refine hbtw n hn o ho ⟨?_, ?_⟩
        · rw [pos_lt]; exact Or.inl g1
        · rw [pos_lt, hx']; exact Or.inl g2)
      have h2 := c.left_conn hj hm hx' (by
        rintro n hn o ho ⟨g1, g2⟩
        refine hbtw n hn o ho ⟨?_, ?_⟩
        · rw [pos_lt, g1]; exact Or.inl hlx
        · rw [pos_lt]; exact Or.inr ⟨g1.trans hx'.symm, g2⟩)
      have hat := c.through hj hm hx'
      have hne : ¬ (e.inter.length + e.add.length = 0) := by
        rcases hat with h | h
        · have := List.length_pos_of_mem h; omega
        · have := List.length_pos_of_mem h; omega
      have hpair : (i, j) ∈ sweepPairs L k e is := by
        unfold sweepPairs
        simp only
        rw [if_neg hne]
        exact List.mem_append_left _ (List.mem_flatMap.2 ⟨i, h1, List.mem_map.2 ⟨j, h2, rfl⟩⟩)
      have := c.found i j hpair l m hl hm p hcand
      exact ⟨fun h => this.1 (hpl' h).1 (hpl' h).2, fun h => this.2 (hpm' h).1 (hpm' h).2⟩
    · -- both lines were there before
      obtain ⟨hiA, hid, -, -⟩ := c.before_event hi hl hx
      obtain ⟨hjA, hjd, -, -⟩ := c.before_event hj hm hx'
      have hlt' : xAt l k.y < xAt m k.y := by
        refine lt_of_le_of_ne hle fun h => hx (c.tie hi hj hij hl hm h)
      rcases c.prev with h | ⟨k0, hk0, hkk, hA, hadj⟩
      · rw [h] at hiA; cases hiA
      have hky := before_y hkk
      have get0 : ∀ n ∈ A, ∀ o, L[n]? = some o → Act L k0 n o := by
        intro n hn o ho
        obtain ⟨o', h⟩ := (hA n).1 hn
        exact some_eq h.get ho ▸ h
      have hhi : ∀ n ∈ A, ∀ o, L[n]? = some o → k.y ≤ (Sweep.hi o).y := by
        intro n hn o ho
        rcases c.hends n hn o ho with h | h | ⟨h, -⟩
        · rw [h]
        · exact h.le
        · exact h.le
      have hno : NoCross L A k0.y k.y := by
        intro q hq h1 h2
        have := first_crossing hgp hk0 hA hadj (k' := k) (fun n o ho => c.hends n ((hA n).2 ⟨o, ho⟩) o ho.get)
          (fun p n hp => by
            rcases c.hq p n hp with h | h
            · exact Or.inl h.1
            · exact Or.inr h.1) hq (Or.inl h1) (Or.inr (Or.inl h2))
        rw [this.1] at h2
        exact lt_irrefl _ h2
      have hord : ∀ n ∈ A, ∀ n' ∈ A, n ≠ n' → ∀ o o', L[n]? = some o → L[n']? = some o' → pos k0.y o < pos k0.y o' → xAt o k.y ≤ xAt o' k.y := by
        intro n hn n' hn' hne o o' ho ho' hpos
        exact keep_order_act hgp hn hn' hne (get0 n hn o ho) (get0 n' hn' o' ho') hky (hhi n hn o ho) (hhi n' hn' o' ho') hno hpos
      have hlt0 : pos k0.y l < pos k0.y m := by
        rcases lt_or_gt_of_ne (pos_ne hgp hij (get0 i hiA l hl) (get0 j hjA m hm)
          (lt_of_le_of_lt hky (lt_of_lt_of_le hkpy (below_hi (hgp.slanted l (List.mem_of_getElem? hl)) hpl)))
          (lt_of_le_of_lt hky (lt_of_lt_of_le hkpy (below_hi (hgp.slanted m (List.mem_of_getElem? hm)) hpm)))) with h | h
        · exact h
        · exact absurd (hord j hjA i hiA hij.symm m l hm hl h) (not_le.2 hlt')
      by_cases hb : ∃ n ∈ A, ∃ o, L[n]? = some o ∧ pos k0.y l < pos k0.y o ∧ pos k0.y o < pos k0.y m
      · obtain ⟨n, hn, o, ho, g1, g2⟩ := hb
        have hni : i ≠ n := by rintro rfl; obtain rfl := some_eq hl ho; exact lt_irrefl _ g1
        have hnj : n ≠ j := by rintro rfl; obtain rfl := some_eq hm ho; exact lt_irrefl _ g2
        have k1 := hord i hiA n hn hni l o hl ho g1
        have k2 := hord n hn j hjA hnj o m ho hm g2
        have hnA' : n ∉ A' := by
          intro hn'
          refine hbtw n hn' o ho ⟨?_, ?_⟩
          · rw [pos_lt]
            exact Or.inl (lt_of_le_of_ne k1 fun h => hx (c.tie hi hn' hni hl ho h))
          · rw [pos_lt]
            exact Or.inl (lt_of_le_of_ne k2 fun h => hx' (h ▸ c.tie hn' hj hnj ho hm h))
        have hnd : n ∈ e.drop := by
          by_contra h
          exact hnA' (c.keep n hn h)
        have hox : xAt o k.y = k.x := by
          obtain ⟨o', ho', hp⟩ := (c.ev.drop n).1 hnd
          obtain rfl := some_eq ho' ho
          have := on_xAt (hgp.slanted o' (List.mem_of_getElem? ho)) (on_hi o')
          rw [hp] at this
          exact this.symm
        rw [hox] at k1 k2
        have hlx : xAt l k.y < k.x := lt_of_le_of_ne k1 hx
        have hmx : k.x < xAt m k.y := lt_of_le_of_ne k2 (Ne.symm hx')
        have hempty : ∀ a, ¬ (a ∈ e.add ∨ a ∈ e.inter) := by
          intro a ha
          obtain ⟨o', ho', haA', -, hax⟩ := c.at_event ha
          exact hbtw a haA' o' ho' ⟨by rw [pos_lt, hax]; exact Or.inl hlx, by rw [pos_lt, hax]; exact Or.inl hmx⟩
        have h1 := c.left_cand hi hl hlx (by
          rintro n hn o ho ⟨g1, g2⟩
          refine hbtw n hn o ho ⟨?_, ?_⟩
          · rw [pos_lt]; exact Or.inl g1
          · rw [pos_lt]; exact Or.inl (g2.trans hmx))
        have h2 := c.right_cand hj hm hmx (by
          rintro n hn o ho ⟨g1, g2⟩
          refine hbtw n hn o ho ⟨?_, ?_⟩
          · rw [pos_lt]; exact Or.inl (hlx.trans g1)
          · rw [pos_lt]; exact Or.inl g2)
        have hzero : e.inter.length + e.add.length = 0 := by
          have ha : e.add = [] := List.eq_nil_iff_forall_not_mem.2 fun a ha => hempty a (Or.inl ha)
          have hi' : e.inter = [] := List.eq_nil_iff_forall_not_mem.2 fun a ha => hempty a (Or.inr ha)
          rw [ha, hi']; rfl
        have hpair : (i, j) ∈ sweepPairs L k e is := by
          unfold sweepPairs
          simp only
          rw [if_pos hzero]
          exact List.mem_flatMap.2 ⟨i, h1, List.mem_map.2 ⟨j, h2, rfl⟩⟩
        have := c.found i j hpair l m hl hm p hcand
        exact ⟨fun h => this.1 (hpl' h).1 (hpl' h).2, fun h => this.2 (hpm' h).1 (hpm' h).2⟩
      · push Not at hb
        obtain ⟨q1, q2⟩ := hadj i j l m hiA hjA hl hm hlt0 (fun n hn o ho h => absurd h.2 (not_lt.2 (hb n hn o ho h.1)))
          p hpl hpm (before_trans hkk hkp)
        have hmv : ∀ n, Queued events p n → Queued events' p n := by
          intro n hn
          rcases c.hq p n hn with h | h
          · rw [h.1] at hkp; exact absurd hkp (before_irrefl _)
          · exact h.2.mono c.grow
        exact ⟨fun h => hmv i (q1 h), fun h => hmv j (q2 h)⟩

end Ctx
end
end Verif.Sweep
