import Verif.Proofs.Contain
import Verif.Props.HullOneChunk
import Mathlib.Tactic.IntervalCases
/-!
# C42, C43, C44: containment in a convex hull
-/
set_option linter.unusedSectionVars false
set_option linter.unusedVariables false
set_option linter.unusedSimpArgs false
namespace Verif.Props
open Verif Verif.Spec Verif.Model Verif.Hull

section
variable {K : Type} [Scalar K] [Field K] [LinearOrder K] [ExactScalar K]

/-- the answer of the containment test on a closed hull, in terms of one triangle of the fan of `hull[1]` -/
theorem contains_closed (test : V2 K → V2 K → V2 K → Bool) {pts hull : List (V2 K)} (h : IsHullLoop pts hull)
    (hl : 3 < hull.length) (p : V2 K) :
    (containsPoint test hull p = .ok false ∧ ¬ InLoop hull p) ∨
    ∃ (base x y : V2 K), hull[1]? = some base ∧ x ∈ hull ∧ y ∈ hull ∧ 0 < orient base x y ∧
      x ≠ base ∧ y ≠ base ∧
      (InLoop hull p → 0 ≤ orient base x p ∧ 0 ≤ orient x y p ∧ 0 ≤ orient y base p) ∧
      (InsideLoop hull p → 0 < orient x y p) ∧
      (∃ k, hull[k]? = some x ∧ hull[k + 1]? = some y) ∧
      containsPoint test hull p = .ok (test base x p && test x y p && test y base p) := by
  match hull, hl, h with
  | s :: base :: z :: t, hl, h =>
    obtain ⟨w, hw⟩ : ∃ w, w = base :: z :: t := ⟨_, rfl⟩
    have hlast : (s :: base :: z :: t)[(s :: base :: z :: t).length - 1]? = some s := h.last_eq
    have hbase : w[0]? = some base := by rw [hw]; rfl
    have hwl : 3 ≤ w.length := by rw [hw]; simp at hl ⊢; omega
    have hcall : containsPoint test (s :: base :: z :: t) p = (do
        match ← containsLoop base p (w.length + 1) w false with
        | none => .ok false
        | some (slice, retain) => containsFinal test base p slice retain : Except Err Bool) := by
      unfold containsPoint
      have : idx (s :: base :: z :: t) ((s :: base :: z :: t).length - 1) = .ok s := by
        unfold idx; rw [hlast]
      simp only [List.isEmpty_cons, Bool.false_and, Bool.false_eq_true, if_false, this]
      have hb : s.beq s = true := (beq_iff s s).2 rfl
      simp only [bind, Except.bind, hb, if_true, ← hw]
      cases containsLoop base p (w.length + 1) w false with
      | error e => rfl
      | ok v => cases v <;> rfl
    have hedge : ∀ {k : Nat} {a b : V2 K}, w[k]? = some a → w[k + 1]? = some b →
        (s :: base :: z :: t)[k + 1]? = some a ∧ (s :: base :: z :: t)[k + 1 + 1]? = some b := by
      intro k a b ha hb
      rw [hw] at ha hb
      exact ⟨ha, hb⟩
    rw [hcall]
    rcases contains_core test w base p hbase hwl with ⟨hr, k, a, b, ha, hb, hneg⟩ | ⟨k, x, y, hk, hx, hy, hend, hst, hr⟩
    · left
      refine ⟨hr, fun hin => ?_⟩
      obtain ⟨h1, h2⟩ := hedge ha hb
      exact absurd (hin _ a b h1 h2) (not_le.2 hneg)
    · right
      obtain ⟨h1, h2⟩ := hedge hx hy
      have hyl := (List.getElem?_eq_some_iff.1 hy).1
      have hxb : x ≠ base := by
        have := h.ne_of_index (i := 1) (j := k + 1) rfl h1 (by omega) (Or.inr (by omega))
        exact this.symm
      have hyb : y ≠ base := by
        have := h.ne_of_index (i := 1) (j := k + 1 + 1) rfl h2 (by omega) (Or.inr (by omega))
        exact this.symm
      refine ⟨base, x, y, rfl, List.mem_of_getElem? h1, List.mem_of_getElem? h2, ?_, hxb, hyb, ?_, ?_, ⟨_, h1, h2⟩, hr⟩
      · rw [orient_rot]
        exact IsHullLoop.strictLeft 1 h hl h1 h2 rfl hxb.symm hyb.symm
      · intro hin
        refine ⟨?_, hin _ x y h1 h2, ?_⟩
        · rcases hst with rfl | hst
          · exact hin 1 base x rfl h1
          · exact hst
        · rcases hend with hend | hend
          · -- `y` is the first vertex `s`
            have hwl2 : (s :: base :: z :: t).length = w.length + 1 := by rw [hw]; rfl
            rw [show k + 1 + 1 = (s :: base :: z :: t).length - 1 by omega, hlast] at h2
            simp only [Option.some_inj] at h2
            rw [← h2]
            exact hin 0 s base rfl rfl
          · have : orient y base p = - orient base y p := by simp only [orient]; ring
            rw [this]; linarith
      · intro hin
        exact hin _ x y h1 h2

theorem bary (a c b x y p : V2 K) : orient b x y * orient a c p =
    orient x y p * orient a c b + orient y b p * orient a c x + orient b x p * orient a c y := by
  simp only [orient]; ring

/-- `contains_point_inclusive` on the closed hull of any points: true iff the point is on or left of
every edge -/
theorem C42_inclusive_iff_left_of_every_edge {pts hull : List (V2 K)} (h : IsHullLoop pts hull)
    (hl : 3 < hull.length) (p : V2 K) :
    ∃ r, containsPointInclusive hull p = .ok r ∧ (r = true ↔ InLoop hull p) := by
  unfold containsPointInclusive
  rcases contains_closed isPointLeftAllowCollinear h hl p with ⟨hr, hn⟩ |
    ⟨base, x, y, hb, hx, hy, hD, -, -, hin, -, -, hr⟩
  · exact ⟨false, hr, by simp [hn]⟩
  · refine ⟨_, hr, ?_⟩
    simp only [Bool.and_eq_true, isPointLeftAC_iff]
    constructor
    · rintro ⟨⟨h1, h2⟩, h3⟩ i a c ha hc
      have hle : ∀ v ∈ hull, 0 ≤ orient a c v := fun v hv => h.left i a c ha hc v (h.vertices v hv)
      have key := bary a c base x y p
      have : 0 ≤ orient base x y * orient a c p := by
        rw [key]
        have e1 := mul_nonneg h2 (hle base (List.mem_of_getElem? hb))
        have e2 := mul_nonneg h3 (hle x hx)
        have e3 := mul_nonneg h1 (hle y hy)
        linarith
      exact nonneg_of_mul_nonneg_right this hD
    · intro hh
      obtain ⟨h1, h2, h3⟩ := hin hh
      exact ⟨⟨h1, h2⟩, h3⟩

/-- ... which is the convex hull of the vertices -/
theorem C42_left_of_every_edge_iff_convex_combination {pts hull : List (V2 K)} (h : IsHullLoop pts hull)
    (hl : 3 < hull.length) (p : V2 K) : InLoop hull p ↔ InTriangleOf hull p := by
  constructor
  · intro hin
    rcases contains_closed isPointLeftAllowCollinear h hl p with ⟨hr, hn⟩ |
      ⟨base, x, y, hb, hx, hy, hD, -, -, hin', -, -, hr⟩
    · exact absurd hin hn
    · obtain ⟨h1, h2, h3⟩ := hin' hin
      obtain ⟨D, hDe⟩ : ∃ D, D = orient base x y := ⟨_, rfl⟩
      obtain ⟨A, hA⟩ : ∃ A, A = orient x y p := ⟨_, rfl⟩
      obtain ⟨B, hB⟩ : ∃ B, B = orient y base p := ⟨_, rfl⟩
      obtain ⟨C, hC⟩ : ∃ C, C = orient base x p := ⟨_, rfl⟩
      rw [← hDe] at hD
      rw [← hA] at h2
      rw [← hB] at h3
      rw [← hC] at h1
      have hD0 : D ≠ 0 := hD.ne'
      refine ⟨base, List.mem_of_getElem? hb, x, hx, y, hy, A / D, B / D, C / D, div_nonneg h2 hD.le,
        div_nonneg h3 hD.le, div_nonneg h1 hD.le, ?_, ?_, ?_⟩
      · rw [← add_div, ← add_div, div_eq_one_iff_eq hD0]
        rw [hA, hB, hC, hDe]; simp only [orient]; ring
      · field_simp
        rw [hA, hB, hC, hDe]; simp only [orient]; ring
      · field_simp
        rw [hA, hB, hC, hDe]; simp only [orient]; ring
  · rintro ⟨a, ha, b, hb, c, hc, u, v, w, hu, hv, hw, hs, ex, ey⟩ i e f he hf
    have hle : ∀ v ∈ hull, 0 ≤ orient e f v := fun v hv => h.left i e f he hf v (h.vertices v hv)
    have e1 := mul_nonneg hu (hle a ha)
    have e2 := mul_nonneg hv (hle b hb)
    have e3 := mul_nonneg hw (hle c hc)
    have : orient e f p = u * orient e f a + v * orient e f b + w * orient e f c := by
      simp only [orient]
      rw [ex, ey]
      linear_combination ((f.x - e.x) * e.y - (f.y - e.y) * e.x) * hs
    rw [this]; linarith

/-- `contains_point_inclusive` on the hull without its closing point -/
theorem C42_inclusive_open_hull {pts w : List (V2 K)} {base : V2 K} (hb : w[0]? = some base)
    (h : IsHullLoop pts (w ++ [base])) (hl : 3 ≤ w.length) (p : V2 K) :
    ∃ r, containsPointInclusive w p = .ok r ∧ (r = true ↔ InLoop (w ++ [base]) p) := by
  have hlL : (w ++ [base]).length = w.length + 1 := by simp
  have hg : ∀ {k : Nat} {a : V2 K}, w[k]? = some a → (w ++ [base])[k]? = some a := by
    intro k a ha
    rw [List.getElem?_append_left (List.getElem?_eq_some_iff.1 ha).1, ha]
  have hlast : (w ++ [base])[w.length]? = some base := by simp
  have hcall : containsPointInclusive w p = (do
      match ← containsLoop base p (w.length + 1) w false with
      | none => .ok false
      | some (slice, retain) => containsFinal isPointLeftAllowCollinear base p slice retain : Except Err Bool) := by
    obtain ⟨y, hy⟩ : ∃ y, w[w.length - 1]? = some y := ⟨_, List.getElem?_eq_getElem (by omega)⟩
    have hne : base.beq y = false := by
      rw [← Bool.not_eq_true, beq_iff]
      exact h.ne_of_index (i := 0) (j := w.length - 1) (hg hb) (hg hy) (by omega) (Or.inl (by omega))
    match w, hl, hb, hy with
    | a :: b :: c :: t, _, hb, hy =>
      simp at hb
      subst hb
      unfold containsPointInclusive containsPoint
      have : idx (a :: b :: c :: t) ((a :: b :: c :: t).length - 1) = .ok y := by
        unfold idx; rw [hy]
      simp only [List.isEmpty_cons, Bool.false_and, Bool.false_eq_true, if_false, this]
      simp only [bind, Except.bind, hne, Bool.false_eq_true, if_false]
      cases containsLoop a p ((a :: b :: c :: t).length + 1) (a :: b :: c :: t) false with
      | error e => rfl
      | ok v => cases v <;> rfl
  rw [hcall]
  rcases contains_core isPointLeftAllowCollinear w base p hb hl with ⟨hr, k, a, b, ha, hb, hneg⟩ |
    ⟨k, x, y, hk, hx, hy, hend, hst, hr⟩
  · refine ⟨false, hr, by simp; exact fun hin => absurd (hin k a b (hg ha) (hg hb)) (not_le.2 hneg)⟩
  · refine ⟨_, hr, ?_⟩
    have hyl := (List.getElem?_eq_some_iff.1 hy).1
    have hD : 0 < orient base x y := h.fan (hg hb) (hg hx) (hg hy) (by omega) (by omega)
    simp only [Bool.and_eq_true, isPointLeftAC_iff]
    constructor
    · rintro ⟨⟨h1, h2⟩, h3⟩ i a c ha hc
      have hle : ∀ {k : Nat} {v : V2 K}, w[k]? = some v → 0 ≤ orient a c v :=
        fun hv => h.left i a c ha hc _ (h.vertices _ (List.mem_of_getElem? (hg hv)))
      have key := bary a c base x y p
      have : 0 ≤ orient base x y * orient a c p := by
        rw [key]
        have e1 := mul_nonneg h2 (hle hb)
        have e2 := mul_nonneg h3 (hle hx)
        have e3 := mul_nonneg h1 (hle hy)
        linarith
      exact nonneg_of_mul_nonneg_right this hD
    · intro hin
      refine ⟨⟨?_, hin k x y (hg hx) (hg hy)⟩, ?_⟩
      · rcases hst with rfl | hst
        · exact hin 0 base x (hg hb) (hg hx)
        · exact hst
      · rcases hend with hend | hend
        · exact hin (k + 1) y base (hg hy) (by rw [show k + 1 + 1 = w.length by omega]; exact hlast)
        · have : orient y base p = - orient base y p := by simp only [orient]; ring
          rw [this]; linarith

/-- `LineString2::contains_point_inclusive`: the same for a closed line, and false for an open one -/
theorem C42_line_inclusive {pts hull : List (V2 K)} (h : IsHullLoop pts hull) (hl : 3 < hull.length) (p : V2 K) :
    lineContainsInclusive hull p = containsPointInclusive hull p := by
  unfold lineContainsInclusive
  rw [if_pos]
  match hull, h, hl with
  | a :: b :: t, h, hl =>
    have := h.last_eq
    simp only [isConnected2, List.length_cons] at this ⊢
    have hc := h.closed
    rw [List.head?_cons] at hc
    simp [isConnected2, ← hc, beq_iff]

theorem C42_line_open_false (l : List (V2 K)) (p : V2 K) (h : l.head? ≠ l.getLast?) :
    lineContainsInclusive l p = .ok false ∧ lineContainsExclusive l p = .ok false := by
  have : isConnected2 l = false := by
    cases l with
    | nil => simp at h
    | cons a t =>
      obtain ⟨b, hb⟩ : ∃ b, (a :: t).getLast? = some b := ⟨_, List.getLast?_eq_some_getLast (by simp)⟩
      rw [hb] at h
      simp only [isConnected2, hb, List.head?_cons]
      rw [← Bool.not_eq_true]
      simp only [Bool.and_eq_true, not_and, beq_iff]
      intro e
      apply h
      simp [e]
  simp [lineContainsInclusive, lineContainsExclusive, this]

/-- `contains_point_exclusive` only accepts points strictly inside -/
theorem C43_exclusive_sound {pts hull : List (V2 K)} (h : IsHullLoop pts hull) (hl : 3 < hull.length) (p : V2 K) :
    ∃ r, containsPointExclusive hull p = .ok r ∧ (r = true → InsideLoop hull p) := by
  unfold containsPointExclusive
  rcases contains_closed isPointLeft h hl p with ⟨hr, hn⟩ |
    ⟨base, x, y, hb, hx, hy, hD, hxb, hyb, -, -, ⟨k, hkx, hky⟩, hr⟩
  · exact ⟨false, hr, by simp⟩
  · refine ⟨_, hr, ?_⟩
    simp only [Bool.and_eq_true, isPointLeft_iff]
    rintro ⟨⟨h1, h2⟩, h3⟩ i a c ha hc
    have hxy : x ≠ y := by
      rintro rfl
      have : orient base x x = 0 := by simp only [orient]; ring
      exact hD.ne' this
    have hle : ∀ v ∈ hull, 0 ≤ orient a c v := fun v hv => h.left i a c ha hc v (h.vertices v hv)
    have hlt : ∀ v ∈ hull, v ≠ a → v ≠ c → 0 < orient a c v := by
      intro v hv h1 h2
      obtain ⟨j, hj⟩ := List.mem_iff_getElem?.1 hv
      exact IsHullLoop.strictLeft j h hl ha hc hj h1 h2
    have hbm := List.mem_of_getElem? hb
    have key := bary a c base x y p
    have e1 := mul_nonneg h2.le (hle base hbm)
    have e2 := mul_nonneg h3.le (hle x hx)
    have e3 := mul_nonneg h1.le (hle y hy)
    have : 0 < orient base x y * orient a c p := by
      rw [key]
      by_cases hba : base = a ∨ base = c
      · by_cases hxa : x = a ∨ x = c
        · have : y ≠ a ∧ y ≠ c := by
            rcases hba with rfl | rfl <;> rcases hxa with rfl | rfl
            · exact absurd rfl hxb
            · exact ⟨hyb, Ne.symm hxy⟩
            · exact ⟨Ne.symm hxy, hyb⟩
            · exact absurd rfl hxb
          have := mul_pos h1 (hlt y hy this.1 this.2)
          linarith
        · rw [not_or] at hxa
          have := mul_pos h3 (hlt x hx hxa.1 hxa.2)
          linarith
      · rw [not_or] at hba
        have := mul_pos h2 (hlt base hbm hba.1 hba.2)
        linarith
    exact pos_of_mul_pos_right this hD.le

/-- ... and accepts every point strictly inside that is on none of the lines through the second point
of the loop and another vertex -/
theorem C43_exclusive_complete {pts hull : List (V2 K)} (h : IsHullLoop pts hull) (hl : 3 < hull.length) (p base : V2 K)
    (hb : hull[1]? = some base) (hin : InsideLoop hull p)
    (hoff : ∀ v ∈ hull, v ≠ base → orient base v p ≠ 0) : containsPointExclusive hull p = .ok true := by
  have hin' : InLoop hull p := fun i a c ha hc => (hin i a c ha hc).le
  unfold containsPointExclusive
  rcases contains_closed isPointLeft h hl p with ⟨hr, hn⟩ |
    ⟨base', x, y, hb', hx, hy, hD, hxb, hyb, h1, h2, -, hr⟩
  · exact absurd hin' hn
  · rw [hb] at hb'
    simp only [Option.some_inj] at hb'
    subst hb'
    obtain ⟨g1, g2, g3⟩ := h1 hin'
    have : (isPointLeft base x p && isPointLeft x y p && isPointLeft y base p) = true := by
      simp only [Bool.and_eq_true, isPointLeft_iff]
      refine ⟨⟨lt_of_le_of_ne g1 (Ne.symm (hoff x hx hxb)), h2 hin⟩, lt_of_le_of_ne g3 (Ne.symm ?_)⟩
      have e : orient y base p = - orient base y p := by simp only [orient]; ring
      rw [e, neg_ne_zero]
      exact hoff y hy hyb
    rw [hr, this]

theorem C43_line_exclusive {pts hull : List (V2 K)} (h : IsHullLoop pts hull) (hl : 3 < hull.length) (p : V2 K) :
    lineContainsExclusive hull p = containsPointExclusive hull p := by
  have := C42_line_inclusive h hl p
  unfold lineContainsExclusive
  rw [if_pos]
  match hull, h, hl with
  | a :: b :: t, h, hl =>
    have hc := h.closed
    rw [List.head?_cons] at hc
    simp [isConnected2, ← hc, beq_iff]

theorem allM_ok {A : Type} (f : A → Except Err Bool) (g : A → Bool) : ∀ l : List A, (∀ a ∈ l, f a = .ok (g a)) →
    allM f l = .ok (l.all g) := by
  intro l
  induction l with
  | nil => intro _; rfl
  | cons a l ih =>
    intro h
    simp only [allM, h a List.mem_cons_self, bind, Except.bind, List.all_cons]
    cases hg : g a
    · simp
    · simp [ih (fun b hb => h b (List.mem_cons_of_mem _ hb))]

/-- `contains_convex_hull` and `contains_convex_hull_par` answer whether all points of the second line are
on or left of every edge of the first, for every order in which the parallel version looks at them -/
theorem C44_contains_hull_iff {pts hull : List (V2 K)} (h : IsHullLoop pts hull) (hl : 3 < hull.length)
    (b : List (V2 K)) :
    ∃ r, containsConvexHull hull b = .ok r ∧
      (∀ order : List (V2 K) → List (V2 K), (∀ l, (order l).Perm l) → containsConvexHullPar order hull b = .ok r) ∧
      (r = true ↔ ∀ q ∈ b, InLoop hull q) := by
  classical
  have hg : ∀ q, containsPointInclusive hull q = .ok (decide (InLoop hull q)) := by
    intro q
    obtain ⟨r, hr, hi⟩ := C42_inclusive_iff_left_of_every_edge h hl q
    rw [hr]
    congr 1
    by_cases hq : InLoop hull q
    · rw [hi.2 hq]; simp [hq]
    · simp only [hq, decide_false]
      rw [← Bool.not_eq_true]
      exact fun e => hq (hi.1 e)
  have hpc : ¬ pointCount2 hull ≤ 1 := by
    unfold pointCount2
    split <;> omega
  refine ⟨b.all (fun q => decide (InLoop hull q)), ?_, ?_, by simp⟩
  · unfold containsConvexHull
    rw [if_neg hpc]
    cases b with
    | nil => simp
    | cons b0 b =>
      simp only [List.isEmpty_cons, Bool.false_eq_true, if_false]
      obtain ⟨e0, h0⟩ : ∃ e0, hull[hull.length / 2 - 1]? = some e0 := ⟨_, List.getElem?_eq_getElem (by omega)⟩
      obtain ⟨e1, h1⟩ : ∃ e1, hull[hull.length / 2]? = some e1 := ⟨_, List.getElem?_eq_getElem (by omega)⟩
      obtain ⟨b1, h2⟩ : ∃ b1, (b0 :: b)[(b0 :: b).length / 2]? = some b1 :=
        ⟨_, List.getElem?_eq_getElem (by simp; omega)⟩
      have i0 : idx hull (hull.length / 2 - 1) = .ok e0 := by simp [idx, h0]
      have i1 : idx hull (hull.length / 2) = .ok e1 := by simp [idx, h1]
      have i2 : idx (b0 :: b) ((b0 :: b).length / 2) = .ok b1 := by unfold idx; rw [h2]
      have i3 : idx (b0 :: b) 0 = .ok b0 := rfl
      simp only [i0, i1, i2, i3, bind, Except.bind]
      have hedge : ∀ q ∈ b0 :: b, isPointLeftAllowCollinear e0 e1 q = false →
          Except.ok false = (Except.ok ((b0 :: b).all fun q => decide (InLoop hull q)) : Except Err Bool) := by
        intro q hq hn
        congr 1
        symm
        rw [← Bool.not_eq_true]
        intro hall
        rw [List.all_eq_true] at hall
        have := of_decide_eq_true (hall q hq) (hull.length / 2 - 1) e0 e1 h0
          (by rw [show hull.length / 2 - 1 + 1 = hull.length / 2 by omega]; exact h1)
        rw [← isPointLeftAC_iff, hn] at this
        simp at this
      cases c0 : isPointLeftAllowCollinear e0 e1 b0
      · simp only [Bool.not_false, Bool.true_or, if_true]
        exact hedge b0 (by simp) c0
      · cases c1 : isPointLeftAllowCollinear e0 e1 b1
        · simp only [Bool.not_false, Bool.or_true, if_true]
          exact hedge b1 (List.mem_of_getElem? h2) c1
        · simp only [Bool.not_true, Bool.or_self, Bool.false_eq_true, if_false]
          exact allM_ok _ _ _ (fun q _ => hg q)
  · intro order horder
    unfold containsConvexHullPar
    rw [if_neg hpc]
    have hall : (order b).all (fun q => decide (InLoop hull q)) = b.all (fun q => decide (InLoop hull q)) :=
      (horder b).all_eq
    cases b with
    | nil => simp
    | cons b0 b =>
      simp only [List.isEmpty_cons, Bool.false_eq_true, if_false]
      rw [← hall]
      exact allM_ok _ _ _ (fun q _ => hg q)

/-- The hull of some points contains another line iff that line's hull is contained: here for the hull
of the points themselves. -/
theorem C44_hull_contains_its_points {pts hull : List (V2 K)} (h : IsHullLoop pts hull) (hl : 3 < hull.length) :
    containsConvexHull hull pts = .ok true := by
  obtain ⟨r, hr, -, hi⟩ := C44_contains_hull_iff h hl pts
  rw [hr, hi.2 (fun q hq i a b ha hb => h.left i a b ha hb q hq)]
end

/-- the unit square, as returned by the hull algorithms for its corners and centre -/
def unitSquare : List (V2 ℚ) := [⟨0, 0⟩, ⟨2, 0⟩, ⟨2, 2⟩, ⟨0, 2⟩, ⟨0, 0⟩]

/-- The hypotheses of the theorems of C42, C43, C44 are met: a square. -/
theorem unitSquare_hull : IsHullLoop unitSquare unitSquare ∧ 3 < unitSquare.length := by
  have hg : ∀ (i : Nat) (a : V2 ℚ), unitSquare[i]? = some a → i < 5 := by
    intro i a h
    have := (List.getElem?_eq_some_iff.1 h).1
    simpa [unitSquare] using this
  refine ⟨⟨by decide, by decide, by decide, by decide, ?_, ?_, ?_, ?_⟩, by decide⟩
  · intro i a b ha hb
    have hi := hg _ _ hb
    have : i < 4 := by omega
    interval_cases i <;> simp [unitSquare] at ha hb <;> subst ha <;> subst hb <;> decide +kernel
  · intro _ i a b c ha hb hc
    have hi := hg _ _ hc
    have : i < 3 := by omega
    interval_cases i <;> simp [unitSquare] at ha hb hc <;> subst ha <;> subst hb <;> subst hc <;> decide +kernel
  · intro _ a b c ha hb hc
    simp [unitSquare] at ha hb hc
    subst ha; subst hb; subst hc
    decide +kernel
  · intro a b c h
    simp [unitSquare] at h

example : containsPointInclusive unitSquare ⟨1, 2⟩ = .ok true ∧ containsPointInclusive unitSquare ⟨1, 3⟩ = .ok false ∧
    containsPointExclusive unitSquare ⟨1, 1/2⟩ = .ok true ∧ containsPointExclusive unitSquare ⟨1, 2⟩ = .ok false ∧
    containsConvexHull unitSquare [⟨1, 1⟩, ⟨2, 0⟩] = .ok true ∧ containsConvexHull unitSquare [⟨1, 1⟩, ⟨3, 0⟩] = .ok false := by
  decide +kernel

/-- The centre of a square is strictly inside, but `contains_point_exclusive` says no: it is on the
diagonal of the bisection. -/
theorem C43_exclusive_rejects_interior_points :
    containsPointExclusive unitSquare ⟨1, 1⟩ = .ok false ∧
    ∀ e ∈ windows2 unitSquare, 0 < orient e.1 e.2 (⟨1, 1⟩ : V2 ℚ) := by
  decide +kernel

/-- Degenerate hulls: a doubled point contains every point, ... -/
theorem C42_doubled_point_contains_everything {K : Type} [Scalar K] [Field K] [LinearOrder K] [ExactScalar K]
    (a p : V2 K) : containsPointInclusive [a, a] p = .ok true := by
  have hb : a.beq a = true := (beq_iff a a).2 rfl
  have ho : isPointLeftAllowCollinear a a p = true := by
    rw [isPointLeftAC_iff]
    apply le_of_eq
    simp only [orient]; ring
  simp [containsPointInclusive, containsPoint, hb, idx, bind, Except.bind, containsLoop, containsFinal, windows2, ho]

/-- ... and the flat hull of a segment (what the hull algorithms return for points on a line) contains
exactly the points of the infinite line. -/
theorem C42_flat_hull_contains_the_line {K : Type} [Scalar K] [Field K] [LinearOrder K] [ExactScalar K]
    (a b p : V2 K) : containsPointInclusive [a, b, a] p = .ok (decide (orient a b p = 0)) := by
  have hb : a.beq a = true := (beq_iff a a).2 rfl
  have h1 : orient b a p = - orient a b p := by simp only [orient]; ring
  have key : (isPointLeftAllowCollinear b a p && isPointLeftAllowCollinear a b p) = decide (orient a b p = 0) := by
    rw [Bool.eq_iff_iff, Bool.and_eq_true, isPointLeftAC_iff, isPointLeftAC_iff, h1, decide_eq_true_eq]
    constructor
    · rintro ⟨h, h'⟩; linarith
    · intro h; rw [h]; simp
  simp [containsPointInclusive, containsPoint, hb, idx, bind, Except.bind, containsLoop, containsFinal, windows2, key]

end Verif.Props
