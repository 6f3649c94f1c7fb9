import Verif.Proofs.HullFan
/-!
# Strictly convex loops: rotation, and the bisection of the containment test
-/
set_option linter.unusedSectionVars false
set_option linter.unusedVariables false
set_option linter.unusedSimpArgs false
namespace Verif.Hull
open Verif Verif.Spec Verif.Model

section
variable {K : Type} [Field K] [LinearOrder K] [IsStrictOrderedRing K]

theorem _root_.Verif.Spec.IsHullLoop.last_eq {pts hull : List (V2 K)} (h : IsHullLoop pts hull) :
    hull[hull.length - 1]? = hull[0]? := by
  have := h.closed
  rw [List.head?_eq_getElem?, List.getLast?_eq_getElem?] at this
  exact this.symm

/-- the loop from its second vertex -/
def rotLoop (hull : List (V2 K)) : List (V2 K) := hull.tail ++ (hull.tail.head?).toList

theorem rotLoop_length {hull : List (V2 K)} (h : 2 ≤ hull.length) : (rotLoop hull).length = hull.length := by
  match hull, h with
  | a :: b :: t, _ => simp [rotLoop]

theorem rotLoop_get {hull : List (V2 K)} (h : 2 ≤ hull.length) {i : Nat} (hi : i + 1 < hull.length) :
    (rotLoop hull)[i]? = hull[i + 1]? := by
  match hull, h with
  | a :: b :: t, _ =>
    simp only [rotLoop, List.tail_cons, List.head?_cons, Option.toList_some, List.getElem?_cons_succ]
    rw [List.getElem?_append_left (by simp at hi ⊢; omega)]

theorem rotLoop_get_last {hull : List (V2 K)} (h : 2 ≤ hull.length) :
    (rotLoop hull)[hull.length - 1]? = hull[1]? := by
  match hull, h with
  | a :: b :: t, _ => simp [rotLoop]

theorem rotLoop_edge {pts hull : List (V2 K)} (h : IsHullLoop pts hull) {i : Nat} {a b : V2 K}
    (ha : hull[i]? = some a) (hb : hull[i + 1]? = some b) :
    ∃ k, (rotLoop hull)[k]? = some a ∧ (rotLoop hull)[k + 1]? = some b := by
  have h2 : 2 ≤ hull.length := by have := h.len; omega
  have hbl := (List.getElem?_eq_some_iff.1 hb).1
  cases i with
  | zero =>
    refine ⟨hull.length - 2, ?_, ?_⟩
    · rw [rotLoop_get h2 (by omega), show hull.length - 2 + 1 = hull.length - 1 by omega, h.last_eq, ha]
    · rw [show hull.length - 2 + 1 = hull.length - 1 by omega, rotLoop_get_last h2, hb]
  | succ i => exact ⟨i, by rw [rotLoop_get h2 (by omega), ha], by rw [rotLoop_get h2 hbl, hb]⟩

theorem rotLoop_edge' {pts hull : List (V2 K)} (h : IsHullLoop pts hull) {i : Nat} {a b : V2 K}
    (ha : (rotLoop hull)[i]? = some a) (hb : (rotLoop hull)[i + 1]? = some b) :
    ∃ k, hull[k]? = some a ∧ hull[k + 1]? = some b := by
  have h2 : 2 ≤ hull.length := by have := h.len; omega
  have hbl := (List.getElem?_eq_some_iff.1 hb).1
  rw [rotLoop_length h2] at hbl
  rw [rotLoop_get h2 (by omega)] at ha
  by_cases hl : i + 2 < hull.length
  · exact ⟨i + 1, ha, by rw [← rotLoop_get h2 hl]; exact hb⟩
  · have e : i + 1 = hull.length - 1 := by omega
    rw [e, h.last_eq] at ha
    rw [e, rotLoop_get_last h2] at hb
    exact ⟨0, ha, hb⟩

theorem _root_.Verif.Spec.IsHullLoop.rot {pts hull : List (V2 K)} (h : IsHullLoop pts hull) (hl : 3 < hull.length) :
    IsHullLoop pts (rotLoop hull) := by
  have h2 : 2 ≤ hull.length := by omega
  have hlen := rotLoop_length h2
  have hlast := h.last_eq
  refine ⟨by omega, ?_, ?_, ?_, ?_, ?_, ?_, ?_⟩
  · rw [List.head?_eq_getElem?, List.getLast?_eq_getElem?, hlen, rotLoop_get_last h2, rotLoop_get h2 (by omega)]
  · intro v hv
    apply h.vertices
    match hull, h2 with
    | a :: b :: t, _ => simp [rotLoop] at hv ⊢; tauto
  · have := h.once
    match hull, h2, this with
    | a :: b :: t, _, this =>
      simp only [rotLoop, List.tail_cons, List.head?_cons, Option.toList_some, List.cons_append] at this ⊢
      exact (List.perm_append_singleton b t).nodup_iff.2 this
  · intro i a b ha hb p hp
    obtain ⟨k, h1, h2⟩ := rotLoop_edge' h ha hb
    exact h.left k a b h1 h2 p hp
  · intro _ i a b c ha hb hc
    have hcl := (List.getElem?_eq_some_iff.1 hc).1
    rw [hlen] at hcl
    rw [rotLoop_get h2 (by omega)] at ha hb
    by_cases hl3 : i + 3 < hull.length
    · rw [rotLoop_get h2 hl3] at hc
      exact h.turn hl (i + 1) a b c ha hb hc
    · have e : i + 2 = hull.length - 1 := by omega
      rw [e, rotLoop_get_last h2] at hc
      rw [show i + 1 + 1 = hull.length - 1 by omega, hlast] at hb
      rw [show i + 1 = hull.length - 2 by omega] at ha
      exact h.turnClosing hl a b c ha hb hc
  · intro _ a b c ha hb hc
    rw [hlen, rotLoop_get h2 (by omega), show hull.length - 2 + 1 = hull.length - 1 by omega, hlast] at ha
    rw [rotLoop_get h2 (by omega)] at hb hc
    exact h.turn hl 0 a b c ha hb hc
  · intro a b c e
    have := congrArg List.length e
    simp [hlen] at this
    omega

/-- every vertex that is not an end of the edge is strictly left of it -/
theorem _root_.Verif.Spec.IsHullLoop.strictLeft {pts : List (V2 K)} : ∀ (j : Nat) {hull : List (V2 K)},
    IsHullLoop pts hull → 3 < hull.length → ∀ {i : Nat} {a b v : V2 K}, hull[i]? = some a → hull[i + 1]? = some b →
    hull[j]? = some v → v ≠ a → v ≠ b → 0 < orient a b v := by
  intro j
  induction j with
  | zero =>
    intro hull h hl i a b v ha hb hv hva hvb
    have hbl := (List.getElem?_eq_some_iff.1 hb).1
    have h0 : 0 < i := by
      rcases Nat.eq_zero_or_pos i with rfl | h'
      · rw [ha] at hv; exact absurd (by simpa using hv.symm) hva
      · exact h'
    have h1 : i + 2 < hull.length := by
      by_contra hc
      have : i + 1 = hull.length - 1 := by omega
      rw [this, h.last_eq, hv] at hb
      exact absurd (by simpa using hb) hvb
    rw [← orient_rot]
    exact h.fan hv ha hb h0 h1
  | succ j ih =>
    intro hull h hl i a b v ha hb hv hva hvb
    have h2 : 2 ≤ hull.length := by omega
    have hvl := (List.getElem?_eq_some_iff.1 hv).1
    obtain ⟨k, h3, h4⟩ := rotLoop_edge h ha hb
    exact ih (h.rot hl) (by rw [rotLoop_length h2]; exact hl) h3 h4 (by rw [rotLoop_get h2 hvl, hv]) hva hvb
end

section
variable {K : Type} [Scalar K] [Field K] [LinearOrder K] [ExactScalar K]

/-- where the bisection ends -/
theorem containsLoop_ok (w : List (V2 K)) (base p : V2 K) (hbase : w[0]? = some base) (h3 : 3 ≤ w.length) :
    ∀ (fuel i len : Nat) (retain : Bool), len < fuel → i + len ≤ w.length →
    (retain = false → i = 0 ∧ 3 ≤ len) →
    (retain = true → 1 ≤ i ∧ 2 ≤ len ∧ ∀ x, w[i]? = some x → 0 ≤ orient base x p) →
    (i + len = w.length ∨ ∀ y, w[i + len - 1]? = some y → orient base y p < 0) →
    (containsLoop base p fuel ((w.drop i).take len) retain = .ok none ∧
      ∃ (k : Nat) (a b : V2 K), w[k]? = some a ∧ w[k + 1]? = some b ∧ orient a b p < 0) ∨
    ∃ (k : Nat) (x y : V2 K), 1 ≤ k ∧ w[k]? = some x ∧ w[k + 1]? = some y ∧
      (k + 2 = w.length ∨ orient base y p < 0) ∧
      ((containsLoop base p fuel ((w.drop i).take len) retain = .ok (some ([base, x, y], false)) ∧ k = 1) ∨
       (containsLoop base p fuel ((w.drop i).take len) retain = .ok (some ([x, y], true)) ∧ 0 ≤ orient base x p)) := by
  intro fuel
  induction fuel with
  | zero => intro i len retain h; omega
  | succ fuel ih =>
    intro i len retain hf hil hfalse htrue hend
    have hlen : ((w.drop i).take len).length = len := by simp; omega
    have hget : ∀ k, k < len → ((w.drop i).take len)[k]? = w[i + k]? := by
      intro k hk
      rw [List.getElem?_take_of_lt hk, List.getElem?_drop]
    have hidx : ∀ k x, k < len → w[i + k]? = some x → idx ((w.drop i).take len) k = .ok x := by
      intro k x hk hx
      simp [idx, hget k hk, hx]
    have hdrop : ∀ m, m ≤ len → ((w.drop i).take len).drop m = (w.drop (i + m)).take (len - m) := by
      intro m hm
      rw [List.drop_take, List.drop_drop]
    have htake : ∀ m, m ≤ len → ((w.drop i).take len).take m = (w.drop i).take m := by
      intro m hm
      rw [List.take_take, Nat.min_eq_left hm]
    unfold containsLoop
    rw [hlen]
    by_cases hgo : (decide (len > 3) || (retain && decide (len > 2))) = true
    · rw [if_pos hgo]
      obtain ⟨mid, hmid⟩ : ∃ m, m = (if retain then (len + 1) / 2 - 1 else len / 2) := ⟨_, rfl⟩
      have hm : 1 ≤ mid ∧ mid + 1 < len ∧ (retain = false → 2 ≤ mid) := by
        cases retain
        · simp at hgo hmid
          have := hfalse rfl
          omega
        · simp at hgo hmid
          exact ⟨by omega, by omega, by simp⟩
      obtain ⟨a, ha⟩ : ∃ a, w[i + (mid - 1)]? = some a := ⟨_, List.getElem?_eq_getElem (by omega)⟩
      obtain ⟨m, hmm⟩ : ∃ m, w[i + mid]? = some m := ⟨_, List.getElem?_eq_getElem (by omega)⟩
      obtain ⟨s0, hs0⟩ : ∃ s0, w[i + 0]? = some s0 := ⟨_, List.getElem?_eq_getElem (by omega)⟩
      simp only [← hmid]
      rw [hidx _ a (by omega) ha, hidx _ m (by omega) hmm]
      simp only [bind, Except.bind]
      by_cases he : isPointLeftAllowCollinear a m p = true
      · rw [if_neg (by simp [he]), hidx 0 s0 (by omega) hs0]
        simp only
        have hs : retain = false → s0 = base := by
          intro hr
          rw [(hfalse hr).1, Nat.zero_add, hbase] at hs0
          simpa using hs0.symm
        have hcond : ((retain && isPointLeftAllowCollinear base m p || !retain && isPointLeftAllowCollinear s0 m p) = true)
            ↔ 0 ≤ orient base m p := by
          cases hr : retain
          · simp [hs hr, isPointLeftAC_iff]
          · simp [isPointLeftAC_iff]
        by_cases hc : 0 ≤ orient base m p
        · rw [if_pos (hcond.2 hc), hdrop mid (by omega)]
          apply ih (i + mid) (len - mid) true (by omega) (by omega) (by simp)
          · intro _
            refine ⟨by omega, by omega, fun x hx => ?_⟩
            rw [hmm] at hx
            simp only [Option.some_inj] at hx
            rw [← hx]; exact hc
          · rcases hend with h | h
            · left; omega
            · right
              rw [show i + mid + (len - mid) - 1 = i + len - 1 by omega]
              exact h
        · rw [if_neg (fun h => hc (hcond.1 h)), htake (mid + 1) (by omega)]
          apply ih i (mid + 1) retain (by omega) (by omega)
          · intro hr
            have := hfalse hr
            have := hm.2.2 hr
            exact ⟨by omega, by omega⟩
          · intro hr
            have := htrue hr
            exact ⟨this.1, by omega, this.2.2⟩
          · right
            intro y hy
            rw [show i + (mid + 1) - 1 = i + mid by omega, hmm] at hy
            simp only [Option.some_inj] at hy
            rw [← hy]
            exact not_le.1 hc
      · rw [if_pos (by simp [he])]
        left
        refine ⟨rfl, i + (mid - 1), a, m, ha, by rw [show i + (mid - 1) + 1 = i + mid by omega]; exact hmm, ?_⟩
        exact not_le.1 (fun h => he ((isPointLeftAC_iff a m p).2 h))
    · rw [if_neg hgo]
      right
      cases hr : retain
      · rw [hr] at hgo
        obtain ⟨rfl, h3'⟩ := hfalse hr
        simp at hgo
        obtain rfl : len = 3 := by omega
        match w, h3, hbase with
        | b0 :: x :: y :: t, _, hb =>
          simp at hb
          subst hb
          refine ⟨1, x, y, le_refl _, rfl, rfl, ?_, Or.inl ⟨rfl, rfl⟩⟩
          rcases hend with h | h
          · left; simp at h ⊢; omega
          · right; exact h y rfl
      · rw [hr] at hgo
        obtain ⟨h1, h2', hx'⟩ := htrue hr
        simp at hgo
        obtain rfl : len = 2 := by omega
        obtain ⟨x, hx⟩ : ∃ x, w[i]? = some x := ⟨_, List.getElem?_eq_getElem (by omega)⟩
        obtain ⟨y, hy⟩ : ∃ y, w[i + 1]? = some y := ⟨_, List.getElem?_eq_getElem (by omega)⟩
        refine ⟨i, x, y, h1, hx, hy, ?_, Or.inr ⟨?_, hx' x hx⟩⟩
        · rcases hend with h | h
          · left; exact h
          · right; exact h y hy
        · have e : (w.drop i).take 2 = [x, y] := by
            obtain ⟨hil', ex⟩ := List.getElem?_eq_some_iff.1 hx
            obtain ⟨hil2, ey⟩ := List.getElem?_eq_some_iff.1 hy
            rw [List.drop_eq_getElem_cons hil', List.drop_eq_getElem_cons hil2, ex, ey]
            rfl
          rw [e]

/-- The answer of the bisection: a violated edge, or the three tests of one triangle of the fan. -/
theorem contains_core (test : V2 K → V2 K → V2 K → Bool) (w : List (V2 K)) (base p : V2 K)
    (hbase : w[0]? = some base) (h3 : 3 ≤ w.length) :
    let r := (do
      match ← containsLoop base p (w.length + 1) w false with
      | none => .ok false
      | some (slice, retain) => containsFinal test base p slice retain : Except Err Bool)
    (r = .ok false ∧ ∃ (k : Nat) (a b : V2 K), w[k]? = some a ∧ w[k + 1]? = some b ∧ orient a b p < 0) ∨
    ∃ (k : Nat) (x y : V2 K), 1 ≤ k ∧ w[k]? = some x ∧ w[k + 1]? = some y ∧
      (k + 2 = w.length ∨ orient base y p < 0) ∧ (k = 1 ∨ 0 ≤ orient base x p) ∧
      r = .ok (test base x p && test x y p && test y base p) := by
  have h := containsLoop_ok w base p hbase h3 (w.length + 1) 0 w.length false (by omega) (by omega)
    (fun _ => ⟨rfl, h3⟩) (by simp) (Or.inl (by omega))
  rw [List.drop_zero, List.take_length] at h
  intro r
  rcases h with ⟨h, h'⟩ | ⟨k, x, y, hk, hx, hy, hend, ⟨h, h'⟩ | ⟨h, h'⟩⟩
  · left
    refine ⟨?_, h'⟩
    simp only [r, h, bind, Except.bind]
  · right
    refine ⟨k, x, y, hk, hx, hy, hend, Or.inl h', ?_⟩
    simp [r, h, bind, Except.bind, containsFinal, idx, windows2]
  · right
    refine ⟨k, x, y, hk, hx, hy, hend, Or.inr h', ?_⟩
    simp [r, h, bind, Except.bind, containsFinal, idx, windows2]

end
end Verif.Hull
