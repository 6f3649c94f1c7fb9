import Verif.Proofs.HullLoop
import Verif.Spec.Angle
/-!
# The model of the Graham scan in exact arithmetic
-/
set_option linter.unusedSectionVars false
set_option linter.unusedVariables false
set_option linter.unusedSimpArgs false
namespace Verif.Hull
open Verif Verif.Spec Verif.Model

section
variable {K : Type} [Scalar K] [Field K] [LinearOrder K] [ExactScalar K]

theorem cross2d_eq (a b c : V2 K) : cross2d a b c = orient a b c := by
  simp only [cross2d, exact_simp, orient]
theorem isPointLeft_iff (a b c : V2 K) : isPointLeft a b c = true ↔ 0 < orient a b c := by
  simp only [isPointLeft, cross2d_eq, exact_simp]
theorem isPointLeftAC_iff (a b c : V2 K) : isPointLeftAllowCollinear a b c = true ↔ 0 ≤ orient a b c := by
  simp only [isPointLeftAllowCollinear, cross2d_eq, exact_simp]
  constructor
  · rintro (h | h)
    · exact h
    · exact h.ge
  · exact Or.inl
theorem distSq_eq (a b : V2 K) : a.distSq b = sqDist2 a b := by
  simp only [exact_simp, sqDist2]; ring
theorem beq_iff (a b : V2 K) : a.beq b = true ↔ a = b := by
  cases a; cases b
  simp only [exact_simp, V2.mk.injEq]
theorem pointOrientation_eq (a b c : V2 K) : pointOrientation a b c =
    if 0 < orient a b c then .left else if orient a b c = 0 then .collinear else .right := by
  simp only [pointOrientation, cross2d_eq, exact_simp, or_self]
  rcases lt_trichotomy (orient a b c) 0 with h | h | h
  · rw [if_neg h.ne, if_neg (not_lt.2 h.le), if_neg (not_lt.2 h.le), if_neg h.ne]
  · rw [if_pos h, if_neg (by rw [h]; exact lt_irrefl _), if_pos h]
  · rw [if_neg h.ne', if_pos h, if_pos h]

/-! ## the lowest point -/

theorem lexLt_total {a b : V2 K} (h : ¬ LexLt a b) : b = a ∨ LexLt b a := by
  rcases lt_trichotomy a.x b.x with h1 | h1 | h1
  · exact absurd (Or.inl h1) h
  · rcases lt_trichotomy a.y b.y with h2 | h2 | h2
    · exact absurd (Or.inr ⟨h1, h2⟩) h
    · left; cases a; cases b; simp only at h1 h2; rw [h1, h2]
    · exact Or.inr (Or.inr ⟨h1.symm, h2⟩)
  · exact Or.inr (Or.inl h1)
theorem lexLt_trans {a b c : V2 K} (h1 : LexLt a b) (h2 : LexLt b c) : LexLt a c := by
  rcases h1 with h1 | ⟨h1, h1'⟩ <;> rcases h2 with h2 | ⟨h2, h2'⟩
  · exact Or.inl (h1.trans h2)
  · exact Or.inl (h2 ▸ h1)
  · exact Or.inl (h1 ▸ h2)
  · exact Or.inr ⟨h1.trans h2, h1'.trans h2'⟩
theorem lexLt_not {a b c : V2 K} (h1 : ¬ LexLt c a) (h2 : LexLt b a) : ¬ LexLt c b := by
  intro h; exact h1 (lexLt_trans h h2)

theorem lowestLoop_ok {ι : Type} (get : ι → Except Err (V2 K)) (pt : ι → V2 K) (full : List ι)
    (hget : ∀ i ∈ full, get i = .ok (pt i)) : ∀ (rest : List ι) (pos mi : Nat) (m : ι),
    full.drop pos = rest → full[mi]? = some m → (∀ j ∈ full.take pos, ¬ LexLt (pt j) (pt m)) →
    ∃ (k : Nat) (i : ι), lowestLoop get rest pos mi (pt m) = .ok (k, pt i) ∧ full[k]? = some i ∧
      ∀ j ∈ full, ¬ LexLt (pt j) (pt i) := by
  intro rest
  induction rest with
  | nil =>
    intro pos mi m hd hm hmin
    refine ⟨mi, m, rfl, hm, fun j hj => hmin j ?_⟩
    have := List.take_append_drop pos full
    rw [hd, List.append_nil] at this
    rw [this]; exact hj
  | cons i rest ih =>
    intro pos mi m hd hm hmin
    have hi : full[pos]? = some i := by
      have := congrArg (·[0]?) hd
      simpa using this
    have hd' : full.drop (pos + 1) = rest := by
      have := congrArg (List.drop 1) hd
      simpa [List.drop_drop] using this
    have htake : ∀ j, j ∈ full.take (pos + 1) → j ∈ full.take pos ∨ j = i := by
      intro j hj
      rw [List.take_add_one, hi] at hj
      simpa using hj
    have keep : ¬ LexLt (pt i) (pt m) → ∀ j ∈ full.take (pos + 1), ¬ LexLt (pt j) (pt m) := by
      intro hlt j hj
      rcases htake j hj with hj | rfl
      · exact hmin j hj
      · exact hlt
    have change : LexLt (pt i) (pt m) → ∀ j ∈ full.take (pos + 1), ¬ LexLt (pt j) (pt i) := by
      intro hlt j hj
      rcases htake j hj with hj | rfl
      · exact lexLt_not (hmin j hj) hlt
      · exact lexLt_irrefl
    have hg := hget i (List.mem_of_getElem? hi)
    unfold lowestLoop
    rw [hg]
    simp only [bind, Except.bind, pcmp_ordered]
    rcases lt_trichotomy (pt i).x (pt m).x with h | h | h
    · rw [compare_lt_iff_lt.2 h]
      exact ih (pos + 1) pos i hd' hi (change (Or.inl h))
    · rw [compare_eq_iff_eq.2 h]
      simp only [lt_decide, decide_eq_true_eq]
      by_cases hy : (pt i).y < (pt m).y
      · rw [if_pos hy]
        exact ih (pos + 1) pos i hd' hi (change (Or.inr ⟨h, hy⟩))
      · rw [if_neg hy]
        refine ih (pos + 1) mi m hd' hm (keep ?_)
        rintro (h' | ⟨-, h'⟩)
        · exact absurd h h'.ne
        · exact hy h'
    · rw [compare_gt_iff_gt.2 h]
      refine ih (pos + 1) mi m hd' hm (keep ?_)
      rintro (h' | ⟨h', -⟩)
      · exact absurd h (not_lt.2 h'.le)
      · exact absurd h' h.ne'

/-- in exact arithmetic the search for the lowest point succeeds and is right -/
theorem findLowest_ok {ι : Type} (get : ι → Except Err (V2 K)) (pt : ι → V2 K) (l : List ι) (hne : l ≠ [])
    (hget : ∀ i ∈ l, get i = .ok (pt i)) :
    ∃ (k : Nat) (i : ι), findLowest false get l = .ok (k, pt i) ∧ l[k]? = some i ∧
      ∀ j ∈ l, pt j = pt i ∨ LexLt (pt i) (pt j) := by
  obtain ⟨a, l, rfl⟩ := List.exists_cons_of_ne_nil hne
  obtain ⟨k, i, h1, h2, h3⟩ := lowestLoop_ok get pt (a :: l) hget l 1 0 a rfl rfl (by
    intro j hj
    simp at hj
    rw [hj]; exact lexLt_irrefl)
  refine ⟨k, i, ?_, h2, fun j hj => (lexLt_total (h3 j hj)).imp Eq.symm id⟩
  simp only [findLowest, Bool.false_eq_true, if_false]
  rw [hget a List.mem_cons_self]
  exact h1

/-! ## the scan -/

theorem popWhile_ok {ι : Type} (get : ι → Except Err (V2 K)) (pt : ι → V2 K) (p : V2 K) :
    ∀ (st : List ι), (∀ i ∈ st, get i = .ok (pt i)) →
    ∃ st', popWhile get p st = .ok st' ∧ st'.map pt = popPts p (st.map pt) ∧ ∀ i ∈ st', i ∈ st := by
  intro st
  induction st with
  | nil => intro _; exact ⟨[], rfl, rfl, fun _ h => h⟩
  | cons a st ih =>
    intro hget
    cases st with
    | nil => exact ⟨[a], rfl, rfl, fun _ h => h⟩
    | cons b st =>
      unfold popWhile
      rw [hget a List.mem_cons_self, hget b (List.mem_cons_of_mem _ List.mem_cons_self)]
      simp only [bind, Except.bind, List.map_cons, popPts]
      by_cases hc : orient (pt b) (pt a) p ≤ 0
      · obtain ⟨st', h1, h2, h3⟩ := ih (fun i hi => hget i (List.mem_cons_of_mem _ hi))
        refine ⟨st', ?_, ?_, fun i hi => List.mem_cons_of_mem _ (h3 i hi)⟩
        · rw [if_pos]
          · exact h1
          · simp only [cross2d_eq, exact_simp]
            exact lt_or_eq_of_le hc
        · rw [if_pos hc]; exact h2
      · refine ⟨a :: b :: st, ?_, ?_, fun i hi => hi⟩
        · rw [if_neg]
          simp only [cross2d_eq, exact_simp]
          intro h
          exact hc (le_of_lt_or_eq h)
        · rw [if_neg hc]; rfl

theorem grahamLoop_ok {ι : Type} (get : ι → Except Err (V2 K)) (pt : ι → V2 K) (skip : ι → Bool) :
    ∀ (l st : List ι), (∀ i ∈ l, get i = .ok (pt i)) → (∀ i ∈ st, get i = .ok (pt i)) →
    ∃ st', grahamLoop get skip l st = .ok st' ∧
      st'.map pt = scanPts ((l.filter (fun i => !skip i)).map pt) (st.map pt) ∧
      ∀ i ∈ st', i ∈ st ∨ i ∈ l := by
  intro l
  induction l with
  | nil => intro st _ _; exact ⟨st, rfl, rfl, fun i h => Or.inl h⟩
  | cons a l ih =>
    intro st hl hst
    unfold grahamLoop
    by_cases hs : skip a = true
    · rw [if_pos hs]
      obtain ⟨st', h1, h2, h3⟩ := ih st (fun i hi => hl i (List.mem_cons_of_mem _ hi)) hst
      refine ⟨st', h1, ?_, fun i hi => (h3 i hi).imp id (List.mem_cons_of_mem _)⟩
      rw [h2, List.filter_cons_of_neg (by simp [hs])]
    · rw [if_neg hs, hl a List.mem_cons_self]
      obtain ⟨st1, e1, e2, e3⟩ := popWhile_ok get pt (pt a) st hst
      simp only [bind, Except.bind]
      rw [e1]
      obtain ⟨st', h1, h2, h3⟩ := ih (a :: st1) (fun i hi => hl i (List.mem_cons_of_mem _ hi)) (by
        intro i hi
        rcases List.mem_cons.1 hi with rfl | hi
        · exact hl _ List.mem_cons_self
        · exact hst i (e3 i hi))
      refine ⟨st', h1, ?_, fun i hi => ?_⟩
      · rw [h2, List.filter_cons_of_pos (by simp [hs])]
        simp only [List.map_cons, scanPts, e2]
      · rcases h3 i hi with h | h
        · rcases List.mem_cons.1 h with rfl | h
          · exact Or.inr List.mem_cons_self
          · exact Or.inl (e3 i h)
        · exact Or.inr (List.mem_cons_of_mem _ h)

variable [ExactAtan2 K]

theorem after_of_angleCmp {ι : Type} {s : V2 K} {i j : ι} {p q : V2 K} (hp : LexLt s p) (hq : LexLt s q)
    (h : angleCmp (angleEntry s i p) (angleEntry s j q) ≠ .gt) : After s p q := by
  simp only [angleCmp, angleEntry, exact_simp, Option.getD_some] at h
  have dir : ∀ p : V2 K, LexLt s p → 0 < p.x - s.x ∨ p.x - s.x = 0 ∧ 0 < p.y - s.y := by
    rintro p (h | ⟨h, h'⟩)
    · exact Or.inl (sub_pos.2 h)
    · exact Or.inr ⟨by rw [h]; ring, sub_pos.2 h'⟩
  have l1 := ExactAtan2.atan2_lt _ _ _ _ (dir p hp) (dir q hq)
  have l2 := ExactAtan2.atan2_lt _ _ _ _ (dir q hq) (dir p hp)
  have e1 : (p.x - s.x) * (q.y - s.y) - (p.y - s.y) * (q.x - s.x) = orient s p q := rfl
  have e2 : (q.x - s.x) * (p.y - s.y) - (q.y - s.y) * (p.x - s.x) = orient s q p := rfl
  rw [e1] at l1
  rw [e2] at l2
  generalize Scalar.atan2 (p.y - s.y) (p.x - s.x) = A at *
  generalize Scalar.atan2 (q.y - s.y) (q.x - s.x) = B at *
  rcases lt_trichotomy A B with hab | hab | hab
  · exact Or.inl (l1.1 hab)
  · have h0 : orient s p q = 0 := by
      refine le_antisymm (not_lt.1 fun hh => absurd hab (l1.2 hh).ne) ?_
      have := not_lt.1 (fun hh => absurd hab (l2.2 hh).ne')
      rw [orient_swap] at this
      linarith
    refine Or.inr ⟨h0, ?_⟩
    rw [compare_eq_iff_eq.2 hab] at h
    by_contra hlt
    apply h
    rw [Ordering.then]
    rw [compare_gt_iff_gt]
    have := not_le.1 hlt
    simp only [sqDist2] at this
    nlinarith
  · rw [compare_gt_iff_gt.2 hab] at h
    exact absurd rfl h

/-- The scan over a sorted list. `s0` is the start, `pt s0` its point. -/
theorem graham_core {ι : Type} (get : ι → Except Err (V2 K)) (pt : ι → V2 K) (skip : ι → Bool) (l : List ι)
    (s0 : ι) (srt : List (ι × K × K) → List (ι × K × K)) (hsrt : Sorts angleCmp srt)
    (hget : ∀ i ∈ l, get i = .ok (pt i)) (hs0 : s0 ∈ l)
    (hlow : ∀ j ∈ l, pt j = pt s0 ∨ LexLt (pt s0) (pt j))
    (hskip : ∀ j ∈ l, skip j = true ↔ pt j = pt s0) :
    ∃ st, grahamLoop get skip ((srt (l.map fun i => angleEntry (pt s0) i (pt i))).map (·.1)) [s0] = .ok st ∧
      (∀ i ∈ st, i ∈ l) ∧
      ((∃ j ∈ l, pt j ≠ pt s0) →
        IsHullLoop (l.map pt) ((st.reverse.map pt) ++ [pt s0]) ∧ 2 ≤ st.length ∧ st.reverse.head?.map pt = some (pt s0)) := by
  obtain ⟨hperm, hpw⟩ := hsrt (l.map fun i => angleEntry (pt s0) i (pt i))
  generalize srt (l.map fun i => angleEntry (pt s0) i (pt i)) = sorted at *
  have hent : ∀ e ∈ sorted, e.1 ∈ l ∧ e = angleEntry (pt s0) e.1 (pt e.1) := by
    intro e he
    have := hperm.mem_iff.1 he
    obtain ⟨i, hi, rfl⟩ := List.mem_map.1 this
    exact ⟨hi, rfl⟩
  have hmem : ∀ i, i ∈ sorted.map (·.1) ↔ i ∈ l := by
    intro i
    have := (hperm.map (·.1)).mem_iff (a := i)
    rw [this]
    simp [List.map_map, angleEntry, Function.comp_def]
  obtain ⟨st, h1, h2, h3⟩ := grahamLoop_ok get pt skip (sorted.map (·.1)) [s0]
    (fun i hi => hget i ((hmem i).1 hi)) (by
      intro i hi; rw [List.mem_singleton] at hi; rw [hi]; exact hget s0 hs0)
  refine ⟨st, h1, ?_, ?_⟩
  · intro i hi
    rcases h3 i hi with h | h
    · rw [List.mem_singleton] at h; rw [h]; exact hs0
    · exact (hmem i).1 h
  rintro ⟨j, hj, hjs⟩
  obtain ⟨L, hL⟩ : ∃ L, L = ((sorted.map (·.1)).filter (fun i => !skip i)).map pt := ⟨_, rfl⟩
  have hLmem : ∀ x, x ∈ L ↔ ∃ i ∈ l, pt i ≠ pt s0 ∧ pt i = x := by
    intro x
    rw [hL, List.mem_map]
    constructor
    · rintro ⟨i, hi, rfl⟩
      rw [List.mem_filter] at hi
      have hil := (hmem i).1 hi.1
      refine ⟨i, hil, fun e => ?_, rfl⟩
      have := (hskip i hil).2 e
      simp [this] at hi
    · rintro ⟨i, hi, hne, rfl⟩
      refine ⟨i, List.mem_filter.2 ⟨(hmem i).2 hi, ?_⟩, rfl⟩
      have : ¬ skip i = true := fun e => hne ((hskip i hi).1 e)
      simp [this]
  have hLlex : ∀ x ∈ L, LexLt (pt s0) x := by
    intro x hx
    obtain ⟨i, hi, hne, rfl⟩ := (hLmem x).1 hx
    exact (hlow i hi).resolve_left hne
  have hLpw : L.Pairwise (After (pt s0)) := by
    rw [hL, List.pairwise_map, List.pairwise_filter, List.pairwise_map]
    refine List.Pairwise.imp_of_mem ?_ hpw
    intro a b ha hb hab hsa hsb
    have ea := (hent a ha).2
    have eb := (hent b hb).2
    have la : LexLt (pt s0) (pt a.1) := (hlow a.1 (hent a ha).1).resolve_left
      (fun e => by have := (hskip _ (hent a ha).1).2 e; simp [this] at hsa)
    have lb : LexLt (pt s0) (pt b.1) := (hlow b.1 (hent b hb).1).resolve_left
      (fun e => by have := (hskip _ (hent b hb).1).2 e; simp [this] at hsb)
    rw [ea, eb] at hab
    exact after_of_angleCmp la lb hab
  have hstart : ScanDone (pt s0) ([] : List (V2 K)) (pt s0) [] :=
    ⟨rfl, fun _ h => (List.not_mem_nil h).elim, fun _ => rfl⟩
  obtain ⟨a', st', hsc, hdone⟩ := scan_chain L [] (pt s0) [] hstart hLlex (by simp) (by simp) hLpw
  have hjL : pt j ∈ L := (hLmem _).2 ⟨j, hj, hjs, rfl⟩
  have hst' : st' ≠ [] := by
    intro e
    have := hdone.short e
    rw [List.append_nil, List.reverse_eq_nil_iff] at this
    rw [this] at hjL
    cases hjL
  have hmap : st.map pt = a' :: st' := by
    rw [h2, ← hL]; exact hsc
  have hh := hdone.hull (pts := l.map pt) hst' (List.mem_map_of_mem hs0)
    (fun x hx => hLlex x (by simpa using hx)) (by
      intro p
      simp only [List.append_nil, List.mem_reverse, List.mem_map, hLmem]
      constructor
      · rintro ⟨i, hi, rfl⟩
        by_cases e : pt i = pt s0
        · exact Or.inl e
        · exact Or.inr ⟨i, hi, e, rfl⟩
      · rintro (rfl | ⟨i, hi, -, rfl⟩)
        · exact ⟨s0, hs0, rfl⟩
        · exact ⟨i, hi, rfl⟩)
  rw [← hmap] at hh
  refine ⟨by simpa using hh, ?_, ?_⟩
  · have e := congrArg List.length hmap
    have : st'.length ≠ 0 := fun e => hst' (List.eq_nil_of_length_eq_zero e)
    simp at e
    omega
  · have := hh.closed
    rw [List.getLast?_append] at this
    simp only [List.getLast?_singleton, Option.some_or] at this
    have h5 : st ≠ [] := by rintro rfl; simp at hmap
    have h4 : (List.map pt st).reverse ≠ [] := by simpa using h5
    rw [List.head?_append_of_ne_nil _ h4] at this
    rw [← List.head?_map, List.map_reverse]
    exact this

end
end Verif.Hull

namespace Verif.Hull
open Verif Verif.Spec Verif.Model
variable {K : Type} [Scalar K] [Field K] [LinearOrder K] [ExactScalar K]

/-! ## the scan of `graham_scan_wo_atan2` -/

theorem popPts_top {p s : V2 K} (hps : p ≠ s) : ∀ (st : List (V2 K)) (a : V2 K), (a :: st).getLast? = some s →
    ∃ t st', popPts p (a :: st) = t :: st' ∧ t ≠ p ∧ (t :: st').getLast? = some s := by
  intro st
  induction st with
  | nil =>
    intro a h
    simp at h
    exact ⟨a, [], rfl, by rw [h]; exact hps.symm, by simp [h]⟩
  | cons b st ih =>
    intro a h
    rw [List.getLast?_cons_cons] at h
    by_cases hc : orient b a p ≤ 0
    · obtain ⟨t, st', h1, h2, h3⟩ := ih b h
      exact ⟨t, st', by rw [popPts, if_pos hc]; exact h1, h2, h3⟩
    · refine ⟨a, b :: st, by rw [popPts, if_neg hc], ?_, by rw [List.getLast?_cons_cons]; exact h⟩
      rintro rfl
      exact hc (orient_self b a).2.1.le

theorem grahamLoop2_rest {s : V2 K} : ∀ (l st : List (V2 K)), (∀ x ∈ l, x ≠ s) → st.getLast? = some s →
    grahamLoop2 l st = .ok (scanPts l st) := by
  intro l
  induction l with
  | nil => intro st _ _; rfl
  | cons p l ih =>
    intro st hl hst
    have hp : p ≠ s := hl p List.mem_cons_self
    obtain ⟨a, st, rfl⟩ : ∃ a st', st = a :: st' := by
      cases st with
      | nil => simp at hst
      | cons a st => exact ⟨a, st, rfl⟩
    obtain ⟨st1, e1, e2, -⟩ := popWhile_ok getPoint (fun p : V2 K => p) p (a :: st) (fun _ _ => rfl)
    simp only [List.map_id_fun', id] at e2
    obtain ⟨t, st', f1, f2, f3⟩ := popPts_top hp st a hst
    rw [f1] at e2
    subst e2
    unfold grahamLoop2
    simp only [bind, Except.bind]
    rw [e1]
    simp only
    rw [if_neg (by rw [beq_iff]; exact f2), ih (p :: t :: st') (fun x hx => hl x (List.mem_cons_of_mem _ hx))
      (by rw [List.getLast?_cons_cons]; exact f3), scanPts, f1]

theorem grahamLoop2_ok {s : V2 K} : ∀ (l : List (V2 K)), l.Pairwise (fun a b => b = s → a = s) →
    grahamLoop2 l [s] = .ok (scanPts (l.filter (fun p => decide (p ≠ s))) [s]) := by
  intro l
  induction l with
  | nil => intro _; rfl
  | cons p l ih =>
    intro h
    rw [List.pairwise_cons] at h
    by_cases e : p = s
    · subst e
      unfold grahamLoop2
      have : popWhile getPoint p [p] = .ok [p] := rfl
      simp only [bind, Except.bind]
      rw [this]
      simp only
      rw [if_pos ((beq_iff p p).2 rfl), ih h.2, List.filter_cons_of_neg (by simp)]
    · have hall : ∀ x ∈ p :: l, x ≠ s := by
        intro x hx
        rcases List.mem_cons.1 hx with rfl | hx
        · exact e
        · exact fun hs => e (h.1 x hx hs)
      rw [grahamLoop2_rest (s := s) (p :: l) [s] hall rfl, List.filter_eq_self.2 (by simpa using hall)]

theorem orientCmp_eq (s b c : V2 K) : orientCmp s b c = some (
    if orient s b c < 0 then .gt else if 0 < orient s b c then .lt
    else if sqDist2 s c < sqDist2 s b then .gt else .lt) := by
  simp only [orientCmp, cross2d_eq, distSq_eq]
  simp only [exact_simp]
  rcases lt_trichotomy (orient s b c) 0 with h | h | h
  · rw [compare_gt_iff_gt.2 h, if_pos h]
  · have e : compare 0 (orient s b c) = .eq := compare_eq_iff_eq.2 h.symm
    rw [e, h]
    simp only [lt_irrefl, if_false]
    by_cases hd : sqDist2 s c < sqDist2 s b
    · simp only [if_pos hd]
    · simp only [if_neg hd]
  · rw [compare_lt_iff_lt.2 h, if_neg (not_lt.2 h.le), if_pos h]

theorem sqDist2_pos {a b : V2 K} (h : a ≠ b) : 0 < sqDist2 a b := by
  simp only [sqDist2]
  by_contra hn
  have h1 := sq_nonneg (a.x - b.x)
  have h2 := sq_nonneg (a.y - b.y)
  have e1 : (a.x - b.x) ^ 2 = 0 := by linarith
  have e2 : (a.y - b.y) ^ 2 = 0 := by linarith
  apply h
  cases a; cases b
  simp only [sq_eq_zero_iff, sub_eq_zero] at e1 e2
  rw [e1, e2]
theorem sqDist2_self (a : V2 K) : sqDist2 a a = 0 := by simp only [sqDist2]; ring

theorem orientCmp_after {s b c : V2 K} (h : orientCmp s b c ≠ some .gt) : After s b c ∧ (c = s → b = s) := by
  rw [orientCmp_eq] at h
  by_cases h1 : orient s b c < 0
  · rw [if_pos h1] at h; exact absurd rfl h
  · rw [if_neg h1] at h
    by_cases h2 : 0 < orient s b c
    · refine ⟨Or.inl h2, ?_⟩
      rintro rfl
      rw [(orient_self _ _).1] at h2
      exact absurd h2 (lt_irrefl _)
    · rw [if_neg h2] at h
      by_cases h3 : sqDist2 s c < sqDist2 s b
      · rw [if_pos h3] at h; exact absurd rfl h
      · refine ⟨Or.inr ⟨le_antisymm (not_lt.1 h2) (not_lt.1 h1), not_lt.1 h3⟩, ?_⟩
        rintro rfl
        by_contra hb
        apply h3
        rw [sqDist2_self]
        exact sqDist2_pos (Ne.symm hb)

/-- the scan of the orientation sorted list -/
theorem graham2_core {s : V2 K} {l sorted : List (V2 K)} (hs : s ∈ l) (hperm : sorted.Perm l)
    (hpw : sorted.Pairwise (fun a b => orientCmp s a b ≠ some .gt))
    (hlow : ∀ j ∈ l, j = s ∨ LexLt s j) (hne : ∃ j ∈ l, j ≠ s) :
    ∃ a st, grahamLoop2 sorted [s] = .ok (a :: st) ∧ a ≠ s ∧ st.getLast? = some s ∧
      IsHullLoop l ((a :: st).reverse ++ [s]) := by
  obtain ⟨L, hL⟩ : ∃ L, L = sorted.filter (fun p => decide (p ≠ s)) := ⟨_, rfl⟩
  have hmem : ∀ x, x ∈ L ↔ x ∈ l ∧ x ≠ s := by
    intro x
    rw [hL, List.mem_filter, hperm.mem_iff]
    simp
  have hlex : ∀ x ∈ L, LexLt s x := fun x hx => (hlow x ((hmem x).1 hx).1).resolve_left ((hmem x).1 hx).2
  have hLpw : L.Pairwise (After s) := by
    rw [hL]
    exact (hpw.imp (fun h => (orientCmp_after h).1)).filter _
  have hstart : ScanDone s ([] : List (V2 K)) s [] :=
    ⟨rfl, fun _ h => (List.not_mem_nil h).elim, fun _ => rfl⟩
  obtain ⟨a, st, hsc, hdone⟩ := scan_chain L [] s [] hstart hlex (by simp) (by simp) hLpw
  rw [List.append_nil] at hdone
  obtain ⟨j, hj, hjs⟩ := hne
  have hst : st ≠ [] := by
    intro e
    have := hdone.short e
    rw [List.reverse_eq_nil_iff] at this
    have hjL := (hmem j).2 ⟨hj, hjs⟩
    rw [this] at hjL
    cases hjL
  refine ⟨a, st, ?_, ?_, ?_, ?_⟩
  · rw [grahamLoop2_ok sorted (hpw.imp (fun h => (orientCmp_after h).2)), ← hL, hsc]
  · obtain ⟨b, st, rfl⟩ := List.exists_cons_of_ne_nil hst
    rintro rfl
    exact lexLt_irrefl hdone.chain.top_lex.1
  · obtain ⟨b, st, rfl⟩ := List.exists_cons_of_ne_nil hst
    obtain ⟨st', e⟩ := hdone.chain.last
    have := congrArg List.getLast? e
    rw [List.getLast?_cons_cons] at this
    rw [this, List.getLast?_append]
    simp
  · refine hdone.hull hst hs (fun x hx => hlex x (List.mem_reverse.1 hx)) ?_
    intro p
    rw [List.mem_reverse, hmem]
    constructor
    · intro hp
      by_cases e : p = s
      · exact Or.inl e
      · exact Or.inr ⟨hp, e⟩
    · rintro (rfl | ⟨h, -⟩)
      · exact hs
      · exact h

end Verif.Hull
