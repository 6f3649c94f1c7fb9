import Verif.Proofs.SweepLoop
/-!
# The sweep line algorithm: the candidates do not depend on the order in which lines are looked at
-/
set_option linter.unusedSectionVars false
set_option linter.unusedVariables false
set_option linter.unusedSimpArgs false
namespace Verif.Sweep
open Verif Verif.Spec Verif.Model Verif.Proofs.Intersect

section
variable {K : Type} [Scalar K] [Field K] [LinearOrder K] [ExactScalar K] {ι σ V : Type}

/-! ## the slopes of the lines at the event -/

/-- the lowest slope of the `P`s -/
structure SlopeLeft (P : Nat → K → Prop) (b : Option K) (c : List Nat) : Prop where
  none : b = none → c = [] ∧ ∀ i s, ¬ P i s
  some : ∀ S, b = some S → (∃ i, P i S) ∧ (∀ i s, P i s → S ≤ s) ∧ ∀ i, i ∈ c ↔ P i S

/-- the highest slope of the `P`s -/
structure SlopeRight (P : Nat → K → Prop) (b : Option K) (c : List Nat) : Prop where
  none : b = none → c = [] ∧ ∀ i s, ¬ P i s
  some : ∀ S, b = some S → (∃ i, P i S) ∧ (∀ i s, P i s → s ≤ S) ∧ ∀ i, i ∈ c ↔ P i S

theorem updateLeft_spec {P : Nat → K → Prop} {m : MinMaxSlope K} (h : SlopeLeft P m.bestLeft m.candLeft) (s : K) (i : Nat) :
    SlopeLeft (fun j t => P j t ∨ (j = i ∧ t = s)) (m.updateLeft false s i).bestLeft (m.updateLeft false s i).candLeft := by
  unfold MinMaxSlope.updateLeft
  simp only [Bool.false_eq_true, if_false]
  cases hb : m.bestLeft with
  | none =>
    obtain ⟨h1, h2⟩ := h.none hb
    refine ⟨by simp, ?_⟩
    intro S hS
    simp only [Option.some_inj] at hS
    subst hS
    refine ⟨⟨i, Or.inr ⟨rfl, rfl⟩⟩, ?_, ?_⟩
    · rintro j t (h | ⟨-, rfl⟩)
      · exact absurd h (h2 _ _)
      · exact le_rfl
    · intro j
      simp only [h1, List.nil_append, List.mem_singleton]
      constructor
      · rintro rfl; exact Or.inr ⟨rfl, by trivial⟩
      · rintro (h | ⟨h, -⟩)
        · exact absurd h (h2 _ _)
        · exact h
  | some cur =>
    obtain ⟨⟨k, hk⟩, h2, h3⟩ := h.some cur hb
    simp only
    rw [lt_decide, show Scalar.ulpsEq cur s = decide (cur = s) by simp only [exact_simp]]
    simp only [decide_eq_true_eq]
    by_cases hc : cur = s
    · rw [if_pos hc]
      subst hc
      refine ⟨by simp [hb], ?_⟩
      intro S hS
      simp only [hb, Option.some_inj] at hS
      subst hS
      refine ⟨⟨k, Or.inl hk⟩, ?_, ?_⟩
      · rintro j t (h | ⟨-, rfl⟩)
        · exact h2 _ _ h
        · exact le_rfl
      · intro j
        simp only [List.mem_append, List.mem_singleton, h3]
        tauto
    · rw [if_neg hc]
      by_cases hlt : s < cur
      · rw [if_pos hlt]
        refine ⟨by simp, ?_⟩
        intro S hS
        simp only [Option.some_inj] at hS
        subst hS
        refine ⟨⟨i, Or.inr ⟨rfl, rfl⟩⟩, ?_, ?_⟩
        · rintro j t (h | ⟨-, rfl⟩)
          · exact hlt.le.trans (h2 _ _ h)
          · exact le_rfl
        · intro j
          simp only [List.mem_singleton]
          constructor
          · rintro rfl; exact Or.inr ⟨rfl, by trivial⟩
          · rintro (h | ⟨h, -⟩)
            · exact absurd (h2 _ _ h) (not_le.2 hlt)
            · exact h
      · rw [if_neg hlt]
        refine ⟨by simp [hb], ?_⟩
        intro S hS
        rw [hb] at hS
        simp only [Option.some_inj] at hS
        subst hS
        refine ⟨⟨k, Or.inl hk⟩, ?_, ?_⟩
        · rintro j t (h | ⟨-, rfl⟩)
          · exact h2 _ _ h
          · exact not_lt.1 hlt
        · intro j
          rw [h3]
          constructor
          · exact Or.inl
          · rintro (h | ⟨-, h⟩)
            · exact h
            · exact absurd h hc

theorem updateRight_spec {P : Nat → K → Prop} {m : MinMaxSlope K} (h : SlopeRight P m.bestRight m.candRight) (s : K) (i : Nat) :
    SlopeRight (fun j t => P j t ∨ (j = i ∧ t = s)) (m.updateRight false s i).bestRight (m.updateRight false s i).candRight := by
  unfold MinMaxSlope.updateRight
  simp only [Bool.false_eq_true, if_false]
  cases hb : m.bestRight with
  | none =>
    obtain ⟨h1, h2⟩ := h.none hb
    refine ⟨by simp, ?_⟩
    intro S hS
    simp only [Option.some_inj] at hS
    subst hS
    refine ⟨⟨i, Or.inr ⟨rfl, rfl⟩⟩, ?_, ?_⟩
    · rintro j t (h | ⟨-, rfl⟩)
      · exact absurd h (h2 _ _)
      · exact le_rfl
    · intro j
      simp only [h1, List.nil_append, List.mem_singleton]
      constructor
      · rintro rfl; exact Or.inr ⟨rfl, by trivial⟩
      · rintro (h | ⟨h, -⟩)
        · exact absurd h (h2 _ _)
        · exact h
  | some cur =>
    obtain ⟨⟨k, hk⟩, h2, h3⟩ := h.some cur hb
    simp only
    rw [gt_decide, show Scalar.ulpsEq cur s = decide (cur = s) by simp only [exact_simp]]
    simp only [decide_eq_true_eq]
    by_cases hc : cur = s
    · rw [if_pos hc]
      subst hc
      refine ⟨by simp [hb], ?_⟩
      intro S hS
      simp only [hb, Option.some_inj] at hS
      subst hS
      refine ⟨⟨k, Or.inl hk⟩, ?_, ?_⟩
      · rintro j t (h | ⟨-, rfl⟩)
        · exact h2 _ _ h
        · exact le_rfl
      · intro j
        simp only [List.mem_append, List.mem_singleton, h3]
        tauto
    · rw [if_neg hc]
      by_cases hlt : cur < s
      · rw [if_pos hlt]
        refine ⟨by simp, ?_⟩
        intro S hS
        simp only [Option.some_inj] at hS
        subst hS
        refine ⟨⟨i, Or.inr ⟨rfl, rfl⟩⟩, ?_, ?_⟩
        · rintro j t (h | ⟨-, rfl⟩)
          · exact (h2 _ _ h).trans hlt.le
          · exact le_rfl
        · intro j
          simp only [List.mem_singleton]
          constructor
          · rintro rfl; exact Or.inr ⟨rfl, by trivial⟩
          · rintro (h | ⟨h, -⟩)
            · exact absurd (h2 _ _ h) (not_le.2 hlt)
            · exact h
      · rw [if_neg hlt]
        refine ⟨by simp [hb], ?_⟩
        intro S hS
        rw [hb] at hS
        simp only [Option.some_inj] at hS
        subst hS
        refine ⟨⟨k, Or.inl hk⟩, ?_, ?_⟩
        · rintro j t (h | ⟨-, rfl⟩)
          · exact h2 _ _ h
          · exact not_lt.1 hlt
        · intro j
          rw [h3]
          constructor
          · exact Or.inl
          · rintro (h | ⟨-, h⟩)
            · exact h
            · exact absurd h hc

theorem updateLeft_best (m : MinMaxSlope K) (c : Bool) (x : K) (i : Nat) :
    (m.updateLeft c x i).bestRight = m.bestRight := by
  unfold MinMaxSlope.updateLeft
  cases c <;> cases hb : m.bestLeft <;> simp [hb] <;> split <;> (try split) <;> simp

theorem updateRight_best (m : MinMaxSlope K) (c : Bool) (x : K) (i : Nat) :
    (m.updateRight c x i).bestLeft = m.bestLeft := by
  unfold MinMaxSlope.updateRight
  cases c <;> cases hb : m.bestRight <;> simp [hb] <;> split <;> (try split) <;> simp

theorem SlopeLeft.congr {P P' : Nat → K → Prop} {b : Option K} {c : List Nat} (h : SlopeLeft P b c) (he : ∀ i s, P i s ↔ P' i s) :
    SlopeLeft P' b c := by
  have : P = P' := by funext i s; exact propext (he i s)
  exact this ▸ h

theorem SlopeRight.congr {P P' : Nat → K → Prop} {b : Option K} {c : List Nat} (h : SlopeRight P b c) (he : ∀ i s, P i s ↔ P' i s) :
    SlopeRight P' b c := by
  have : P = P' := by funext i s; exact propext (he i s)
  exact this ▸ h

theorem SlopeLeft.mem {P : Nat → K → Prop} {b : Option K} {c : List Nat} (h : SlopeLeft P b c) (i : Nat) :
    i ∈ c ↔ ∃ s, P i s ∧ ∀ j t, P j t → s ≤ t := by
  cases hb : b with
  | none =>
    obtain ⟨h1, h2⟩ := h.none hb
    rw [h1]
    simp only [List.not_mem_nil, false_iff]
    rintro ⟨s, hs, -⟩
    exact h2 _ _ hs
  | some S =>
    obtain ⟨⟨k, hk⟩, h2, h3⟩ := h.some S hb
    rw [h3]
    constructor
    · intro hi; exact ⟨S, hi, h2⟩
    · rintro ⟨s, hs, hmin⟩
      have := le_antisymm (hmin k S hk) (h2 i s hs)
      exact this ▸ hs

theorem SlopeRight.mem {P : Nat → K → Prop} {b : Option K} {c : List Nat} (h : SlopeRight P b c) (i : Nat) :
    i ∈ c ↔ ∃ s, P i s ∧ ∀ j t, P j t → t ≤ s := by
  cases hb : b with
  | none =>
    obtain ⟨h1, h2⟩ := h.none hb
    rw [h1]
    simp only [List.not_mem_nil, false_iff]
    rintro ⟨s, hs, -⟩
    exact h2 _ _ hs
  | some S =>
    obtain ⟨⟨k, hk⟩, h2, h3⟩ := h.some S hb
    rw [h3]
    constructor
    · intro hi; exact ⟨S, hi, h2⟩
    · rintro ⟨s, hs, hmin⟩
      have := le_antisymm (h2 i s hs) (hmin k S hk)
      exact this ▸ hs

/-- the slope used by `update_both` -/
def bothSlope (l : Line2 K) : K := if Scalar.ulpsEq l.end.y l.start.y then Scalar.inf
    else Scalar.div (Scalar.sub l.end.x l.start.x) (Scalar.sub l.end.y l.start.y)

/-- one of the lines with its slope -/
def ConnEntry (L : List (Line2 K)) (is : List Nat) (i : Nat) (s : K) : Prop := i ∈ is ∧ ∃ l, L[i]? = some l ∧ s = bothSlope l

theorem connFold_spec (L : List (Line2 K)) : ∀ (is : List Nat) (m : MinMaxSlope K) (P : Nat → K → Prop),
    SlopeLeft P m.bestLeft m.candLeft → SlopeRight P m.bestRight m.candRight →
    SlopeLeft (fun i s => P i s ∨ ConnEntry L is i s) (is.foldl (connStep L) m).bestLeft (is.foldl (connStep L) m).candLeft ∧
    SlopeRight (fun i s => P i s ∨ ConnEntry L is i s) (is.foldl (connStep L) m).bestRight (is.foldl (connStep L) m).candRight := by
  intro is
  induction is with
  | nil =>
    intro m P h1 h2
    exact ⟨h1.congr (by simp [ConnEntry]), h2.congr (by simp [ConnEntry])⟩
  | cons a is ih =>
    intro m P h1 h2
    rw [List.foldl_cons]
    cases hl : L[a]? with
    | none =>
      have : connStep L m a = m := by unfold connStep; rw [hl]
      rw [this]
      have he : ∀ i s, (P i s ∨ ConnEntry L is i s) ↔ (P i s ∨ ConnEntry L (a :: is) i s) := by
        intro i s
        refine or_congr Iff.rfl ?_
        unfold ConnEntry
        rw [List.mem_cons]
        constructor
        · rintro ⟨h, h'⟩; exact ⟨Or.inr h, h'⟩
        · rintro ⟨rfl | h, h'⟩
          · rw [hl] at h'; obtain ⟨l, h', -⟩ := h'; cases h'
          · exact ⟨h, h'⟩
      exact ⟨(ih m P h1 h2).1.congr he, (ih m P h1 h2).2.congr he⟩
    | some l =>
      have : connStep L m a = (m.updateLeft false (bothSlope l) a).updateRight false (bothSlope l) a := by
        unfold connStep; rw [hl]; rfl
      rw [this]
      have g1 := updateLeft_spec h1 (bothSlope l) a
      have h2' : SlopeRight P (m.updateLeft false (bothSlope l) a).bestRight (m.updateLeft false (bothSlope l) a).candRight := by
        rw [updateLeft_best, updateLeft_right]; exact h2
      have g2 := updateRight_spec h2' (bothSlope l) a
      rw [← updateRight_best (m.updateLeft false (bothSlope l) a) false (bothSlope l) a,
        ← updateRight_left (m.updateLeft false (bothSlope l) a) false (bothSlope l) a] at g1
      have he : ∀ i s, ((P i s ∨ (i = a ∧ s = bothSlope l)) ∨ ConnEntry L is i s) ↔ (P i s ∨ ConnEntry L (a :: is) i s) := by
        intro i s
        rw [or_assoc]
        refine or_congr Iff.rfl ?_
        unfold ConnEntry
        rw [List.mem_cons]
        constructor
        · rintro (⟨rfl, rfl⟩ | ⟨h, h'⟩)
          · exact ⟨Or.inl rfl, l, hl, rfl⟩
          · exact ⟨Or.inr h, h'⟩
        · rintro ⟨rfl | h, l', hl', h'⟩
          · rw [hl] at hl'; simp only [Option.some_inj] at hl'; subst hl'; exact Or.inl ⟨rfl, h'⟩
          · exact Or.inr ⟨h, l', hl', h'⟩
      obtain ⟨k1, k2⟩ := ih _ _ g1 g2
      exact ⟨k1.congr he, k2.congr he⟩

theorem conn_mem (L : List (Line2 K)) (is : List Nat) (i : Nat) :
    (i ∈ (is.foldl (connStep L) MinMaxSlope.new).candLeft ↔ ∃ s, ConnEntry L is i s ∧ ∀ j t, ConnEntry L is j t → s ≤ t) ∧
    (i ∈ (is.foldl (connStep L) MinMaxSlope.new).candRight ↔ ∃ s, ConnEntry L is i s ∧ ∀ j t, ConnEntry L is j t → t ≤ s) := by
  obtain ⟨h1, h2⟩ := connFold_spec L is MinMaxSlope.new (fun _ _ => False)
    ⟨fun _ => ⟨rfl, fun _ _ h => h⟩, by simp [MinMaxSlope.new]⟩ ⟨fun _ => ⟨rfl, fun _ _ h => h⟩, by simp [MinMaxSlope.new]⟩
  have h1 := h1.congr (P' := ConnEntry L is) (by simp)
  have h2 := h2.congr (P' := ConnEntry L is) (by simp)
  exact ⟨h1.mem i, h2.mem i⟩

/-! ## the neighbours -/

/-- the nearest of the `P`s to the left, of these the one with the lowest slope -/
structure NearLeft (P : Nat → K → K → Prop) (b : Option K) (m : MinMaxSlope K) : Prop where
  none : b = none → ∀ i x s, ¬ P i x s
  some : ∀ X, b = some X → (∃ i s, P i X s) ∧ (∀ i x s, P i x s → x ≤ X)
  slope : SlopeLeft (fun i s => ∃ X, b = Option.some X ∧ P i X s) m.bestLeft m.candLeft

/-- the nearest of the `P`s to the right, of these the one with the highest slope -/
structure NearRight (P : Nat → K → K → Prop) (b : Option K) (m : MinMaxSlope K) : Prop where
  none : b = none → ∀ i x s, ¬ P i x s
  some : ∀ X, b = some X → (∃ i s, P i X s) ∧ (∀ i x s, P i x s → X ≤ x)
  slope : SlopeRight (fun i s => ∃ X, b = Option.some X ∧ P i X s) m.bestRight m.candRight

theorem NearLeft.congr {P P' : Nat → K → K → Prop} {b : Option K} {m : MinMaxSlope K} (h : NearLeft P b m)
    (he : ∀ i x s, P i x s ↔ P' i x s) : NearLeft P' b m := by
  have : P = P' := by funext i x s; exact propext (he i x s)
  exact this ▸ h

theorem NearRight.congr {P P' : Nat → K → K → Prop} {b : Option K} {m : MinMaxSlope K} (h : NearRight P b m)
    (he : ∀ i x s, P i x s ↔ P' i x s) : NearRight P' b m := by
  have : P = P' := by funext i x s; exact propext (he i x s)
  exact this ▸ h

theorem updateLeft_clear (m : MinMaxSlope K) (s : K) (i : Nat) : (m.updateLeft true s i).bestLeft = some s ∧
    (m.updateLeft true s i).candLeft = [i] := by
  unfold MinMaxSlope.updateLeft; simp

theorem updateRight_clear (m : MinMaxSlope K) (s : K) (i : Nat) : (m.updateRight true s i).bestRight = some s ∧
    (m.updateRight true s i).candRight = [i] := by
  unfold MinMaxSlope.updateRight; simp

theorem update_left {P : Nat → K → K → Prop} {m : MinMax K} (h : NearLeft P m.bestLeft m.slope) (px x s : K) (i : Nat) :
    NearLeft (fun j y t => P j y t ∨ (x < px ∧ j = i ∧ y = x ∧ t = s)) (m.update px x s i).bestLeft (m.update px x s i).slope := by
  unfold MinMax.update
  rw [lt_decide, gt_decide]
  simp only [decide_eq_true_eq]
  by_cases h1 : x < px
  · rw [if_pos h1]
    have he : ∀ j y t, (P j y t ∨ (j = i ∧ y = x ∧ t = s)) ↔ (P j y t ∨ (x < px ∧ j = i ∧ y = x ∧ t = s)) := by
      intro j y t; tauto
    cases hb : m.bestLeft with
    | none =>
      refine NearLeft.congr ?_ he
      have hn := h.none hb
      simp only
      refine ⟨by simp, ?_, ?_⟩
      · intro X hX
        simp only [Option.some_inj] at hX
        subst hX
        refine ⟨⟨i, s, Or.inr ⟨rfl, rfl, rfl⟩⟩, ?_⟩
        rintro j y t (h | ⟨-, rfl, -⟩)
        · exact absurd h (hn _ _ _)
        · exact le_rfl
      · have := updateLeft_spec h.slope s i
        refine this.congr ?_
        intro j t
        constructor
        · rintro (⟨X, hX, hP⟩ | ⟨rfl, rfl⟩)
          · exact absurd hP (hn _ _ _)
          · exact ⟨x, rfl, Or.inr ⟨rfl, rfl, rfl⟩⟩
        · rintro ⟨X, hX, hP | ⟨rfl, -, rfl⟩⟩
          · exact absurd hP (hn _ _ _)
          · exact Or.inr ⟨rfl, rfl⟩
    | some cur =>
      obtain ⟨⟨k, t0, hk⟩, hmax⟩ := h.some cur hb
      simp only
      rw [lt_decide, show Scalar.ulpsEq cur x = decide (cur = x) by simp only [exact_simp]]
      simp only [decide_eq_true_eq]
      by_cases hc : cur = x
      · rw [if_pos hc]
        subst hc
        refine NearLeft.congr ?_ he
        simp only
        refine ⟨by simp [hb], ?_, ?_⟩
        · intro X hX
          simp only [hb, Option.some_inj] at hX
          subst hX
          refine ⟨⟨k, t0, Or.inl hk⟩, ?_⟩
          rintro j y t (h | ⟨-, rfl, -⟩)
          · exact hmax _ _ _ h
          · exact le_rfl
        · have := updateLeft_spec h.slope s i
          refine this.congr ?_
          intro j t
          rw [hb]
          constructor
          · rintro (⟨X, hX, hP⟩ | ⟨rfl, rfl⟩)
            · exact ⟨X, hX, Or.inl hP⟩
            · exact ⟨cur, rfl, Or.inr ⟨rfl, rfl, rfl⟩⟩
          · rintro ⟨X, hX, hP | ⟨rfl, -, rfl⟩⟩
            · exact Or.inl ⟨X, hX, hP⟩
            · exact Or.inr ⟨rfl, rfl⟩
      · rw [if_neg hc]
        by_cases hlt : cur < x
        · rw [if_pos hlt]
          refine NearLeft.congr ?_ he
          simp only
          refine ⟨by simp, ?_, ?_⟩
          · intro X hX
            simp only [Option.some_inj] at hX
            subst hX
            refine ⟨⟨i, s, Or.inr ⟨rfl, rfl, rfl⟩⟩, ?_⟩
            rintro j y t (h | ⟨-, rfl, -⟩)
            · exact (hmax _ _ _ h).trans hlt.le
            · exact le_rfl
          · obtain ⟨c1, c2⟩ := updateLeft_clear m.slope s i
            rw [c1, c2]
            refine ⟨by simp, ?_⟩
            intro S hS
            simp only [Option.some_inj] at hS
            subst hS
            have hP : ∀ j t, (∃ X, some x = some X ∧ (P j X t ∨ (j = i ∧ X = x ∧ t = s))) ↔ j = i ∧ t = s := by
              intro j t
              constructor
              · rintro ⟨X, hX, hP | ⟨rfl, -, rfl⟩⟩
                · simp only [Option.some_inj] at hX
                  subst hX
                  exact absurd (hmax _ _ _ hP) (not_le.2 hlt)
                · exact ⟨rfl, rfl⟩
              · rintro ⟨rfl, rfl⟩; exact ⟨x, rfl, Or.inr ⟨rfl, rfl, rfl⟩⟩
            refine ⟨⟨i, (hP _ _).2 ⟨rfl, rfl⟩⟩, ?_, ?_⟩
            · intro j t hj; rw [((hP _ _).1 hj).2]
            · intro j; rw [List.mem_singleton, hP]; simp
        · rw [if_neg hlt, hb]
          refine NearLeft.congr ?_ he
          refine ⟨by simp, ?_, ?_⟩
          · intro X hX
            simp only [Option.some_inj] at hX
            subst hX
            refine ⟨⟨k, t0, Or.inl hk⟩, ?_⟩
            rintro j y t (h | ⟨-, rfl, -⟩)
            · exact hmax _ _ _ h
            · exact not_lt.1 hlt
          · refine h.slope.congr ?_
            intro j t
            rw [hb]
            constructor
            · rintro ⟨X, hX, hP⟩; exact ⟨X, hX, Or.inl hP⟩
            · rintro ⟨X, hX, hP | ⟨-, rfl, -⟩⟩
              · exact ⟨X, hX, hP⟩
              · simp only [Option.some_inj] at hX
                exact absurd hX hc
  · rw [if_neg h1]
    have he : ∀ j y t, P j y t ↔ (P j y t ∨ (x < px ∧ j = i ∧ y = x ∧ t = s)) := by
      intro j y t; tauto
    have key : ∀ (b : Option K) (c : Bool), NearLeft (fun j y t => P j y t ∨ (x < px ∧ j = i ∧ y = x ∧ t = s)) m.bestLeft
        (m.slope.updateRight c s i) := by
      intro b c
      refine NearLeft.congr ?_ he
      refine ⟨h.none, h.some, ?_⟩
      rw [updateRight_best, updateRight_left]
      exact h.slope
    by_cases h2 : px < x
    · rw [if_pos h2]
      cases hr : m.bestRight with
      | none => exact key none false
      | some cur =>
        simp only
        split
        · exact key none false
        · split
          · exact key none true
          · exact h.congr he
    · rw [if_neg h2]; exact h.congr he

theorem update_right {P : Nat → K → K → Prop} {m : MinMax K} (h : NearRight P m.bestRight m.slope) (px x s : K) (i : Nat) :
    NearRight (fun j y t => P j y t ∨ (px < x ∧ j = i ∧ y = x ∧ t = s)) (m.update px x s i).bestRight (m.update px x s i).slope := by
  unfold MinMax.update
  rw [lt_decide, gt_decide]
  simp only [decide_eq_true_eq]
  by_cases h1 : x < px
  · rw [if_pos h1]
    have he : ∀ j y t, P j y t ↔ (P j y t ∨ (px < x ∧ j = i ∧ y = x ∧ t = s)) := by
      intro j y t
      have := lt_asymm h1
      tauto
    have key : ∀ (b : Option K) (c : Bool), NearRight (fun j y t => P j y t ∨ (px < x ∧ j = i ∧ y = x ∧ t = s)) m.bestRight
        (m.slope.updateLeft c s i) := by
      intro b c
      refine NearRight.congr ?_ he
      refine ⟨h.none, h.some, ?_⟩
      rw [updateLeft_best, updateLeft_right]
      exact h.slope
    cases hr : m.bestLeft with
    | none => exact key none false
    | some cur =>
      simp only
      split
      · exact key none false
      · split
        · exact key none true
        · exact h.congr he
  · rw [if_neg h1]
    by_cases h2 : px < x
    · rw [if_pos h2]
      have he : ∀ j y t, (P j y t ∨ (j = i ∧ y = x ∧ t = s)) ↔ (P j y t ∨ (px < x ∧ j = i ∧ y = x ∧ t = s)) := by
        intro j y t; tauto
      cases hb : m.bestRight with
      | none =>
        refine NearRight.congr ?_ he
        have hn := h.none hb
        simp only
        refine ⟨by simp, ?_, ?_⟩
        · intro X hX
          simp only [Option.some_inj] at hX
          subst hX
          refine ⟨⟨i, s, Or.inr ⟨rfl, rfl, rfl⟩⟩, ?_⟩
          rintro j y t (h | ⟨-, rfl, -⟩)
          · exact absurd h (hn _ _ _)
          · exact le_rfl
        · have := updateRight_spec h.slope s i
          refine this.congr ?_
          intro j t
          constructor
          · rintro (⟨X, hX, hP⟩ | ⟨rfl, rfl⟩)
            · exact absurd hP (hn _ _ _)
            · exact ⟨x, rfl, Or.inr ⟨rfl, rfl, rfl⟩⟩
          · rintro ⟨X, hX, hP | ⟨rfl, -, rfl⟩⟩
            · exact absurd hP (hn _ _ _)
            · exact Or.inr ⟨rfl, rfl⟩
      | some cur =>
        obtain ⟨⟨k, t0, hk⟩, hmin⟩ := h.some cur hb
        simp only
        rw [gt_decide, show Scalar.ulpsEq cur x = decide (cur = x) by simp only [exact_simp]]
        simp only [decide_eq_true_eq]
        by_cases hc : cur = x
        · rw [if_pos hc]
          subst hc
          refine NearRight.congr ?_ he
          simp only
          refine ⟨by simp [hb], ?_, ?_⟩
          · intro X hX
            simp only [hb, Option.some_inj] at hX
            subst hX
            refine ⟨⟨k, t0, Or.inl hk⟩, ?_⟩
            rintro j y t (h | ⟨-, rfl, -⟩)
            · exact hmin _ _ _ h
            · exact le_rfl
          · have := updateRight_spec h.slope s i
            refine this.congr ?_
            intro j t
            rw [hb]
            constructor
            · rintro (⟨X, hX, hP⟩ | ⟨rfl, rfl⟩)
              · exact ⟨X, hX, Or.inl hP⟩
              · exact ⟨cur, rfl, Or.inr ⟨rfl, rfl, rfl⟩⟩
            · rintro ⟨X, hX, hP | ⟨rfl, -, rfl⟩⟩
              · exact Or.inl ⟨X, hX, hP⟩
              · exact Or.inr ⟨rfl, rfl⟩
        · rw [if_neg hc]
          by_cases hlt : x < cur
          · rw [if_pos hlt]
            refine NearRight.congr ?_ he
            simp only
            refine ⟨by simp, ?_, ?_⟩
            · intro X hX
              simp only [Option.some_inj] at hX
              subst hX
              refine ⟨⟨i, s, Or.inr ⟨rfl, rfl, rfl⟩⟩, ?_⟩
              rintro j y t (h | ⟨-, rfl, -⟩)
              · exact hlt.le.trans (hmin _ _ _ h)
              · exact le_rfl
            · obtain ⟨c1, c2⟩ := updateRight_clear m.slope s i
              rw [c1, c2]
              refine ⟨by simp, ?_⟩
              intro S hS
              simp only [Option.some_inj] at hS
              subst hS
              have hP : ∀ j t, (∃ X, some x = some X ∧ (P j X t ∨ (j = i ∧ X = x ∧ t = s))) ↔ j = i ∧ t = s := by
                intro j t
                constructor
                · rintro ⟨X, hX, hP | ⟨rfl, -, rfl⟩⟩
                  · simp only [Option.some_inj] at hX
                    subst hX
                    exact absurd (hmin _ _ _ hP) (not_le.2 hlt)
                  · exact ⟨rfl, rfl⟩
                · rintro ⟨rfl, rfl⟩; exact ⟨x, rfl, Or.inr ⟨rfl, rfl, rfl⟩⟩
              refine ⟨⟨i, (hP _ _).2 ⟨rfl, rfl⟩⟩, ?_, ?_⟩
              · intro j t hj; rw [((hP _ _).1 hj).2]
              · intro j; rw [List.mem_singleton, hP]; simp
          · rw [if_neg hlt, hb]
            refine NearRight.congr ?_ he
            refine ⟨by simp, ?_, ?_⟩
            · intro X hX
              simp only [Option.some_inj] at hX
              subst hX
              refine ⟨⟨k, t0, Or.inl hk⟩, ?_⟩
              rintro j y t (h | ⟨-, rfl, -⟩)
              · exact hmin _ _ _ h
              · exact not_lt.1 hlt
            · refine h.slope.congr ?_
              intro j t
              rw [hb]
              constructor
              · rintro ⟨X, hX, hP⟩; exact ⟨X, hX, Or.inl hP⟩
              · rintro ⟨X, hX, hP | ⟨-, rfl, -⟩⟩
                · exact ⟨X, hX, hP⟩
                · simp only [Option.some_inj] at hX
                  exact absurd hX hc
    · rw [if_neg h2]
      exact h.congr (by intro j y t; tauto)

/-- a line on the sweep line that does not go through the event -/
def NbEntry (L : List (Line2 K)) (sweep : V2 K) (e : SiteEvent) (is : List Nat) (i : Nat) (x s : K) : Prop :=
  i ∈ is ∧ i ∉ e.inter ∧ CrossesAt L sweep i x s

theorem nbFold_spec (L : List (Line2 K)) (sweep : V2 K) (e : SiteEvent) : ∀ (is : List Nat) (m : MinMax K) (P Q : Nat → K → K → Prop),
    NearLeft P m.bestLeft m.slope → NearRight Q m.bestRight m.slope →
    NearLeft (fun i x s => P i x s ∨ (x < sweep.x ∧ NbEntry L sweep e is i x s)) (is.foldl (nbStep L sweep e) m).bestLeft
      (is.foldl (nbStep L sweep e) m).slope ∧
    NearRight (fun i x s => Q i x s ∨ (sweep.x < x ∧ NbEntry L sweep e is i x s)) (is.foldl (nbStep L sweep e) m).bestRight
      (is.foldl (nbStep L sweep e) m).slope := by
  intro is
  induction is with
  | nil =>
    intro m P Q h1 h2
    exact ⟨h1.congr (by simp [NbEntry]), h2.congr (by simp [NbEntry])⟩
  | cons a is ih =>
    intro m P Q h1 h2
    rw [List.foldl_cons]
    have hskip : nbStep L sweep e m a = m → (∀ x s, ¬ (a ∉ e.inter ∧ CrossesAt L sweep a x s)) →
        NearLeft (fun i x s => P i x s ∨ (x < sweep.x ∧ NbEntry L sweep e (a :: is) i x s)) (is.foldl (nbStep L sweep e) (nbStep L sweep e m a)).bestLeft
          (is.foldl (nbStep L sweep e) (nbStep L sweep e m a)).slope ∧
        NearRight (fun i x s => Q i x s ∨ (sweep.x < x ∧ NbEntry L sweep e (a :: is) i x s)) (is.foldl (nbStep L sweep e) (nbStep L sweep e m a)).bestRight
          (is.foldl (nbStep L sweep e) (nbStep L sweep e m a)).slope := by
      intro hm hn
      rw [hm]
      have he : ∀ i x s, NbEntry L sweep e is i x s ↔ NbEntry L sweep e (a :: is) i x s := by
        intro i x s
        unfold NbEntry
        rw [List.mem_cons]
        constructor
        · rintro ⟨h, h'⟩; exact ⟨Or.inr h, h'⟩
        · rintro ⟨rfl | h, h'⟩
          · exact absurd h' (hn x s)
          · exact ⟨h, h'⟩
      obtain ⟨k1, k2⟩ := ih m P Q h1 h2
      exact ⟨k1.congr (fun i x s => by rw [he]), k2.congr (fun i x s => by rw [he])⟩
    by_cases hc : e.inter.contains a = true
    · refine hskip ?_ ?_
      · unfold nbStep; rw [if_pos hc]
      · rintro x s ⟨h, -⟩; exact h (by simpa using hc)
    · have hni : a ∉ e.inter := by simpa using hc
      cases hl : L[a]? with
      | none =>
        refine hskip ?_ ?_
        · unfold nbStep; rw [if_neg hc, hl]
        · rintro x s ⟨-, l, h, -⟩; rw [hl] at h; cases h
      | some l =>
        cases hx : sweeplineIntersection sweep l with
        | none =>
          refine hskip ?_ ?_
          · unfold nbStep; rw [if_neg hc, hl]; simp only; rw [hx]
          · rintro x s ⟨-, l', h, h'⟩
            rw [hl] at h; simp only [Option.some_inj] at h; subst h
            rw [hx] at h'; cases h'
        | some v =>
          obtain ⟨x, sl⟩ := v
          have hm : nbStep L sweep e m a = m.update sweep.x x sl a := by
            unfold nbStep; rw [if_neg hc, hl]; simp only; rw [hx]
          rw [hm]
          have g1 := update_left h1 sweep.x x sl a
          have g2 := update_right h2 sweep.x x sl a
          have he : ∀ i y t, NbEntry L sweep e (a :: is) i y t ↔ (i = a ∧ y = x ∧ t = sl) ∨ NbEntry L sweep e is i y t := by
            intro i y t
            unfold NbEntry
            rw [List.mem_cons]
            constructor
            · rintro ⟨rfl | h, h1, h2⟩
              · obtain ⟨l', hl', hx'⟩ := h2
                rw [hl] at hl'; simp only [Option.some_inj] at hl'; subst hl'
                rw [hx] at hx'
                simp only [Option.some_inj, Prod.mk.injEq] at hx'
                exact Or.inl ⟨rfl, hx'.1.symm, hx'.2.symm⟩
              · exact Or.inr ⟨h, h1, h2⟩
            · rintro (⟨rfl, rfl, rfl⟩ | ⟨h, h1, h2⟩)
              · exact ⟨Or.inl rfl, hni, l, hl, hx⟩
              · exact ⟨Or.inr h, h1, h2⟩
          obtain ⟨k1, k2⟩ := ih _ _ _ g1 g2
          refine ⟨k1.congr fun i y t => ?_, k2.congr fun i y t => ?_⟩
          · rw [he, or_assoc]
            refine or_congr Iff.rfl ?_
            constructor
            · rintro (⟨h, h', rfl, h''⟩ | ⟨h, h'⟩)
              · exact ⟨h, Or.inl ⟨h', rfl, h''⟩⟩
              · exact ⟨h, Or.inr h'⟩
            · rintro ⟨h, ⟨h', rfl, h''⟩ | h'⟩
              · exact Or.inl ⟨h, h', rfl, h''⟩
              · exact Or.inr ⟨h, h'⟩
          · rw [he, or_assoc]
            refine or_congr Iff.rfl ?_
            constructor
            · rintro (⟨h, h', rfl, h''⟩ | ⟨h, h'⟩)
              · exact ⟨h, Or.inl ⟨h', rfl, h''⟩⟩
              · exact ⟨h, Or.inr h'⟩
            · rintro ⟨h, ⟨h', rfl, h''⟩ | h'⟩
              · exact Or.inl ⟨h, h', rfl, h''⟩
              · exact Or.inr ⟨h, h'⟩

theorem NearLeft.mem {P : Nat → K → K → Prop} {b : Option K} {m : MinMaxSlope K} (h : NearLeft P b m) (i : Nat) :
    i ∈ m.candLeft ↔ ∃ x s, P i x s ∧ ∀ j y t, P j y t → y ≤ x ∧ (y = x → s ≤ t) := by
  rw [h.slope.mem]
  constructor
  · rintro ⟨s, ⟨X, hX, hP⟩, hmin⟩
    refine ⟨X, s, hP, fun j y t hj => ⟨(h.some X hX).2 _ _ _ hj, ?_⟩⟩
    rintro rfl
    exact hmin j t ⟨y, hX, hj⟩
  · rintro ⟨x, s, hP, hbest⟩
    cases hb : b with
    | none => exact absurd hP (h.none hb _ _ _)
    | some X =>
      obtain ⟨⟨k, t, hk⟩, hmax⟩ := h.some X hb
      have hx : x = X := le_antisymm (hmax _ _ _ hP) (hbest _ _ _ hk).1
      subst hx
      refine ⟨s, ⟨x, rfl, hP⟩, ?_⟩
      rintro j t ⟨Y, hY, hj⟩
      simp only [Option.some_inj] at hY
      exact (hbest _ _ _ hj).2 hY.symm

theorem NearRight.mem {P : Nat → K → K → Prop} {b : Option K} {m : MinMaxSlope K} (h : NearRight P b m) (i : Nat) :
    i ∈ m.candRight ↔ ∃ x s, P i x s ∧ ∀ j y t, P j y t → x ≤ y ∧ (y = x → t ≤ s) := by
  rw [h.slope.mem]
  constructor
  · rintro ⟨s, ⟨X, hX, hP⟩, hmin⟩
    refine ⟨X, s, hP, fun j y t hj => ⟨(h.some X hX).2 _ _ _ hj, ?_⟩⟩
    rintro rfl
    exact hmin j t ⟨y, hX, hj⟩
  · rintro ⟨x, s, hP, hbest⟩
    cases hb : b with
    | none => exact absurd hP (h.none hb _ _ _)
    | some X =>
      obtain ⟨⟨k, t, hk⟩, hmax⟩ := h.some X hb
      have hx : x = X := le_antisymm (hbest _ _ _ hk).1 (hmax _ _ _ hP)
      subst hx
      refine ⟨s, ⟨x, rfl, hP⟩, ?_⟩
      rintro j t ⟨Y, hY, hj⟩
      simp only [Option.some_inj] at hY
      exact (hbest _ _ _ hj).2 hY.symm

/-- what the candidates are -/
theorem nb_mem (L : List (Line2 K)) (sweep : V2 K) (e : SiteEvent) (is : List Nat) (i : Nat) :
    (i ∈ (is.foldl (nbStep L sweep e) MinMax.new).slope.candLeft ↔ ∃ x s, (x < sweep.x ∧ NbEntry L sweep e is i x s) ∧
      ∀ j y t, (y < sweep.x ∧ NbEntry L sweep e is j y t) → y ≤ x ∧ (y = x → s ≤ t)) ∧
    (i ∈ (is.foldl (nbStep L sweep e) MinMax.new).slope.candRight ↔ ∃ x s, (sweep.x < x ∧ NbEntry L sweep e is i x s) ∧
      ∀ j y t, (sweep.x < y ∧ NbEntry L sweep e is j y t) → x ≤ y ∧ (y = x → t ≤ s)) := by
  obtain ⟨h1, h2⟩ := nbFold_spec L sweep e is MinMax.new (fun _ _ _ => False) (fun _ _ _ => False)
    ⟨fun _ _ _ _ h => h, by simp [MinMax.new], ⟨fun _ => ⟨rfl, by simp⟩, by simp [MinMax.new, MinMaxSlope.new]⟩⟩
    ⟨fun _ _ _ _ h => h, by simp [MinMax.new], ⟨fun _ => ⟨rfl, by simp⟩, by simp [MinMax.new, MinMaxSlope.new]⟩⟩
  have h1 := h1.congr (P' := fun i x s => x < sweep.x ∧ NbEntry L sweep e is i x s) (by simp)
  have h2 := h2.congr (P' := fun i x s => sweep.x < x ∧ NbEntry L sweep e is i x s) (by simp)
  exact ⟨h1.mem i, h2.mem i⟩

/-- the same pairs are tested, whatever the order -/
theorem sweepPairs_congr (L : List (Line2 K)) (sweep : V2 K) {e e' : SiteEvent} {is is' : List Nat} (hi : ∀ i, i ∈ is ↔ i ∈ is')
    (ha : e.add.Perm e'.add) (hn : e.inter.Perm e'.inter) (p : Nat × Nat) :
    p ∈ sweepPairs L sweep e is ↔ p ∈ sweepPairs L sweep e' is' := by
  have hnb : ∀ i x s, NbEntry L sweep e is i x s ↔ NbEntry L sweep e' is' i x s := by
    intro i x s
    unfold NbEntry
    rw [hi, hn.mem_iff]
  have hcn : ∀ i s, ConnEntry L (e.add ++ e.inter) i s ↔ ConnEntry L (e'.add ++ e'.inter) i s := by
    intro i s
    unfold ConnEntry
    rw [List.mem_append, List.mem_append, ha.mem_iff, hn.mem_iff]
  have hl : ∀ i, i ∈ (is.foldl (nbStep L sweep e) MinMax.new).slope.candLeft ↔ i ∈ (is'.foldl (nbStep L sweep e') MinMax.new).slope.candLeft := by
    intro i
    rw [(nb_mem L sweep e is i).1, (nb_mem L sweep e' is' i).1]
    simp only [hnb]
  have hr : ∀ i, i ∈ (is.foldl (nbStep L sweep e) MinMax.new).slope.candRight ↔ i ∈ (is'.foldl (nbStep L sweep e') MinMax.new).slope.candRight := by
    intro i
    rw [(nb_mem L sweep e is i).2, (nb_mem L sweep e' is' i).2]
    simp only [hnb]
  have hcl : ∀ i, i ∈ ((e.add ++ e.inter).foldl (connStep L) MinMaxSlope.new).candLeft ↔
      i ∈ ((e'.add ++ e'.inter).foldl (connStep L) MinMaxSlope.new).candLeft := by
    intro i
    rw [(conn_mem L _ i).1, (conn_mem L _ i).1]
    simp only [hcn]
  have hcr : ∀ i, i ∈ ((e.add ++ e.inter).foldl (connStep L) MinMaxSlope.new).candRight ↔
      i ∈ ((e'.add ++ e'.inter).foldl (connStep L) MinMaxSlope.new).candRight := by
    intro i
    rw [(conn_mem L _ i).2, (conn_mem L _ i).2]
    simp only [hcn]
  unfold sweepPairs
  simp only
  rw [ha.length_eq, hn.length_eq]
  split
  · simp only [List.mem_flatMap, List.mem_map, hl, hr]
  · simp only [List.mem_append, List.mem_flatMap, List.mem_map, hl, hr, hcl, hcr]

end
end Verif.Sweep
