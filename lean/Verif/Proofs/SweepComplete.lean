import Verif.Proofs.SweepCore
import Mathlib.Data.Prod.Lex
import Mathlib.Data.Finset.Max
/-!
# The sweep line algorithm finds everything, in general position
-/
set_option linter.unusedSectionVars false
set_option linter.unusedVariables false
set_option linter.unusedSimpArgs false
namespace Verif.Sweep
open Verif Verif.Spec Verif.Model Verif.Proofs.Intersect

section
variable {K : Type} [Scalar K] [Field K] [LinearOrder K] [ExactScalar K] {ι σ V : Type}

/-! ## the position of a line at a height -/

/-- change of `x` per unit of height -/
def slp (l : Line2 K) : K := (l.end.x - l.start.x) / (l.end.y - l.start.y)
/-- the `x` of the line at height `y` -/
def xAt (l : Line2 K) (y : K) : K := l.start.x + (y - l.start.y) * slp l

theorem xAt_shift (l : Line2 K) (y z : K) : xAt l z = xAt l y + (z - y) * slp l := by
  unfold xAt; ring

theorem xAt_end {l : Line2 K} (h : l.start.y ≠ l.end.y) : xAt l l.end.y = l.end.x := by
  unfold xAt slp
  have : l.end.y - l.start.y ≠ 0 := sub_ne_zero.2 h.symm
  field_simp
  ring

theorem xAt_start (l : Line2 K) : xAt l l.start.y = l.start.x := by
  unfold xAt; ring

theorem on_xAt {l : Line2 K} (h : l.start.y ≠ l.end.y) {p : V2 K} (hp : IsOn l p) : p.x = xAt l p.y := by
  obtain ⟨t, -, -, rfl⟩ := hp
  have : l.end.y - l.start.y ≠ 0 := sub_ne_zero.2 h.symm
  simp only [lerp2, xAt, slp]
  field_simp
  ring

theorem on_of_xAt {l : Line2 K} (h : l.start.y ≠ l.end.y) {y : K}
    (hy : (l.start.y ≤ y ∧ y ≤ l.end.y) ∨ (l.end.y ≤ y ∧ y ≤ l.start.y)) : IsOn l ⟨xAt l y, y⟩ := by
  have hne : l.end.y - l.start.y ≠ 0 := sub_ne_zero.2 h.symm
  refine ⟨(y - l.start.y) / (l.end.y - l.start.y), ?_, ?_, ?_⟩
  · rcases hy with ⟨h1, h2⟩ | ⟨h1, h2⟩
    · exact div_nonneg (by linarith) (by linarith)
    · exact div_nonneg_of_nonpos (by linarith) (by linarith)
  · rcases hy with ⟨h1, h2⟩ | ⟨h1, h2⟩
    · have : 0 < l.end.y - l.start.y := lt_of_le_of_ne (by linarith) hne.symm
      rw [div_le_one this]; linarith
    · have : l.end.y - l.start.y < 0 := lt_of_le_of_ne (by linarith) hne
      rw [div_le_one_of_neg this]; linarith
  · simp only [lerp2, xAt, slp]
    refine v2_ext ?_ ?_
    · simp only; field_simp
    · simp only; field_simp; ring

theorem lo_y {l : Line2 K} (h : l.start.y ≠ l.end.y) : (lo l).y < (hi l).y := by
  obtain ⟨h1, h2⟩ := lo_hi l
  have hne : (lo l).y ≠ (hi l).y := by
    rcases h2 with ⟨h3, h4⟩ | ⟨h3, h4⟩ <;> rw [h3, h4]
    · exact h
    · exact h.symm
  rcases h1 with (h1 | ⟨h1, -⟩) | h1
  · exact h1
  · exact absurd h1 hne
  · exact absurd (by rw [h1]) hne

/-- a point of the line at a height between the ends -/
theorem on_of_between {l : Line2 K} (h : l.start.y ≠ l.end.y) {y : K} (h1 : (lo l).y ≤ y) (h2 : y ≤ (hi l).y) :
    IsOn l ⟨xAt l y, y⟩ := by
  refine on_of_xAt h ?_
  rcases (lo_hi l).2 with ⟨h3, h4⟩ | ⟨h3, h4⟩ <;> rw [h3] at h1 <;> rw [h4] at h2
  · exact Or.inl ⟨h1, h2⟩
  · exact Or.inr ⟨h1, h2⟩

theorem on_between {l : Line2 K} {p : V2 K} (hp : IsOn l p) : (lo l).y ≤ p.y ∧ p.y ≤ (hi l).y := by
  obtain ⟨t, h0, h1, rfl⟩ := hp
  obtain ⟨g1, g2⟩ := lo_hi l
  have hle : (lo l).y ≤ (hi l).y := by
    rcases g1 with (g1 | ⟨g1, -⟩) | g1
    · exact g1.le
    · exact g1.le
    · rw [g1]
  simp only [lerp2]
  rcases g2 with ⟨g3, g4⟩ | ⟨g3, g4⟩ <;> rw [g3, g4] at hle ⊢ <;> constructor <;> nlinarith

/-- interior points are strictly between the ends -/
theorem on_strict {l : Line2 K} (h : l.start.y ≠ l.end.y) {p : V2 K} (hp : IsOn l p) (hn : ¬ IsEnd l p) :
    (lo l).y < p.y ∧ p.y < (hi l).y := by
  obtain ⟨h1, h2⟩ := on_between hp
  have hx := on_xAt h hp
  have hends : xAt l (lo l).y = (lo l).x ∧ xAt l (hi l).y = (hi l).x := by
    rcases (lo_hi l).2 with ⟨h3, h4⟩ | ⟨h3, h4⟩ <;> rw [h3, h4]
    · exact ⟨xAt_start l, xAt_end h⟩
    · exact ⟨xAt_end h, xAt_start l⟩
  refine ⟨lt_of_le_of_ne h1 fun he => hn ?_, lt_of_le_of_ne h2 fun he => hn ?_⟩
  · rw [IsEnd, ends_iff]
    left
    exact v2_ext (by rw [hx, ← he, hends.1]) he.symm
  · rw [IsEnd, ends_iff]
    right
    exact v2_ext (by rw [hx, he, hends.2]) he

/-- where the line is just above height `y` -/
def pos (y : K) (l : Line2 K) : K ×ₗ K := toLex (xAt l y, slp l)

theorem pos_lt (y : K) (l m : Line2 K) : pos y l < pos y m ↔ xAt l y < xAt m y ∨ (xAt l y = xAt m y ∧ slp l < slp m) := by
  unfold pos
  rw [Prod.Lex.lt_iff]
  rfl

/-- lines that do not meet between two heights keep their order -/
theorem keep_order {l m : Line2 K} {y z : K} (hyz : y < z) (h : pos y l < pos y m)
    (hno : ∀ w, y < w → w < z → xAt l w ≠ xAt m w) : xAt l z ≤ xAt m z := by
  rw [pos_lt] at h
  by_contra hc
  push Not at hc
  have e1 := xAt_shift l y z
  have e2 := xAt_shift m y z
  rcases h with h | ⟨h, hs⟩
  · have hD : 0 < (xAt m y - xAt l y) + (xAt l z - xAt m z) := by linarith
    obtain ⟨D, hDe⟩ : ∃ D, D = (xAt m y - xAt l y) + (xAt l z - xAt m z) := ⟨_, rfl⟩
    rw [← hDe] at hD
    obtain ⟨t, ht⟩ : ∃ t, t = (xAt m y - xAt l y) / D := ⟨_, rfl⟩
    have ht0 : 0 < t := by rw [ht]; exact div_pos (by linarith) hD
    have ht1 : t < 1 := by rw [ht, div_lt_one hD]; linarith
    have htD : t * D = xAt m y - xAt l y := by rw [ht]; field_simp
    refine hno (y + t * (z - y)) ?_ ?_ ?_
    · have := mul_pos ht0 (sub_pos.2 hyz); linarith
    · have := mul_pos (sub_pos.2 ht1) (sub_pos.2 hyz); nlinarith
    · rw [xAt_shift l y, xAt_shift m y]
      have : D = (z - y) * (slp l - slp m) := by rw [hDe, e1, e2]; ring
      rw [this] at htD
      linear_combination htD
  · have := mul_pos (sub_pos.2 hyz) (sub_pos.2 hs)
    rw [e1, e2, h] at hc
    nlinarith

/-- the height of the sweep line at an intersection with a line -/
theorem sweepline_xAt {l : Line2 K} (h : l.start.y ≠ l.end.y) (sweep : V2 K) :
    ∃ s, sweeplineIntersection sweep l = some (xAt l sweep.y, s) := by
  unfold sweeplineIntersection
  simp only [exact_simp, if_neg h]
  by_cases hx : l.start.x = l.end.x
  · rw [if_pos hx]
    refine ⟨Scalar.inf, ?_⟩
    unfold xAt slp
    rw [hx]; simp
  · rw [if_neg hx]
    refine ⟨(l.end.y - l.start.y) / (l.end.x - l.start.x), ?_⟩
    · have h1 : l.end.y - l.start.y ≠ 0 := sub_ne_zero.2 (Ne.symm h)
      have h2 : l.end.x - l.start.x ≠ 0 := sub_ne_zero.2 (Ne.symm hx)
      simp only [Option.some_inj, Prod.mk.injEq, and_true]
      unfold xAt slp
      field_simp
      ring

/-! ## the candidates -/

/-- the best candidate to the left is found -/
theorem nb_left {L : List (Line2 K)} {sweep : V2 K} {e : SiteEvent} {i : Nat} {l : Line2 K} (hl : L[i]? = some l)
    (hs : ∀ l ∈ L, l.start.y ≠ l.end.y) (hi : i ∉ e.inter) (hlt : xAt l sweep.y < sweep.x) : ∀ (is : List Nat) (m : MinMax K),
    is.Nodup → (∀ j ∈ is, j ≠ i → j ∉ e.inter → ∀ k, L[j]? = some k → xAt k sweep.y < sweep.x → xAt k sweep.y < xAt l sweep.y) →
    ((i ∈ m.slope.candLeft ∧ m.bestLeft = some (xAt l sweep.y) ∧ i ∉ is) ∨
      (i ∈ is ∧ ((m.bestLeft = none ∧ m.slope.bestLeft = none) ∨ ∃ b, m.bestLeft = some b ∧ b < xAt l sweep.y))) →
    i ∈ (is.foldl (nbStep L sweep e) m).slope.candLeft := by
  intro is
  induction is with
  | nil =>
    intro m _ _ h
    rcases h with ⟨h, -⟩ | ⟨h, -⟩
    · exact h
    · cases h
  | cons j is ih =>
    intro m hnd hbest h
    rw [List.foldl_cons]
    obtain ⟨hnd1, hnd2⟩ := List.nodup_cons.1 hnd
    refine ih _ hnd2 (fun k hk => hbest k (List.mem_cons_of_mem _ hk)) ?_
    by_cases hji : j = i
    · subst hji
      have hst : ((m.bestLeft = none ∧ m.slope.bestLeft = none) ∨ ∃ b, m.bestLeft = some b ∧ b < xAt l sweep.y) := by
        rcases h with ⟨-, -, h⟩ | ⟨-, h⟩
        · exact absurd List.mem_cons_self h
        · exact h
      left
      obtain ⟨s, hsl⟩ := sweepline_xAt (hs l (List.mem_of_getElem? hl)) sweep
      unfold nbStep
      rw [if_neg (by simpa using hi), hl]
      simp only [hsl]
      unfold MinMax.update
      rw [lt_decide]
      simp only [hlt, decide_true, if_true]
      rcases hst with ⟨h1, h2⟩ | ⟨b, h1, h2⟩
      · rw [h1]
        refine ⟨?_, rfl, hnd1⟩
        simp [MinMaxSlope.updateLeft, h2]
      · rw [h1]
        simp only [ulps_decide, h2.ne, decide_false, Bool.false_eq_true, if_false, lt_decide, h2, decide_true, if_true]
        refine ⟨?_, trivial, hnd1⟩
        simp [MinMaxSlope.updateLeft]
    · -- another line
      have hrest : ∀ m' : MinMax K, ((m'.slope.candLeft = m.slope.candLeft ∧ m'.bestLeft = m.bestLeft ∧ m'.slope.bestLeft = m.slope.bestLeft) ∨
          (∃ b, m'.bestLeft = some b ∧ b < xAt l sweep.y ∧ (∀ b', m.bestLeft = some b' → b' ≤ b))) →
          ((i ∈ m'.slope.candLeft ∧ m'.bestLeft = some (xAt l sweep.y) ∧ i ∉ is) ∨
          (i ∈ is ∧ ((m'.bestLeft = none ∧ m'.slope.bestLeft = none) ∨ ∃ b, m'.bestLeft = some b ∧ b < xAt l sweep.y))) := by
        intro m' hm'
        rcases hm' with ⟨h1, h2, h3⟩ | ⟨b, h1, h2, h3⟩
        · rw [h1, h2, h3]
          rcases h with ⟨g1, g2, g3⟩ | ⟨g1, g2⟩
          · exact Or.inl ⟨g1, g2, fun hh => g3 (List.mem_cons_of_mem _ hh)⟩
          · refine Or.inr ⟨?_, g2⟩
            rcases List.mem_cons.1 g1 with g1 | g1
            · exact absurd g1.symm hji
            · exact g1
        · rcases h with ⟨g1, g2, g3⟩ | ⟨g1, g2⟩
          · exact absurd (h3 _ g2) (not_le.2 h2)
          · refine Or.inr ⟨?_, Or.inr ⟨b, h1, h2⟩⟩
            rcases List.mem_cons.1 g1 with g1 | g1
            · exact absurd g1.symm hji
            · exact g1
      apply hrest
      unfold nbStep
      by_cases hc : e.inter.contains j = true
      · rw [if_pos hc]; exact Or.inl ⟨rfl, rfl, rfl⟩
      · rw [if_neg hc]
        cases hk : L[j]? with
        | none => exact Or.inl ⟨rfl, rfl, rfl⟩
        | some k =>
          obtain ⟨s, hsl⟩ := sweepline_xAt (hs k (List.mem_of_getElem? hk)) sweep
          simp only [hsl]
          unfold MinMax.update
          rw [lt_decide, gt_decide]
          by_cases h1 : xAt k sweep.y < sweep.x
          · have hb := hbest j List.mem_cons_self hji (by simpa using hc) k hk h1
            simp only [h1, decide_true, if_true]
            cases hmb : m.bestLeft with
            | none => exact Or.inr ⟨_, rfl, hb, by simp⟩
            | some cur =>
              simp only [ulps_decide, lt_decide]
              by_cases he : cur = xAt k sweep.y
              · simp only [he, decide_true, if_true]
                refine Or.inr ⟨_, ?_, hb, by simp⟩
                simp only [hmb, he]
              · by_cases h2 : cur < xAt k sweep.y
                · simp only [he, h2, decide_false, Bool.false_eq_true, if_false, decide_true, if_true]
                  refine Or.inr ⟨_, rfl, hb, ?_⟩
                  intro b' hb'
                  simp only [Option.some_inj] at hb'
                  exact hb' ▸ h2.le
                · simp only [he, h2, decide_false, Bool.false_eq_true, if_false]
                  exact Or.inl ⟨by trivial, hmb, by trivial⟩
          · by_cases h2 : sweep.x < xAt k sweep.y
            · simp only [h1, h2, decide_false, Bool.false_eq_true, if_false, decide_true, if_true]
              have hu : ∀ c x, (m.slope.updateRight c x j).candLeft = m.slope.candLeft ∧
                  (m.slope.updateRight c x j).bestLeft = m.slope.bestLeft := by
                intro c x
                refine ⟨updateRight_left _ _ _ _, ?_⟩
                unfold MinMaxSlope.updateRight
                cases c <;> cases hb : m.slope.bestRight <;> simp [hb] <;> split <;> (try split) <;> simp
              cases m.bestRight with
              | none => exact Or.inl ⟨(hu _ _).1, rfl, (hu _ _).2⟩
              | some cur =>
                simp only
                split
                · exact Or.inl ⟨(hu _ _).1, rfl, (hu _ _).2⟩
                · split
                  · exact Or.inl ⟨(hu _ _).1, rfl, (hu _ _).2⟩
                  · exact Or.inl ⟨rfl, rfl, rfl⟩
            · simp only [h1, h2, decide_false, Bool.false_eq_true, if_false]
              exact Or.inl ⟨by trivial, by trivial, by trivial⟩

/-- the best candidate to the right is found -/
theorem nb_right {L : List (Line2 K)} {sweep : V2 K} {e : SiteEvent} {i : Nat} {l : Line2 K} (hl : L[i]? = some l)
    (hs : ∀ l ∈ L, l.start.y ≠ l.end.y) (hi : i ∉ e.inter) (hlt : sweep.x < xAt l sweep.y) : ∀ (is : List Nat) (m : MinMax K),
    is.Nodup → (∀ j ∈ is, j ≠ i → j ∉ e.inter → ∀ k, L[j]? = some k → sweep.x < xAt k sweep.y → xAt l sweep.y < xAt k sweep.y) →
    ((i ∈ m.slope.candRight ∧ m.bestRight = some (xAt l sweep.y) ∧ i ∉ is) ∨
      (i ∈ is ∧ ((m.bestRight = none ∧ m.slope.bestRight = none) ∨ ∃ b, m.bestRight = some b ∧ xAt l sweep.y < b))) →
    i ∈ (is.foldl (nbStep L sweep e) m).slope.candRight := by
  intro is
  induction is with
  | nil =>
    intro m _ _ h
    rcases h with ⟨h, -⟩ | ⟨h, -⟩
    · exact h
    · cases h
  | cons j is ih =>
    intro m hnd hbest h
    rw [List.foldl_cons]
    obtain ⟨hnd1, hnd2⟩ := List.nodup_cons.1 hnd
    refine ih _ hnd2 (fun k hk => hbest k (List.mem_cons_of_mem _ hk)) ?_
    by_cases hji : j = i
    · subst hji
      have hst : ((m.bestRight = none ∧ m.slope.bestRight = none) ∨ ∃ b, m.bestRight = some b ∧ xAt l sweep.y < b) := by
        rcases h with ⟨-, -, h⟩ | ⟨-, h⟩
        · exact absurd List.mem_cons_self h
        · exact h
      left
      obtain ⟨s, hsl⟩ := sweepline_xAt (hs l (List.mem_of_getElem? hl)) sweep
      unfold nbStep
      rw [if_neg (by simpa using hi), hl]
      simp only [hsl]
      unfold MinMax.update
      rw [lt_decide, gt_decide]
      simp only [hlt, not_lt.2 hlt.le, decide_false, Bool.false_eq_true, if_false, decide_true, if_true]
      rcases hst with ⟨h1, h2⟩ | ⟨b, h1, h2⟩
      · rw [h1]
        refine ⟨?_, by trivial, hnd1⟩
        simp [MinMaxSlope.updateRight, h2]
      · rw [h1]
        simp only [ulps_decide, h2.ne', decide_false, Bool.false_eq_true, if_false, gt_decide, h2, decide_true, if_true]
        refine ⟨?_, by trivial, hnd1⟩
        simp [MinMaxSlope.updateRight]
    · -- another line
      have hrest : ∀ m' : MinMax K, ((m'.slope.candRight = m.slope.candRight ∧ m'.bestRight = m.bestRight ∧ m'.slope.bestRight = m.slope.bestRight) ∨
          (∃ b, m'.bestRight = some b ∧ xAt l sweep.y < b ∧ (∀ b', m.bestRight = some b' → b ≤ b'))) →
          ((i ∈ m'.slope.candRight ∧ m'.bestRight = some (xAt l sweep.y) ∧ i ∉ is) ∨
          (i ∈ is ∧ ((m'.bestRight = none ∧ m'.slope.bestRight = none) ∨ ∃ b, m'.bestRight = some b ∧ xAt l sweep.y < b))) := by
        intro m' hm'
        rcases hm' with ⟨h1, h2, h3⟩ | ⟨b, h1, h2, h3⟩
        · rw [h1, h2, h3]
          rcases h with ⟨g1, g2, g3⟩ | ⟨g1, g2⟩
          · exact Or.inl ⟨g1, g2, fun hh => g3 (List.mem_cons_of_mem _ hh)⟩
          · refine Or.inr ⟨?_, g2⟩
            rcases List.mem_cons.1 g1 with g1 | g1
            · exact absurd g1.symm hji
            · exact g1
        · rcases h with ⟨g1, g2, g3⟩ | ⟨g1, g2⟩
          · exact absurd (h3 _ g2) (not_le.2 h2)
          · refine Or.inr ⟨?_, Or.inr ⟨b, h1, h2⟩⟩
            rcases List.mem_cons.1 g1 with g1 | g1
            · exact absurd g1.symm hji
            · exact g1
      apply hrest
      unfold nbStep
      by_cases hc : e.inter.contains j = true
      · rw [if_pos hc]; exact Or.inl ⟨rfl, rfl, rfl⟩
      · rw [if_neg hc]
        cases hk : L[j]? with
        | none => exact Or.inl ⟨rfl, rfl, rfl⟩
        | some k =>
          obtain ⟨s, hsl⟩ := sweepline_xAt (hs k (List.mem_of_getElem? hk)) sweep
          simp only [hsl]
          unfold MinMax.update
          rw [lt_decide, gt_decide]
          by_cases h1 : sweep.x < xAt k sweep.y
          · have hb := hbest j List.mem_cons_self hji (by simpa using hc) k hk h1
            simp only [h1, not_lt.2 h1.le, decide_false, Bool.false_eq_true, if_false, decide_true, if_true]
            cases hmb : m.bestRight with
            | none => exact Or.inr ⟨_, rfl, hb, by simp⟩
            | some cur =>
              simp only [ulps_decide, gt_decide]
              by_cases he : cur = xAt k sweep.y
              · simp only [he, decide_true, if_true]
                refine Or.inr ⟨_, ?_, hb, by simp⟩
                simp only [hmb, he]
              · by_cases h2 : xAt k sweep.y < cur
                · simp only [he, h2, decide_false, Bool.false_eq_true, if_false, decide_true, if_true]
                  refine Or.inr ⟨_, rfl, hb, ?_⟩
                  intro b' hb'
                  simp only [Option.some_inj] at hb'
                  exact hb' ▸ h2.le
                · simp only [he, h2, decide_false, Bool.false_eq_true, if_false]
                  exact Or.inl ⟨by trivial, hmb, by trivial⟩
          · by_cases h2 : xAt k sweep.y < sweep.x
            · simp only [h1, h2, decide_false, Bool.false_eq_true, if_false, decide_true, if_true]
              have hu : ∀ c x, (m.slope.updateLeft c x j).candRight = m.slope.candRight ∧
                  (m.slope.updateLeft c x j).bestRight = m.slope.bestRight := by
                intro c x
                refine ⟨updateLeft_right _ _ _ _, ?_⟩
                unfold MinMaxSlope.updateLeft
                cases c <;> cases hb : m.slope.bestLeft <;> simp [hb] <;> split <;> (try split) <;> simp
              cases m.bestLeft with
              | none => exact Or.inl ⟨(hu _ _).1, rfl, (hu _ _).2⟩
              | some cur =>
                simp only
                split
                · exact Or.inl ⟨(hu _ _).1, rfl, (hu _ _).2⟩
                · split
                  · exact Or.inl ⟨(hu _ _).1, rfl, (hu _ _).2⟩
                  · exact Or.inl ⟨rfl, rfl, rfl⟩
            · simp only [h1, h2, decide_false, Bool.false_eq_true, if_false]
              exact Or.inl ⟨by trivial, by trivial, by trivial⟩

theorem updateBoth_eq {l : Line2 K} (h : l.start.y ≠ l.end.y) (m : MinMaxSlope K) (i : Nat) :
    m.updateBoth l i = (m.updateLeft false (slp l) i).updateRight false (slp l) i := by
  unfold MinMaxSlope.updateBoth
  simp only [exact_simp, if_neg (Ne.symm h)]
  rfl

theorem updateRight_bestLeft (m : MinMaxSlope K) (c : Bool) (x : K) (i : Nat) :
    (m.updateRight c x i).bestLeft = m.bestLeft := by
  unfold MinMaxSlope.updateRight
  cases c <;> cases hb : m.bestRight <;> simp [hb] <;> split <;> (try split) <;> simp

theorem updateLeft_bestRight (m : MinMaxSlope K) (c : Bool) (x : K) (i : Nat) :
    (m.updateLeft c x i).bestRight = m.bestRight := by
  unfold MinMaxSlope.updateLeft
  cases c <;> cases hb : m.bestLeft <;> simp [hb] <;> split <;> (try split) <;> simp

theorem updateLeft_eq (m : MinMaxSlope K) (s : K) (i : Nat) :
    ((m.updateLeft false s i).candLeft, (m.updateLeft false s i).bestLeft) =
      match m.bestLeft with
      | none => (m.candLeft ++ [i], some s)
      | some c => if c = s then (m.candLeft ++ [i], some c) else if s < c then ([i], some s) else (m.candLeft, some c) := by
  unfold MinMaxSlope.updateLeft
  simp only [Bool.false_eq_true, if_false]
  cases hb : m.bestLeft with
  | none => simp [hb]
  | some c =>
    simp only [ulps_decide, lt_decide, decide_eq_true_eq]
    split
    · simp [hb]
    · split <;> simp [hb]

theorem updateRight_eq (m : MinMaxSlope K) (s : K) (i : Nat) :
    ((m.updateRight false s i).candRight, (m.updateRight false s i).bestRight) =
      match m.bestRight with
      | none => (m.candRight ++ [i], some s)
      | some c => if c = s then (m.candRight ++ [i], some c) else if c < s then ([i], some s) else (m.candRight, some c) := by
  unfold MinMaxSlope.updateRight
  simp only [Bool.false_eq_true, if_false]
  cases hb : m.bestRight with
  | none => simp [hb]
  | some c =>
    simp only [ulps_decide, gt_decide, decide_eq_true_eq]
    split
    · simp [hb]
    · split <;> simp [hb]

/-- the line that is leftmost above the event is found -/
theorem conn_left {L : List (Line2 K)} {i : Nat} {l : Line2 K} (hl : L[i]? = some l)
    (hs : ∀ l ∈ L, l.start.y ≠ l.end.y) : ∀ (is : List Nat) (m : MinMaxSlope K),
    is.Nodup → (∀ j ∈ is, j ≠ i → ∀ k, L[j]? = some k → slp l < slp k) →
    ((i ∈ m.candLeft ∧ m.bestLeft = some (slp l) ∧ i ∉ is) ∨
      (i ∈ is ∧ (m.bestLeft = none ∨ ∃ b, m.bestLeft = some b ∧ slp l < b))) →
    i ∈ (is.foldl (connStep L) m).candLeft := by
  intro is
  induction is with
  | nil =>
    intro m _ _ h
    rcases h with ⟨h, -⟩ | ⟨h, -⟩
    · exact h
    · cases h
  | cons j is ih =>
    intro m hnd hbest h
    rw [List.foldl_cons]
    obtain ⟨hnd1, hnd2⟩ := List.nodup_cons.1 hnd
    refine ih _ hnd2 (fun k hk => hbest k (List.mem_cons_of_mem _ hk)) ?_
    unfold connStep
    cases hk : L[j]? with
    | none =>
      simp only
      rcases h with ⟨g1, g2, g3⟩ | ⟨g1, g2⟩
      · exact Or.inl ⟨g1, g2, fun hh => g3 (List.mem_cons_of_mem _ hh)⟩
      · refine Or.inr ⟨?_, g2⟩
        rcases List.mem_cons.1 g1 with g1 | g1
        · subst g1; rw [hl] at hk; cases hk
        · exact g1
    | some k =>
      simp only
      rw [updateBoth_eq (hs k (List.mem_of_getElem? hk)), updateRight_left, updateRight_bestLeft]
      have heq := updateLeft_eq m (slp k) j
      by_cases hji : j = i
      · subst hji
        rw [hl] at hk
        simp only [Option.some_inj] at hk
        subst hk
        left
        have hst : (m.bestLeft = none ∨ ∃ b, m.bestLeft = some b ∧ slp l < b) := by
          rcases h with ⟨-, -, h⟩ | ⟨-, h⟩
          · exact absurd List.mem_cons_self h
          · exact h
        rcases hst with h1 | ⟨b, h1, h2⟩
        · rw [h1] at heq
          simp only [Prod.mk.injEq] at heq
          rw [heq.1, heq.2]
          exact ⟨by simp, rfl, hnd1⟩
        · rw [h1] at heq
          simp only [h2.ne', h2, if_true, if_false, Prod.mk.injEq] at heq
          rw [heq.1, heq.2]
          exact ⟨by simp, rfl, hnd1⟩
      · have hb := hbest j List.mem_cons_self hji k hk
        rcases h with ⟨g1, g2, g3⟩ | ⟨g1, g2⟩
        · left
          rw [g2] at heq
          simp only [hb.ne, not_lt.2 hb.le, if_false, Prod.mk.injEq] at heq
          rw [heq.1, heq.2]
          exact ⟨g1, rfl, fun hh => g3 (List.mem_cons_of_mem _ hh)⟩
        · right
          refine ⟨?_, Or.inr ?_⟩
          · rcases List.mem_cons.1 g1 with g1 | g1
            · exact absurd g1.symm hji
            · exact g1
          · rcases g2 with g2 | ⟨b, g2, g3⟩
            · rw [g2] at heq
              simp only [Prod.mk.injEq] at heq
              exact ⟨_, heq.2, hb⟩
            · rw [g2] at heq
              simp only at heq
              split at heq
              · simp only [Prod.mk.injEq] at heq
                exact ⟨_, heq.2, g3⟩
              · split at heq
                · simp only [Prod.mk.injEq] at heq
                  exact ⟨_, heq.2, hb⟩
                · simp only [Prod.mk.injEq] at heq
                  exact ⟨_, heq.2, g3⟩

/-- the line that is rightmost above the event is found -/
theorem conn_right {L : List (Line2 K)} {i : Nat} {l : Line2 K} (hl : L[i]? = some l)
    (hs : ∀ l ∈ L, l.start.y ≠ l.end.y) : ∀ (is : List Nat) (m : MinMaxSlope K),
    is.Nodup → (∀ j ∈ is, j ≠ i → ∀ k, L[j]? = some k → slp k < slp l) →
    ((i ∈ m.candRight ∧ m.bestRight = some (slp l) ∧ i ∉ is) ∨
      (i ∈ is ∧ (m.bestRight = none ∨ ∃ b, m.bestRight = some b ∧ b < slp l))) →
    i ∈ (is.foldl (connStep L) m).candRight := by
  intro is
  induction is with
  | nil =>
    intro m _ _ h
    rcases h with ⟨h, -⟩ | ⟨h, -⟩
    · exact h
    · cases h
  | cons j is ih =>
    intro m hnd hbest h
    rw [List.foldl_cons]
    obtain ⟨hnd1, hnd2⟩ := List.nodup_cons.1 hnd
    refine ih _ hnd2 (fun k hk => hbest k (List.mem_cons_of_mem _ hk)) ?_
    unfold connStep
    cases hk : L[j]? with
    | none =>
      simp only
      rcases h with ⟨g1, g2, g3⟩ | ⟨g1, g2⟩
      · exact Or.inl ⟨g1, g2, fun hh => g3 (List.mem_cons_of_mem _ hh)⟩
      · refine Or.inr ⟨?_, g2⟩
        rcases List.mem_cons.1 g1 with g1 | g1
        · subst g1; rw [hl] at hk; cases hk
        · exact g1
    | some k =>
      simp only
      rw [updateBoth_eq (hs k (List.mem_of_getElem? hk))]
      have heq := updateRight_eq (m.updateLeft false (slp k) j) (slp k) j
      rw [updateLeft_bestRight, updateLeft_right] at heq
      by_cases hji : j = i
      · subst hji
        rw [hl] at hk
        simp only [Option.some_inj] at hk
        subst hk
        left
        have hst : (m.bestRight = none ∨ ∃ b, m.bestRight = some b ∧ b < slp l) := by
          rcases h with ⟨-, -, h⟩ | ⟨-, h⟩
          · exact absurd List.mem_cons_self h
          · exact h
        rcases hst with h1 | ⟨b, h1, h2⟩
        · rw [h1] at heq
          simp only [Prod.mk.injEq] at heq
          rw [heq.1, heq.2]
          exact ⟨by simp, rfl, hnd1⟩
        · rw [h1] at heq
          simp only [h2.ne, h2, if_true, if_false, Prod.mk.injEq] at heq
          rw [heq.1, heq.2]
          exact ⟨by simp, rfl, hnd1⟩
      · have hb := hbest j List.mem_cons_self hji k hk
        rcases h with ⟨g1, g2, g3⟩ | ⟨g1, g2⟩
        · left
          rw [g2] at heq
          simp only [hb.ne', not_lt.2 hb.le, if_false, Prod.mk.injEq] at heq
          rw [heq.1, heq.2]
          exact ⟨g1, rfl, fun hh => g3 (List.mem_cons_of_mem _ hh)⟩
        · right
          refine ⟨?_, Or.inr ?_⟩
          · rcases List.mem_cons.1 g1 with g1 | g1
            · exact absurd g1.symm hji
            · exact g1
          · rcases g2 with g2 | ⟨b, g2, g3⟩
            · rw [g2] at heq
              simp only [Prod.mk.injEq] at heq
              exact ⟨_, heq.2, hb⟩
            · rw [g2] at heq
              simp only at heq
              split at heq
              · simp only [Prod.mk.injEq] at heq
                exact ⟨_, heq.2, g3⟩
              · split at heq
                · simp only [Prod.mk.injEq] at heq
                  exact ⟨_, heq.2, hb⟩
                · simp only [Prod.mk.injEq] at heq
                  exact ⟨_, heq.2, g3⟩

end
end Verif.Sweep
