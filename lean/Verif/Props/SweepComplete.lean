import Verif.Proofs.SweepDone
import Verif.Props.Sweep
import Mathlib.Tactic.Linarith
import Mathlib.Tactic.LinearCombination
/-!
# C59: the sweep line algorithm finds every intersection of lines in general position

`GeneralPosition` (`Spec/Sweep.lean`) is about the input lines; `order` and `fuel` as in `Props/Sweep.lean`.
-/
set_option linter.unusedSectionVars false
set_option linter.unusedVariables false
set_option linter.unusedSimpArgs false
namespace Verif.Props
open Verif Verif.Spec Verif.Model Verif.Sweep Verif.Proofs.Intersect

section
variable {K : Type} [Scalar K] [Field K] [LinearOrder K] [ExactScalar K] [ExactSqrt K] {ι : Type}

theorem isOn_rearranged (l : Line2 K) (p : V2 K) : IsOn (rearranged l) p ↔ IsOn l p := lo_mem_seg l p
theorem isEnd_rearranged (l : Line2 K) (p : V2 K) : IsEnd (rearranged l) p ↔ IsEnd l p := rearranged_ends l p

theorem common_rearranged (input : List (Line2 K)) (i j : Nat) (p : V2 K) :
    Common (input.map rearranged) i j p ↔ Common input i j p := by
  constructor
  · rintro ⟨l, m, hl, hm, h1, h2⟩
    obtain ⟨l, hl', rfl⟩ := rearranged_get hl
    obtain ⟨m, hm', rfl⟩ := rearranged_get hm
    exact ⟨l, m, hl', hm', (isOn_rearranged _ _).1 h1, (isOn_rearranged _ _).1 h2⟩
  · rintro ⟨l, m, hl, hm, h1, h2⟩
    exact ⟨rearranged l, rearranged m, by rw [List.getElem?_map, hl]; rfl, by rw [List.getElem?_map, hm]; rfl,
      (isOn_rearranged _ _).2 h1, (isOn_rearranged _ _).2 h2⟩

theorem special_rearranged (input : List (Line2 K)) (p : V2 K) :
    Special (input.map rearranged) p ↔ Special input p := by
  unfold Special
  refine or_congr ?_ ?_
  · simp only [List.mem_map, exists_exists_and_eq_and, isEnd_rearranged]
  · simp only [common_rearranged]

theorem gp_rearranged {input : List (Line2 K)} (gp : GeneralPosition input) : GeneralPosition (input.map rearranged) := by
  refine ⟨?_, ?_, ?_, ?_⟩
  · intro l hl
    obtain ⟨l, hl', rfl⟩ := List.mem_map.1 hl
    exact (lo_y (gp.slanted l hl')).ne
  · intro i j p q hij h1 h2
    exact gp.once i j p q hij ((common_rearranged _ _ _ _).1 h1) ((common_rearranged _ _ _ _).1 h2)
  · intro i j l m p hij hl hm h1 h2
    obtain ⟨l, hl', rfl⟩ := rearranged_get hl
    obtain ⟨m, hm', rfl⟩ := rearranged_get hm
    exact (isEnd_rearranged _ _).2 (gp.noT i j l m p hij hl' hm' ((isOn_rearranged _ _).1 h1) ((isEnd_rearranged _ _).1 h2))
  · intro i j p q hij h1 h2 h3
    exact gp.heights i j p q hij ((common_rearranged _ _ _ _).1 h1) ((special_rearranged _ _).1 h2) h3

theorem isFirstEnd_rearranged (l : Line2 K) (p : V2 K) : IsFirstEnd (rearranged l) p ↔ IsFirstEnd l p := by
  unfold IsFirstEnd
  simp only [isEnd_rearranged]

theorem sp_rearranged {input : List (Line2 K)} (gp : SweepPosition input) : SweepPosition (input.map rearranged) := by
  refine ⟨?_, ?_, ?_, ?_⟩
  · intro l hl
    obtain ⟨l, hl', rfl⟩ := List.mem_map.1 hl
    exact (lo_y (gp.slanted l hl')).ne
  · intro i j p q hij h1 h2
    exact gp.once i j p q hij ((common_rearranged _ _ _ _).1 h1) ((common_rearranged _ _ _ _).1 h2)
  · intro i j l m p hij hl hm h1 h2
    obtain ⟨l, hl', rfl⟩ := rearranged_get hl
    obtain ⟨m, hm', rfl⟩ := rearranged_get hm
    exact (isEnd_rearranged _ _).2 (gp.noT i j l m p hij hl' hm' ((isOn_rearranged _ _).1 h1) ((isFirstEnd_rearranged _ _).1 h2))
  · intro i j p q hij h1 h2 h3
    exact gp.heights i j p q hij ((common_rearranged _ _ _ _).1 h1) ((special_rearranged _ _).1 h2) h3

/-- the lines have a common point that is not an end point of either -/
def Crossing (L : List (Line2 K)) (i j : Nat) (p : V2 K) : Prop :=
  ∃ l m, L[i]? = some l ∧ L[j]? = some m ∧ IsOn l p ∧ IsOn m p ∧ ¬ IsEnd l p ∧ ¬ IsEnd m p

theorem crossing_rearranged (input : List (Line2 K)) (i j : Nat) (p : V2 K) :
    Crossing (input.map rearranged) i j p ↔ Crossing input i j p := by
  constructor
  · rintro ⟨l, m, hl, hm, h1, h2, h3, h4⟩
    obtain ⟨l, hl', rfl⟩ := rearranged_get hl
    obtain ⟨m, hm', rfl⟩ := rearranged_get hm
    rw [isOn_rearranged] at h1 h2
    rw [isEnd_rearranged] at h3 h4
    exact ⟨l, m, hl', hm', h1, h2, h3, h4⟩
  · rintro ⟨l, m, hl, hm, h1, h2, h3, h4⟩
    refine ⟨rearranged l, rearranged m, by rw [List.getElem?_map, hl]; rfl, by rw [List.getElem?_map, hm]; rfl, ?_⟩
    simp only [isOn_rearranged, isEnd_rearranged]
    exact ⟨h1, h2, h3, h4⟩

section core
variable {L : List (Line2 K)} {ign stop : Bool} {H : SiteMap K ι SiteEvent} {res : SiteMap K ι (List Nat)}

theorem all_reported (gp : SweepPosition L) (hf : Final L false false H res) (hc : Complete L false false H res)
    {i j : Nat} (hij : i ≠ j) (p : V2 K) : Common L i j p ↔ ∃ r ∈ res, r.1.1 = p ∧ i ∈ r.2 ∧ j ∈ r.2 := by
  constructor
  · rintro ⟨l, m, hl, hm, h1, h2⟩
    have key : ∀ (i j : Nat) (l m : Line2 K), i ≠ j → L[i]? = some l → L[j]? = some m → IsOn l p → IsOn m p → ¬ IsEnd l p →
        ∃ r ∈ res, r.1.1 = p ∧ i ∈ r.2 ∧ j ∈ r.2 := by
      intro i j l m hij hl hm h1 h2 he
      obtain ⟨h, hh, hp, hi, hj⟩ := hc.cross (Or.inl rfl) i j l m p hij hl hm h1 h2 he
      have hj' : j ∈ allAt h.2 := by rw [mem_allAt]; tauto
      have hi' : i ∈ allAt h.2 := by rw [mem_allAt]; tauto
      refine ⟨(h.1, allAt h.2), (hf.res _).2 ⟨h, hh, ?_, rfl⟩, hp, hi', hj'⟩
      have := two_of_mem (a := h.2.inter) (b := h.2.drop) hij (Or.inl hi) hj
      unfold Reportable
      simp only [Bool.false_eq_true, if_false]
      omega
    by_cases he : IsEnd l p
    · by_cases he' : IsEnd m p
      · exact hf.shared hij hl hm he he'
      · obtain ⟨r, hr, hp, h3, h4⟩ := key j i m l hij.symm hm hl h2 h1 he'
        exact ⟨r, hr, hp, h4, h3⟩
    · exact key i j l m hij hl hm h1 h2 he
  · rintro ⟨r, hr, rfl, hi, hj⟩
    obtain ⟨l, hl, h1⟩ := (hf.entry hr).1 i hi
    obtain ⟨m, hm, h2⟩ := (hf.entry hr).1 j hj
    exact ⟨l, m, hl, hm, h1, h2⟩

theorem cross_reported (gp : GeneralPosition L) (hf : Final L true stop H res) (hc : Complete L true stop H res)
    (hs : stop = false ∨ res = [])
    {i j : Nat} (hij : i ≠ j) (p : V2 K) : Crossing L i j p ↔ ∃ r ∈ res, r.1.1 = p ∧ i ∈ r.2 ∧ j ∈ r.2 := by
  constructor
  · rintro ⟨l, m, hl, hm, h1, h2, he, he'⟩
    obtain ⟨h, hh, hp, hi, hj⟩ := hc.cross hs i j l m p hij hl hm h1 h2 he
    refine ⟨(h.1, allAt h.2), (hf.res _).2 ⟨h, hh, ?_, rfl⟩, hp, ?_, ?_⟩
    · unfold Reportable
      simp only [if_true]
      rintro h0; rw [h0] at hi; cases hi
    · rw [mem_allAt]; tauto
    · rw [mem_allAt]; tauto
  · rintro ⟨r, hr, rfl, hi, hj⟩
    obtain ⟨l, hl, h1⟩ := (hf.entry hr).1 i hi
    obtain ⟨m, hm, h2⟩ := (hf.entry hr).1 j hj
    obtain ⟨a, -, -, -, -, o, ho, h3, h4⟩ := (hf.entry hr).2.2.2.2 rfl
    have key : ∀ (i : Nat) (l : Line2 K), L[i]? = some l → ¬ IsEnd l r.1.1 := by
      intro i l hl he
      by_cases hia : i = a
      · subst hia
        obtain rfl := some_eq hl ho
        rcases he with he | he
        · exact h4.1 he
        · exact h4.2 he
      · rcases gp.noT i a l o _ hia hl ho h3 he with he | he
        · exact h4.1 he
        · exact h4.2 he
    exact ⟨l, m, hl, hm, h1, h2, key i l hl, key j m hm⟩

/-- `p` is a common point of the lines, and inside some line (not an end point of it) -/
def CommonInside (L : List (Line2 K)) (i j : Nat) (p : V2 K) : Prop :=
  Common L i j p ∧ ∃ l ∈ L, IsOn l p ∧ ¬ IsEnd l p

theorem inside_reported (gp : SweepPosition L) (hf : Final L true stop H res) (hc : Complete L true stop H res)
    (hs : stop = false ∨ res = [])
    {i j : Nat} (hij : i ≠ j) (p : V2 K) : CommonInside L i j p ↔ ∃ r ∈ res, r.1.1 = p ∧ i ∈ r.2 ∧ j ∈ r.2 := by
  constructor
  · rintro ⟨⟨l, m, hl, hm, h1, h2⟩, o, ho, h3, h4⟩
    obtain ⟨n, hn⟩ := List.mem_iff_getElem?.1 ho
    have key : ∀ (a : Nat) (u : Line2 K), L[a]? = some u → IsOn u p → a ≠ n → ∃ r ∈ res, r.1.1 = p ∧ n ∈ r.2 ∧ a ∈ r.2 := by
      intro a u hu hup han
      obtain ⟨h, hh, hp, g1, g2⟩ := hc.cross hs n a o u p han.symm hn hu h3 hup h4
      have g1' : n ∈ allAt h.2 := by rw [mem_allAt]; tauto
      have g2' : a ∈ allAt h.2 := by rw [mem_allAt]; tauto
      refine ⟨(h.1, allAt h.2), (hf.res _).2 ⟨h, hh, ?_, rfl⟩, hp, g1', g2'⟩
      unfold Reportable
      simp only [if_true]
      rintro h0; rw [h0] at g1; cases g1
    by_cases hin : i = n
    · obtain ⟨r, hr, hp, q1, q2⟩ := key j m hm h2 (by rw [← hin]; exact hij.symm)
      exact ⟨r, hr, hp, hin ▸ q1, q2⟩
    · obtain ⟨r, hr, hp, q1, q2⟩ := key i l hl h1 hin
      by_cases hjn : j = n
      · exact ⟨r, hr, hp, q2, hjn ▸ q1⟩
      · obtain ⟨r', hr', hp', q1', q2'⟩ := key j m hm h2 hjn
        obtain rfl := hf.sorted.key_inj hr hr' (hp.trans hp'.symm)
        exact ⟨r, hr, hp, q2, q2'⟩
  · rintro ⟨r, hr, rfl, hi, hj⟩
    obtain ⟨l, hl, h1⟩ := (hf.entry hr).1 i hi
    obtain ⟨m, hm, h2⟩ := (hf.entry hr).1 j hj
    obtain ⟨a, -, -, -, -, o, ho, h3, h4⟩ := (hf.entry hr).2.2.2.2 rfl
    exact ⟨⟨l, m, hl, hm, h1, h2⟩, o, List.mem_of_getElem? ho, h3, fun he => he.elim h4.1 h4.2⟩

theorem inside_rearranged (input : List (Line2 K)) (i j : Nat) (p : V2 K) :
    CommonInside (input.map rearranged) i j p ↔ CommonInside input i j p := by
  unfold CommonInside
  rw [common_rearranged]
  simp only [List.mem_map, exists_exists_and_eq_and, isOn_rearranged, isEnd_rearranged]

end core

/-- C59: lines in general position, or such that lines end (but do not begin) inside of other lines: a point is common to two
lines iff it is reported for both of them -/
theorem C59_reports_exactly_the_common_points [TreeShape K] (order : Nat → List Nat → List Nat) (hord : ∀ n l, (order n l).Perm l)
    (input : List (Line2 K)) (gp : SweepPosition input) (fuel : Nat)
    (hf : 2 * input.length + input.length * input.length < fuel) :
    ∃ r, sweepIntersections order fuel false false input = .ok r ∧
      ∀ i j p, i ≠ j → (Common input i j p ↔ ∃ x ∈ r, x.1 = p ∧ i ∈ x.2 ∧ j ∈ x.2) := by
  obtain ⟨r, H, h1, h2, h3⟩ := plain_complete order hord false false input (sp_rearranged gp) fuel hf
  refine ⟨_, h1, ?_⟩
  intro i j p hij
  rw [← common_rearranged, all_reported (sp_rearranged gp) h2 h3 hij p]
  simp only [List.mem_map, exists_exists_and_eq_and]

/-- C59, end points ignored: a point inside both lines iff it is reported for both of them -/
theorem C59_ignoring_end_points_reports_exactly_the_crossings [TreeShape K] (order : Nat → List Nat → List Nat)
    (hord : ∀ n l, (order n l).Perm l) (input : List (Line2 K)) (gp : GeneralPosition input) (fuel : Nat)
    (hf : 2 * input.length + input.length * input.length < fuel) :
    ∃ r, sweepIntersections order fuel true false input = .ok r ∧
      ∀ i j p, i ≠ j → (Crossing input i j p ↔ ∃ x ∈ r, x.1 = p ∧ i ∈ x.2 ∧ j ∈ x.2) := by
  obtain ⟨r, H, h1, h2, h3⟩ := plain_complete order hord true false input (gp_rearranged gp).sweep fuel hf
  refine ⟨_, h1, ?_⟩
  intro i j p hij
  rw [← crossing_rearranged, cross_reported (gp_rearranged gp) h2 h3 (Or.inl rfl) hij p]
  simp only [List.mem_map, exists_exists_and_eq_and]

/-- C59, end points ignored, lines may end inside of other lines: a point is reported for two lines iff it is common to both
and not an end point of every line that has it -/
theorem C59_ignoring_end_points_reports_the_points_inside_a_line [TreeShape K] (order : Nat → List Nat → List Nat)
    (hord : ∀ n l, (order n l).Perm l) (input : List (Line2 K)) (gp : SweepPosition input) (fuel : Nat)
    (hf : 2 * input.length + input.length * input.length < fuel) :
    ∃ r, sweepIntersections order fuel true false input = .ok r ∧
      ∀ i j p, i ≠ j → (CommonInside input i j p ↔ ∃ x ∈ r, x.1 = p ∧ i ∈ x.2 ∧ j ∈ x.2) := by
  obtain ⟨r, H, h1, h2, h3⟩ := plain_complete order hord true false input (sp_rearranged gp) fuel hf
  refine ⟨_, h1, ?_⟩
  intro i j p hij
  rw [← inside_rearranged, inside_reported (sp_rearranged gp) h2 h3 (Or.inl rfl) hij p]
  simp only [List.mem_map, exists_exists_and_eq_and]

/-- C59, end points ignored, stop at the first, lines may end inside of other lines: something is reported iff two lines have a
common point that is not an end point of both -/
theorem C59_stop_at_first_finds_a_touch [TreeShape K] (order : Nat → List Nat → List Nat)
    (hord : ∀ n l, (order n l).Perm l) (input : List (Line2 K)) (gp : SweepPosition input) (fuel : Nat)
    (hf : 2 * input.length + input.length * input.length < fuel) :
    ∃ r, sweepIntersections order fuel true true input = .ok r ∧
      (r ≠ [] ↔ ∃ (i j : Nat) (l m : Line2 K) (p : V2 K), i ≠ j ∧ input[i]? = some l ∧ input[j]? = some m ∧ IsOn l p ∧ IsOn m p ∧
        ¬ (IsEnd l p ∧ IsEnd m p)) := by
  obtain ⟨r, H, h1, h2, h3⟩ := plain_complete order hord true true input (sp_rearranged gp) fuel hf
  refine ⟨_, h1, ?_⟩
  have hne : r.map (fun r => (r.1.1, r.2)) ≠ [] ↔ r ≠ [] := by simp
  rw [hne]
  constructor
  · intro hr
    obtain ⟨x, hx⟩ := List.exists_mem_of_ne_nil r hr
    obtain ⟨a, b, hab, -, hb, o, ho, g1, g2⟩ := (h2.entry hx).2.2.2.2 rfl
    obtain ⟨m, hm, g3⟩ := (h2.entry hx).1 b hb
    obtain ⟨o, ho', rfl⟩ := rearranged_get ho
    obtain ⟨m, hm', rfl⟩ := rearranged_get hm
    have hno : ¬ IsEnd (rearranged o) x.1.1 := by rintro (h | h); exacts [g2.1 h, g2.2 h]
    rw [isEnd_rearranged] at hno
    exact ⟨a, b, o, m, x.1.1, hab, ho', hm', (isOn_rearranged _ _).1 g1, (isOn_rearranged _ _).1 g3, fun h => hno h.1⟩
  · rintro ⟨i, j, l, m, p, hij, hl, hm, g1, g2, g3⟩ rfl
    have hin : CommonInside input i j p := by
      refine ⟨⟨l, m, hl, hm, g1, g2⟩, ?_⟩
      by_cases he : IsEnd l p
      · exact ⟨m, List.mem_of_getElem? hm, g2, fun h => g3 ⟨he, h⟩⟩
      · exact ⟨l, List.mem_of_getElem? hl, g1, he⟩
    obtain ⟨x, hx, -⟩ := (inside_reported (sp_rearranged gp) h2 h3 (Or.inr rfl) hij p).1 ((inside_rearranged _ _ _ _).2 hin)
    cases hx

/-- C59, end points ignored, stop at the first: something is reported iff two lines cross -/
theorem C59_stop_at_first_finds_a_crossing [TreeShape K] (order : Nat → List Nat → List Nat)
    (hord : ∀ n l, (order n l).Perm l) (input : List (Line2 K)) (gp : GeneralPosition input) (fuel : Nat)
    (hf : 2 * input.length + input.length * input.length < fuel) :
    ∃ r, sweepIntersections order fuel true true input = .ok r ∧
      (r ≠ [] ↔ ∃ i j p, i ≠ j ∧ Crossing input i j p) := by
  obtain ⟨r, H, h1, h2, h3⟩ := plain_complete order hord true true input (gp_rearranged gp).sweep fuel hf
  refine ⟨_, h1, ?_⟩
  have hne : r.map (fun r => (r.1.1, r.2)) ≠ [] ↔ r ≠ [] := by simp
  rw [hne]
  constructor
  · intro hr
    obtain ⟨x, hx⟩ := List.exists_mem_of_ne_nil r hr
    obtain ⟨a, b, hab, -, hb, o, ho, g1, g2⟩ := (h2.entry hx).2.2.2.2 rfl
    obtain ⟨m, hm, g3⟩ := (h2.entry hx).1 b hb
    have hno : ¬ IsEnd o x.1.1 := by rintro (h | h); exacts [g2.1 h, g2.2 h]
    exact ⟨a, b, x.1.1, hab, (crossing_rearranged _ _ _ _).1 ⟨o, m, ho, hm, g1, g3, hno,
      fun he => hno ((gp_rearranged gp).noT b a m o _ hab.symm hm ho g1 he)⟩⟩
  · rintro ⟨i, j, p, hij, hc⟩ rfl
    obtain ⟨x, hx, -⟩ := (cross_reported (gp_rearranged gp) h2 h3 (Or.inr rfl) hij p).1 ((crossing_rearranged _ _ _ _).2 hc)
    cases hx

/-- C59: `is_self_intersecting` of a line string of at least ten points whose edges are in general position: `true` iff two
different edges cross -/
theorem C59_self_intersecting_iff [TreeShape K] (order : Nat → List Nat → List Nat) (hord : ∀ n l, (order n l).Perm l)
    (line : List (V2 K)) (gp : GeneralPosition (windowIter2 line)) (fuel : Nat)
    (hf : 2 * line.length + line.length * line.length < fuel) :
    ∃ b, isSelfIntersectingLong order fuel line = .ok b ∧
      (b = true ↔ ∃ i j p, i ≠ j ∧ Crossing (windowIter2 line) i j p) := by
  have hlen : (windowIter2 line).length ≤ line.length := by
    rw [windowIter2, List.length_map, Intersect.windows2_length]
    omega
  have hmul := Nat.mul_le_mul hlen hlen
  obtain ⟨r, h1, h2⟩ := C59_stop_at_first_finds_a_crossing order hord (windowIter2 line) gp fuel (by omega)
  refine ⟨decide (r.length > 0), ?_, ?_⟩
  · unfold isSelfIntersectingLong
    rw [h1]; rfl
  · rw [← h2, decide_eq_true_iff, gt_iff_lt, List.length_pos_iff]

/-- C59: the same if edges end inside of other edges: `true` iff two different edges have a common point that is not an end
point of both -/
theorem C59_self_intersecting_iff_touch [TreeShape K] (order : Nat → List Nat → List Nat) (hord : ∀ n l, (order n l).Perm l)
    (line : List (V2 K)) (gp : SweepPosition (windowIter2 line)) (fuel : Nat)
    (hf : 2 * line.length + line.length * line.length < fuel) :
    ∃ b, isSelfIntersectingLong order fuel line = .ok b ∧
      (b = true ↔ ∃ (i j : Nat) (l m : Line2 K) (p : V2 K), i ≠ j ∧ (windowIter2 line)[i]? = some l ∧
        (windowIter2 line)[j]? = some m ∧ IsOn l p ∧ IsOn m p ∧ ¬ (IsEnd l p ∧ IsEnd m p)) := by
  have hlen : (windowIter2 line).length ≤ line.length := by
    rw [windowIter2, List.length_map, Intersect.windows2_length]
    omega
  have hmul := Nat.mul_le_mul hlen hlen
  obtain ⟨r, h1, h2⟩ := C59_stop_at_first_finds_a_touch order hord (windowIter2 line) gp fuel (by omega)
  refine ⟨decide (r.length > 0), ?_, ?_⟩
  · unfold isSelfIntersectingLong
    rw [h1]; rfl
  · rw [← h2, decide_eq_true_iff, gt_iff_lt, List.length_pos_iff]

/-! ### the indexed version -/

/-- the points of edge `i` of the table -/
def OnEdge (vs : List (V2 K)) (edges : List (Nat × Nat)) (i : Nat) (p : V2 K) : Prop :=
  ∃ e a b, edges[i]? = some e ∧ vs[e.1]? = some a ∧ vs[e.2]? = some b ∧ OnSegment2 a b p

/-- `L` are the edges as lines -/
def EdgeLines (vs : List (V2 K)) (edges : List (Nat × Nat)) (L : List (Line2 K)) : Prop :=
  L.length = edges.length ∧ ∀ (i : Nat) (e : Nat × Nat) (l : Line2 K), edges[i]? = some e → L[i]? = some l →
    vs[e.1]? = some l.start ∧ vs[e.2]? = some l.end

theorem EdgeLines.ok {vs : List (V2 K)} {edges : List (Nat × Nat)} {L : List (Line2 K)} (h : EdgeLines vs edges L) :
    (∀ e ∈ edges, EdgeOk vs e) ∧ L = edges.map (edgeLine vs ⟨0, 0⟩) := by
  constructor
  · intro e he
    obtain ⟨i, hi, rfl⟩ := List.mem_iff_getElem.1 he
    have hl : L[i]? = some (L[i]'(by rw [h.1]; exact hi)) := List.getElem?_eq_getElem _
    obtain ⟨h1, h2⟩ := h.2 i _ _ (List.getElem?_eq_getElem hi) hl
    exact ⟨(List.getElem?_eq_some_iff.1 h1).1, (List.getElem?_eq_some_iff.1 h2).1⟩
  · refine List.ext_getElem? fun i => ?_
    rw [List.getElem?_map]
    by_cases hi : i < edges.length
    · have hl : L[i]? = some (L[i]'(by rw [h.1]; exact hi)) := List.getElem?_eq_getElem _
      have he := List.getElem?_eq_getElem hi
      obtain ⟨h1, h2⟩ := h.2 i _ _ he hl
      rw [hl, he, Option.map_some]
      unfold edgeLine
      rw [h1, h2]
      rfl
    · rw [List.getElem?_eq_none (by rw [h.1]; omega), List.getElem?_eq_none (l := edges) (by omega)]
      rfl

/-- C59, indexed version -/
theorem C59_indexed_reports_exactly_the_common_points [TreeShape K] (order : Nat → List Nat → List Nat) (hord : ∀ n l, (order n l).Perm l)
    (vs : List (V2 K)) (edges : List (Nat × Nat)) (L : List (Line2 K)) (hL : EdgeLines vs edges L) (gp : SweepPosition L)
    (fuel : Nat) (hf : 2 * edges.length + edges.length * edges.length < fuel) :
    ∃ tab r, indexedSweepIntersections order fuel false false vs edges = .ok (tab, r) ∧
      ∀ i j p, i ≠ j → ((OnEdge vs edges i p ∧ OnEdge vs edges j p) ↔ ∃ x ∈ r, tab[x.1]? = some p ∧ i ∈ x.2 ∧ j ∈ x.2) := by
  obtain ⟨hE, rfl⟩ := hL.ok
  obtain ⟨tab, r, H, h1, h2, h3, h4, h5⟩ := indexed_complete order hord false false vs ⟨0, 0⟩ edges hE gp fuel hf
  refine ⟨tab, _, h1, ?_⟩
  intro i j p hij
  have hon : ∀ i, OnEdge vs edges i p ↔ ∃ l, (edges.map (edgeLine vs ⟨0, 0⟩))[i]? = some l ∧ IsOn l p := by
    intro i
    constructor
    · rintro ⟨e, a, b, he, ha, hb, hp⟩
      refine ⟨edgeLine vs ⟨0, 0⟩ e, by rw [List.getElem?_map, he]; rfl, ?_⟩
      unfold edgeLine
      rw [ha, hb]
      exact hp
    · rintro ⟨l, hl, hp⟩
      rw [List.getElem?_map] at hl
      obtain ⟨e, he, rfl⟩ := Option.map_eq_some_iff.1 hl
      obtain ⟨hb1, hb2⟩ := hE e (List.mem_of_getElem? he)
      have g1 : vs[e.1]? = some vs[e.1] := List.getElem?_eq_getElem hb1
      have g2 : vs[e.2]? = some vs[e.2] := List.getElem?_eq_getElem hb2
      refine ⟨e, _, _, he, g1, g2, ?_⟩
      unfold edgeLine at hp
      rw [g1, g2] at hp
      exact hp
  have hc : (OnEdge vs edges i p ∧ OnEdge vs edges j p) ↔ Common (edges.map (edgeLine vs ⟨0, 0⟩)) i j p := by
    rw [hon, hon]
    constructor
    · rintro ⟨⟨l, hl, h⟩, ⟨m, hm, h'⟩⟩; exact ⟨l, m, hl, hm, h, h'⟩
    · rintro ⟨l, m, hl, hm, h, h'⟩; exact ⟨⟨l, hl, h⟩, ⟨m, hm, h'⟩⟩
  rw [hc, all_reported gp h4 h5 hij p]
  constructor
  · rintro ⟨x, hx, rfl, hi, hj⟩
    exact ⟨_, List.mem_map.2 ⟨x, hx, rfl⟩, h3 x hx, hi, hj⟩
  · rintro ⟨y, hy, ht, hi, hj⟩
    obtain ⟨x, hx, rfl⟩ := List.mem_map.1 hy
    refine ⟨x, hx, ?_, hi, hj⟩
    have := h3 x hx
    simp only at ht
    rw [ht] at this
    simpa using this.symm

end

/-! ### the hypotheses can be met; findings -/

/-- two crossing lines and a third one that begins where the first one ends -/
def gpExample : List (Line2 ℝ) := [⟨⟨0, 0⟩, ⟨4, 4⟩⟩, ⟨⟨5, 1⟩, ⟨0, 3⟩⟩, ⟨⟨4, 4⟩, ⟨9, 5⟩⟩]

theorem gpExample_get {i : Nat} {l : Line2 ℝ} (h : gpExample[i]? = some l) {p : V2 ℝ} (hp : IsOn l p) :
    (i = 0 ∧ l = ⟨⟨0, 0⟩, ⟨4, 4⟩⟩ ∧ p.x = p.y ∧ 0 ≤ p.y ∧ p.y ≤ 4) ∨
    (i = 1 ∧ l = ⟨⟨5, 1⟩, ⟨0, 3⟩⟩ ∧ 2 * p.x = 15 - 5 * p.y ∧ 1 ≤ p.y ∧ p.y ≤ 3) ∨
    (i = 2 ∧ l = ⟨⟨4, 4⟩, ⟨9, 5⟩⟩ ∧ p.x = 5 * p.y - 16 ∧ 4 ≤ p.y ∧ p.y ≤ 5) := by
  obtain ⟨t, h0, h1, rfl⟩ := hp
  match i, h with
  | 0, h =>
    simp only [gpExample, List.getElem?_cons_zero, Option.some_inj] at h
    subst h
    refine Or.inl ⟨rfl, rfl, ?_⟩
    simp only [lerp2]
    refine ⟨?_, ?_, ?_⟩ <;> first | trivial | linarith
  | 1, h =>
    simp only [gpExample, List.getElem?_cons_succ, List.getElem?_cons_zero, Option.some_inj] at h
    subst h
    refine Or.inr (Or.inl ⟨rfl, rfl, ?_⟩)
    simp only [lerp2]
    refine ⟨?_, ?_, ?_⟩ <;> first | trivial | linarith
  | 2, h =>
    simp only [gpExample, List.getElem?_cons_succ, List.getElem?_cons_zero, Option.some_inj] at h
    subst h
    refine Or.inr (Or.inr ⟨rfl, rfl, ?_⟩)
    simp only [lerp2]
    refine ⟨?_, ?_, ?_⟩ <;> first | trivial | linarith
  | n + 3, h => simp [gpExample] at h

theorem gpExample_common {i j : Nat} {p : V2 ℝ} (hij : i ≠ j) (h : Common gpExample i j p) :
    ((i = 0 ∧ j = 1 ∨ i = 1 ∧ j = 0) ∧ p = ⟨15 / 7, 15 / 7⟩) ∨ ((i = 0 ∧ j = 2 ∨ i = 2 ∧ j = 0) ∧ p = ⟨4, 4⟩) := by
  obtain ⟨l, m, hl, hm, h1, h2⟩ := h
  obtain ⟨x, y⟩ := p
  simp only [V2.mk.injEq]
  rcases gpExample_get hl h1 with ⟨rfl, -, a1, a2, a3⟩ | ⟨rfl, -, a1, a2, a3⟩ | ⟨rfl, -, a1, a2, a3⟩ <;>
    rcases gpExample_get hm h2 with ⟨rfl, -, b1, b2, b3⟩ | ⟨rfl, -, b1, b2, b3⟩ | ⟨rfl, -, b1, b2, b3⟩ <;>
    simp only at a1 a2 a3 b1 b2 b3
  · exact absurd rfl hij
  · exact Or.inl ⟨by simp, by linarith, by linarith⟩
  · exact Or.inr ⟨by simp, by linarith, by linarith⟩
  · exact Or.inl ⟨by simp, by linarith, by linarith⟩
  · exact absurd rfl hij
  · linarith
  · exact Or.inr ⟨by simp, by linarith, by linarith⟩
  · linarith
  · exact absurd rfl hij

/-- the hypothesis of the theorems of C59 is met by lines that cross, and lines that share an end point -/
theorem gpExample_general : GeneralPosition gpExample := by
  refine ⟨?_, ?_, ?_, ?_⟩
  · intro l hl
    simp only [gpExample, List.mem_cons, List.not_mem_nil, or_false] at hl
    rcases hl with rfl | rfl | rfl <;> norm_num
  · intro i j p q hij h1 h2
    rcases gpExample_common hij h1 with ⟨ha, rfl⟩ | ⟨ha, rfl⟩ <;> rcases gpExample_common hij h2 with ⟨hb, rfl⟩ | ⟨hb, rfl⟩
    · rfl
    · omega
    · omega
    · rfl
  · intro i j l m p hij hl hm hp he
    have hlp : IsOn l p := by
      rcases he with rfl | rfl
      · exact onSeg_start _ _
      · exact onSeg_end _ _
    rcases gpExample_common hij ⟨l, m, hl, hm, hlp, hp⟩ with ⟨ha, rfl⟩ | ⟨ha, rfl⟩
    · exfalso
      rcases gpExample_get hl hlp with ⟨-, rfl, -⟩ | ⟨-, rfl, -⟩ | ⟨-, rfl, -⟩ <;>
        rcases he with he | he <;> simp only [V2.mk.injEq] at he <;> norm_num at he
    · rcases gpExample_get hm hp with ⟨-, rfl, -⟩ | ⟨-, rfl, -, -, h⟩ | ⟨-, rfl, -⟩
      · exact Or.inr rfl
      · norm_num at h
      · exact Or.inl rfl
  · intro i j p q hij h1 h2 hy
    have hp : p = ⟨15 / 7, 15 / 7⟩ ∨ p = ⟨4, 4⟩ := by
      rcases gpExample_common hij h1 with ⟨-, h⟩ | ⟨-, h⟩
      · exact Or.inl h
      · exact Or.inr h
    have hq : q = ⟨0, 0⟩ ∨ q = ⟨4, 4⟩ ∨ q = ⟨5, 1⟩ ∨ q = ⟨0, 3⟩ ∨ q = ⟨9, 5⟩ ∨ q = ⟨15 / 7, 15 / 7⟩ := by
      rcases h2 with ⟨l, hl, he⟩ | ⟨a, b, hab, hc⟩
      · simp only [gpExample, List.mem_cons, List.not_mem_nil, or_false] at hl
        rcases hl with rfl | rfl | rfl <;> rcases he with rfl | rfl <;> simp
      · rcases gpExample_common hab hc with ⟨-, rfl⟩ | ⟨-, rfl⟩ <;> simp
    rcases hp with rfl | rfl <;> rcases hq with rfl | rfl | rfl | rfl | rfl | rfl <;> first | rfl | (norm_num at hy)

/-- so the sweep line algorithm reports the crossing at (15/7, 15/7) and the common end point (4, 4) -/
example [TreeShape ℝ] (fuel : Nat) (hf : 15 < fuel) : ∃ r, sweepIntersections keepOrder fuel false false gpExample = .ok r ∧
    (∃ x ∈ r, x.1 = ⟨15 / 7, 15 / 7⟩ ∧ 0 ∈ x.2 ∧ 1 ∈ x.2) ∧ (∃ x ∈ r, x.1 = ⟨4, 4⟩ ∧ 0 ∈ x.2 ∧ 2 ∈ x.2) := by
  obtain ⟨r, h1, h2⟩ := C59_reports_exactly_the_common_points keepOrder (fun _ l => List.Perm.refl l) gpExample gpExample_general.sweep
    fuel (by simpa [gpExample] using hf)
  refine ⟨r, h1, (h2 0 1 _ (by decide)).1 ?_, (h2 0 2 _ (by decide)).1 ?_⟩
  · exact ⟨_, _, rfl, rfl, ⟨15 / 28, by norm_num, by norm_num, by simp only [lerp2, V2.mk.injEq]; norm_num⟩,
      ⟨4 / 7, by norm_num, by norm_num, by simp only [lerp2, V2.mk.injEq]; norm_num⟩⟩
  · exact ⟨_, _, rfl, rfl, onSeg_end _ _, onSeg_start _ _⟩

/-- finding: two lines that begin at a common point, and an end point of a third line at the same height: the third line
crosses the second one, but only the common point of the first two is reported -/
theorem C59_shared_vertex_at_the_height_of_an_event : ∀ T ∈ shapes, haveI : TreeShape FQ := T
    sweepIntersections keepOrder 50 false false [seg 0 0 (-5) 9, seg 0 0 5 8, seg 1 0 (-1) 10] =
      .ok [(⟨.fin 0, .fin 0⟩, [0, 1])] ∧
    (seg 0 0 5 8).intersectionPoint (seg 1 0 (-1) 10) = some (.point ⟨.fin (25 / 33), .fin (40 / 33)⟩) := by decide +kernel

end Verif.Props
