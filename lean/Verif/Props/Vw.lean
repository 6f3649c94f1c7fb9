import Verif.Proofs.Vw
import Verif.Spec.Instances
import Verif.Spec.Geom
import Verif.Props.IndexedHull
/-!
# C12, C13, C14, C15: Visvalingam–Whyatt simplification

The theorems hold for every scalar type on whose non-NaN numbers `S` the comparison is total (no law of
arithmetic is used), for every behaviour `pick` of the priority queue that gives out a least entry, and
say that the loop ends: every `fuel` above `4 n` gives the same kind of answer.
-/
set_option linter.unusedSectionVars false
set_option linter.unusedVariables false
set_option linter.unusedSimpArgs false
namespace Verif.Props
open Verif Verif.Spec Verif.Model Verif.Vw

theorem sandwich {A : Type} (l : List A) (a b : A) (h2 : 2 ≤ l.length) (h0 : l.head? = some a)
    (h1 : l.getLast? = some b) : a :: (l.tail.dropLast ++ [b]) = l ∧ a :: l.tail.dropLast = l.dropLast := by
  match l, h2 with
  | x :: y :: t, _ =>
    simp at h0
    subst h0
    have hl : (y :: t).getLast (by simp) = b := by
      rw [List.getLast?_eq_some_getLast (by simp)] at h1
      simpa using h1
    refine ⟨?_, by simp⟩
    congr 1
    simp only [List.tail_cons]
    conv_rhs => rw [← List.dropLast_append_getLast (l := y :: t) (by simp)]
    rw [hl]

theorem sublist_dropLast {A : Type} {l₁ l₂ : List A} (h : l₁.Sublist l₂) : l₁.dropLast.Sublist l₂.dropLast := by
  have := h.reverse.tail.reverse
  simpa using this

section
variable {α : Type} [Scalar α]

/-- everything about the open 2D case -/
theorem vw2_open {S : α → Prop} (hS : TotalOn S) (pick : Nat → List (α × Nat) → Nat) (hpick : PopsLeast S pick)
    (line : List (V2 α)) (hn : 3 ≤ line.length) (hc : isConnected2 line = false)
    (hgood : ∀ a ∈ line, ∀ b ∈ line, ∀ c ∈ line, S (triangleArea2 a b c)) (k fuel : Nat)
    (hf : 4 * line.length < fuel) :
    ∃ out, simplifyVw2 pick fuel line k = .ok out ∧
      GreedyDeletes triangleArea2 (fun a b => Scalar.le a b = true)
        (min k (if line.length = 3 then 1 else line.length - 4)) line out ∧
      out.Sublist line ∧ out.length + min k (if line.length = 3 then 1 else line.length - 4) = line.length ∧
      out.head? = line.head? ∧ out.getLast? = line.getLast? := by
  obtain ⟨s, s', links, cur, pt, h1, h2, h3, h4, h5, h6, g1, g2, g3, g4, g5, g6, g7⟩ :=
    vw_core hS triangleArea2 line hn hgood pick hpick true k fuel hf false
  simp only [Bool.false_eq_true, if_false, Nat.add_zero] at *
  have hd : deletable true (line.length - 2) = if line.length = 3 then 1 else line.length - 4 := by
    simp only [deletable, true_and]
    split <;> split <;> omega
  rw [hd] at g1 g3
  obtain rfl : s = s' := by simpa using h2
  rw [h6] at g1
  obtain ⟨hsw, -⟩ := sandwich cur 0 (line.length - 1) g4 g5 g6
  have hmem : ∀ i ∈ cur, i < line.length := fun i hi => by simpa using g2.mem hi
  have hm : cur.mapM (idx line) = .ok (cur.map pt) := mapM_ok _ pt cur (fun i hi => h4 i (hmem i hi))
  refine ⟨cur.map pt, ?_, g1, ?_, by simpa using g3, ?_, ?_⟩
  · unfold simplifyVw2
    rw [if_neg (by omega), h1]
    simp only [bind, Except.bind, hc, Bool.false_eq_true, if_false]
    rw [h3]
    simp only [Bool.not_false, if_true, g7, hsw]
    exact hm
  · conv_rhs => rw [← h6]
    exact g2.map pt
  · rw [List.head?_map, g5]
    conv_rhs => rw [← h6]
    rw [List.head?_map, List.head?_range, if_neg (by omega)]
  · rw [List.getLast?_map, g6]
    conv_rhs => rw [← h6]
    rw [List.getLast?_map, List.getLast?_range, if_neg (by omega)]

/-- everything about the closed 2D case -/
theorem vw2_closed {S : α → Prop} (hS : TotalOn S) (pick : Nat → List (α × Nat) → Nat) (hpick : PopsLeast S pick)
    (line : List (V2 α)) (hn : 3 ≤ line.length) (hc : isConnected2 line = true)
    (hgood : ∀ a ∈ line, ∀ b ∈ line, ∀ c ∈ line, S (triangleArea2 a b c)) (k fuel : Nat)
    (hf : 4 * line.length < fuel) :
    ∃ (out : List (V2 α)) (first : V2 α), simplifyVw2 pick fuel line k = .ok out ∧ line.head? = some first ∧
      GreedyDeletes triangleArea2 (fun a b => Scalar.le a b = true) (min k (line.length - 3))
        (line ++ [first]) (out ++ [first]) ∧
      out.Sublist line ∧ out.length + min k (line.length - 3) = line.length ∧ out.head? = some first := by
  obtain ⟨s, s', links, cur, pt, h1, h2, h3, h4, h5, h6, g1, g2, g3, g4, g5, g6, g7⟩ :=
    vw_core hS triangleArea2 line hn hgood pick hpick true k fuel hf true
  simp only [if_true] at *
  have hd : deletable true (line.length - 2 + 1) = line.length - 3 := by
    unfold deletable
    rw [if_pos ⟨rfl, by omega⟩]; omega
  rw [hd] at g1 g3
  have h5' := h5 (by omega)
  rw [List.range_succ, List.map_append, h6, List.map_singleton, h5'] at g1
  obtain ⟨hsw, hdl⟩ := sandwich cur 0 (line.length - 1 + 1) g4 g5 g6
  have hcur : cur = cur.dropLast ++ [line.length] := by
    rw [← hdl, List.cons_append]
    rw [show line.length - 1 + 1 = line.length by omega] at hsw
    exact hsw.symm
  have hsub : cur.dropLast.Sublist (List.range line.length) := by
    have := sublist_dropLast g2
    rwa [List.range_succ, List.dropLast_concat] at this
  have hmem : ∀ i ∈ cur.dropLast, i < line.length := fun i hi => by simpa using hsub.mem hi
  have hm : cur.dropLast.mapM (idx line) = .ok (cur.dropLast.map pt) :=
    mapM_ok _ pt _ (fun i hi => h4 i (hmem i hi))
  have hhead : line.head? = some (line[0]'(by omega)) := by rw [List.head?_eq_getElem?, List.getElem?_eq_getElem]
  refine ⟨cur.dropLast.map pt, line[0], ?_, hhead, ?_, ?_, ?_, ?_⟩
  · unfold simplifyVw2
    rw [if_neg (by omega), h1]
    simp only [bind, Except.bind, hc, if_true]
    rw [h2]
    simp only
    rw [h3]
    simp only [Bool.not_true, Bool.false_eq_true, if_false, g7, hdl]
    exact hm
  · have : cur.map pt = cur.dropLast.map pt ++ [line[0]] := by
      conv_lhs => rw [hcur]
      rw [List.map_append, List.map_singleton, h5']
    rwa [this] at g1
  · conv_rhs => rw [← h6]
    exact hsub.map pt
  · simp only [List.length_map, List.length_dropLast]; omega
  · rw [List.head?_map, ← hdl]
    simp only [List.head?_cons, Option.map_some]
    have := h4 0 (by omega)
    unfold idx at this
    rw [List.getElem?_eq_getElem (by omega)] at this
    simp at this
    rw [this]

/-- everything about the 3D case -/
theorem vw3_all {S : α → Prop} (hS : TotalOn S) (pick : Nat → List (α × Nat) → Nat) (hpick : PopsLeast S pick)
    (line : List (V3 α)) (hn : 3 ≤ line.length)
    (hgood : ∀ a ∈ line, ∀ b ∈ line, ∀ c ∈ line, S (triangleArea3 a b c)) (k fuel : Nat)
    (hf : 4 * line.length < fuel) :
    ∃ (out : List (V3 α)) (last : V3 α), simplifyVw3 pick fuel line k = .ok out ∧ line.getLast? = some last ∧
      GreedyDeletes triangleArea3 (fun a b => Scalar.le a b = true) (min k (line.length - 2))
        line (out ++ [last]) ∧
      out.Sublist line.dropLast ∧ out.length = 1 + (line.length - 2 - min k (line.length - 2)) ∧
      out.head? = line.head? := by
  obtain ⟨s, s', links, cur, pt, h1, h2, h3, h4, h5, h6, g1, g2, g3, g4, g5, g6, g7⟩ :=
    vw_core hS triangleArea3 line hn hgood pick hpick false k fuel hf false
  simp only [Bool.false_eq_true, if_false, Nat.add_zero] at *
  have hd : deletable false (line.length - 2) = line.length - 2 := by simp [deletable]
  rw [hd] at g1 g3
  obtain rfl : s = s' := by simpa using h2
  rw [h6] at g1
  obtain ⟨hsw, hdl⟩ := sandwich cur 0 (line.length - 1) g4 g5 g6
  have hcur : cur = cur.dropLast ++ [line.length - 1] := by
    rw [← hdl, List.cons_append]; exact hsw.symm
  have hsub : cur.dropLast.Sublist (List.range (line.length - 1)) := by
    have := sublist_dropLast g2
    obtain ⟨n, hn'⟩ : ∃ n, line.length = n + 1 := ⟨line.length - 1, by omega⟩
    rw [hn', List.range_succ, List.dropLast_concat] at this
    rw [hn']; exact this
  have hmem : ∀ i ∈ cur.dropLast, i < line.length - 1 := fun i hi => by simpa using hsub.mem hi
  have hm : cur.dropLast.mapM (idx line) = .ok (cur.dropLast.map pt) :=
    mapM_ok _ pt _ (fun i hi => h4 i (by have := hmem i hi; omega))
  have hpt : ∀ i (h : i < line.length), pt i = line[i] := by
    intro i h
    have := h4 i h
    unfold idx at this
    rw [List.getElem?_eq_getElem h] at this
    simp at this
    exact this.symm
  have hlast : line.getLast? = some (line[line.length - 1]'(by omega)) := by
    rw [List.getLast?_eq_getElem?, List.getElem?_eq_getElem]
  refine ⟨cur.dropLast.map pt, line[line.length - 1], ?_, hlast, ?_, ?_, ?_, ?_⟩
  · unfold simplifyVw3
    rw [if_neg (by omega), h1]
    simp only [bind, Except.bind]
    rw [h3]
    simp only [g7, hdl]
    exact hm
  · have : cur.map pt = cur.dropLast.map pt ++ [line[line.length - 1]] := by
      conv_lhs => rw [hcur]
      rw [List.map_append, List.map_singleton, hpt _ (by omega)]
    rwa [this] at g1
  · have : line.dropLast = (List.range (line.length - 1)).map pt := by
      conv_lhs => rw [← h6]
      obtain ⟨n, hn'⟩ : ∃ n, line.length = n + 1 := ⟨line.length - 1, by omega⟩
      rw [hn', List.range_succ]
      simp
    rw [this]
    exact hsub.map pt
  · simp only [List.length_map, List.length_dropLast]; omega
  · rw [List.head?_map, ← hdl]
    simp only [List.head?_cons, Option.map_some]
    rw [hpt 0 (by omega), List.head?_eq_getElem?, List.getElem?_eq_getElem]

/-! ## C12 -/

/-- C12: the result is a subsequence of the line that starts with its first point. -/
theorem C12_vw2_subsequence {S : α → Prop} (hS : TotalOn S) (pick : Nat → List (α × Nat) → Nat)
    (hpick : PopsLeast S pick) (line : List (V2 α)) (k fuel : Nat)
    (hgood : ∀ a ∈ line, ∀ b ∈ line, ∀ c ∈ line, S (triangleArea2 a b c)) (hf : 4 * line.length < fuel) :
    ∃ out, simplifyVw2 pick fuel line k = .ok out ∧ out.Sublist line ∧ out.head? = line.head? := by
  rcases Nat.lt_or_ge line.length 3 with h | h
  · exact ⟨line, by unfold simplifyVw2; rw [if_pos (by omega)], List.Sublist.refl _, rfl⟩
  · cases hc : isConnected2 line with
    | false =>
      obtain ⟨out, h1, -, h2, -, h3, -⟩ := vw2_open hS pick hpick line h hc hgood k fuel hf
      exact ⟨out, h1, h2, h3⟩
    | true =>
      obtain ⟨out, first, h1, h0, -, h2, -, h3⟩ := vw2_closed hS pick hpick line h hc hgood k fuel hf
      exact ⟨out, h1, h2, h3.trans h0.symm⟩

/-- C12: an open line (first and last point are different) keeps its last point. -/
theorem C12_vw2_open_keeps_last {S : α → Prop} (hS : TotalOn S) (pick : Nat → List (α × Nat) → Nat)
    (hpick : PopsLeast S pick) (line : List (V2 α)) (k fuel : Nat)
    (hopen : ∀ a b, line.head? = some a → line.getLast? = some b → V2.beq a b = false)
    (hgood : ∀ a ∈ line, ∀ b ∈ line, ∀ c ∈ line, S (triangleArea2 a b c)) (hf : 4 * line.length < fuel) :
    ∃ out, simplifyVw2 pick fuel line k = .ok out ∧ out.getLast? = line.getLast? := by
  rcases Nat.lt_or_ge line.length 3 with h | h
  · exact ⟨line, by unfold simplifyVw2; rw [if_pos (by omega)], rfl⟩
  · have hc : isConnected2 line = false := by
      unfold isConnected2
      cases h1 : line.head? with
      | none => simp at h1; subst h1; simp at h
      | some a => cases h2 : line.getLast? with
        | none => simp at h2; subst h2; simp at h
        | some b => exact hopen a b h1 h2
    obtain ⟨out, h1, -, h2, -, h3, h4⟩ := vw2_open hS pick hpick line h hc hgood k fuel hf
    exact ⟨out, h1, h4⟩

/-- C12: lines of fewer than three points are returned unchanged. -/
theorem C12_vw2_short (pick : Nat → List (α × Nat) → Nat) (line : List (V2 α)) (k fuel : Nat) (h : line.length < 3) :
    simplifyVw2 pick fuel line k = .ok line := by
  unfold simplifyVw2; rw [if_pos (by omega)]

/-! ## C13 -/

/-- C13: the number of points left of an open line. -/
theorem C13_vw2_open_length {S : α → Prop} (hS : TotalOn S) (pick : Nat → List (α × Nat) → Nat)
    (hpick : PopsLeast S pick) (line : List (V2 α)) (hn : 3 ≤ line.length) (k fuel : Nat)
    (hopen : ∀ a b, line.head? = some a → line.getLast? = some b → V2.beq a b = false)
    (hgood : ∀ a ∈ line, ∀ b ∈ line, ∀ c ∈ line, S (triangleArea2 a b c)) (hf : 4 * line.length < fuel) :
    ∃ out, simplifyVw2 pick fuel line k = .ok out ∧
      (line.length = 3 → out.length = 3 - min k 1) ∧
      (4 ≤ line.length → out.length = line.length - min k (line.length - 4)) := by
  have hc : isConnected2 line = false := by
    unfold isConnected2
    cases h1 : line.head? with
    | none => simp at h1; subst h1; simp at hn
    | some a => cases h2 : line.getLast? with
      | none => simp at h2; subst h2; simp at hn
      | some b => exact hopen a b h1 h2
  obtain ⟨out, h1, -, h2, h3, -⟩ := vw2_open hS pick hpick line hn hc hgood k fuel hf
  refine ⟨out, h1, fun h => ?_, fun h => ?_⟩
  · rw [if_pos h] at h3; omega
  · rw [if_neg (by omega)] at h3; omega

/-- C13: the number of points left of a closed line. -/
theorem C13_vw2_closed_length {S : α → Prop} (hS : TotalOn S) (pick : Nat → List (α × Nat) → Nat)
    (hpick : PopsLeast S pick) (line : List (V2 α)) (hn : 3 ≤ line.length) (k fuel : Nat)
    (hclosed : ∃ a b, line.head? = some a ∧ line.getLast? = some b ∧ V2.beq a b = true)
    (hgood : ∀ a ∈ line, ∀ b ∈ line, ∀ c ∈ line, S (triangleArea2 a b c)) (hf : 4 * line.length < fuel) :
    ∃ out, simplifyVw2 pick fuel line k = .ok out ∧ out.length = line.length - min k (line.length - 3) := by
  have hc : isConnected2 line = true := by
    obtain ⟨a, b, h1, h2, h3⟩ := hclosed
    unfold isConnected2
    rw [h1, h2]; exact h3
  obtain ⟨out, first, h1, -, -, -, h3, -⟩ := vw2_closed hS pick hpick line hn hc hgood k fuel hf
  exact ⟨out, h1, by omega⟩

/-! ## C14 -/

/-- C14: an open 2D line is simplified by the greedy algorithm. -/
theorem C14_vw2_open_greedy {S : α → Prop} (hS : TotalOn S) (pick : Nat → List (α × Nat) → Nat)
    (hpick : PopsLeast S pick) (line : List (V2 α)) (hn : 3 ≤ line.length) (k fuel : Nat)
    (hopen : ∀ a b, line.head? = some a → line.getLast? = some b → V2.beq a b = false)
    (hgood : ∀ a ∈ line, ∀ b ∈ line, ∀ c ∈ line, S (triangleArea2 a b c)) (hf : 4 * line.length < fuel) :
    ∃ out, simplifyVw2 pick fuel line k = .ok out ∧
      GreedyDeletes triangleArea2 (fun a b => Scalar.le a b = true) (line.length - out.length) line out := by
  have hc : isConnected2 line = false := by
    unfold isConnected2
    cases h1 : line.head? with
    | none => simp at h1; subst h1; simp at hn
    | some a => cases h2 : line.getLast? with
      | none => simp at h2; subst h2; simp at hn
      | some b => exact hopen a b h1 h2
  obtain ⟨out, h1, hg, h2, h3, -⟩ := vw2_open hS pick hpick line hn hc hgood k fuel hf
  refine ⟨out, h1, ?_⟩
  rw [← h3, Nat.add_sub_cancel_left]
  exact hg

/-- C14: a closed 2D line is simplified by the greedy algorithm applied to the line with its first point
appended once more; so the closing point is eligible too. -/
theorem C14_vw2_closed_greedy {S : α → Prop} (hS : TotalOn S) (pick : Nat → List (α × Nat) → Nat)
    (hpick : PopsLeast S pick) (line : List (V2 α)) (hn : 3 ≤ line.length) (k fuel : Nat)
    (hclosed : ∃ a b, line.head? = some a ∧ line.getLast? = some b ∧ V2.beq a b = true)
    (hgood : ∀ a ∈ line, ∀ b ∈ line, ∀ c ∈ line, S (triangleArea2 a b c)) (hf : 4 * line.length < fuel) :
    ∃ (out : List (V2 α)) (first : V2 α), simplifyVw2 pick fuel line k = .ok out ∧ line.head? = some first ∧
      GreedyDeletes triangleArea2 (fun a b => Scalar.le a b = true) (line.length - out.length)
        (line ++ [first]) (out ++ [first]) := by
  have hc : isConnected2 line = true := by
    obtain ⟨a, b, h1, h2, h3⟩ := hclosed
    unfold isConnected2
    rw [h1, h2]; exact h3
  obtain ⟨out, first, h1, h0, hg, -, h3, -⟩ := vw2_closed hS pick hpick line hn hc hgood k fuel hf
  refine ⟨out, first, h1, h0, ?_⟩
  rw [← h3, Nat.add_sub_cancel_left]
  exact hg

/-- C14: a 3D line is simplified by the greedy algorithm; then the last point is dropped. -/
theorem C14_vw3_greedy {S : α → Prop} (hS : TotalOn S) (pick : Nat → List (α × Nat) → Nat)
    (hpick : PopsLeast S pick) (line : List (V3 α)) (hn : 3 ≤ line.length) (k fuel : Nat)
    (hgood : ∀ a ∈ line, ∀ b ∈ line, ∀ c ∈ line, S (triangleArea3 a b c)) (hf : 4 * line.length < fuel) :
    ∃ (out : List (V3 α)) (last : V3 α), simplifyVw3 pick fuel line k = .ok out ∧ line.getLast? = some last ∧
      GreedyDeletes triangleArea3 (fun a b => Scalar.le a b = true) (min k (line.length - 2))
        line (out ++ [last]) := by
  obtain ⟨out, last, h1, h2, h3, -⟩ := vw3_all hS pick hpick line hn hgood k fuel hf
  exact ⟨out, last, h1, h2, h3⟩

/-! ## C15 -/

/-- C15: size and order of the result in 3D; the result is a subsequence of the line without its last point. -/
theorem C15_vw3 {S : α → Prop} (hS : TotalOn S) (pick : Nat → List (α × Nat) → Nat)
    (hpick : PopsLeast S pick) (line : List (V3 α)) (hn : 3 ≤ line.length) (k fuel : Nat)
    (hgood : ∀ a ∈ line, ∀ b ∈ line, ∀ c ∈ line, S (triangleArea3 a b c)) (hf : 4 * line.length < fuel) :
    ∃ out, simplifyVw3 pick fuel line k = .ok out ∧ out.length = 1 + (line.length - 2 - min k (line.length - 2)) ∧
      out.Sublist line.dropLast ∧ out.head? = line.head? := by
  obtain ⟨out, last, h1, -, -, h2, h3, h4⟩ := vw3_all hS pick hpick line hn hgood k fuel hf
  exact ⟨out, h1, h3, h2, h4⟩

/-- C15: 3D lines of fewer than three points are returned unchanged. -/
theorem C15_vw3_short (pick : Nat → List (α × Nat) → Nat) (line : List (V3 α)) (k fuel : Nat) (h : line.length < 3) :
    simplifyVw3 pick fuel line k = .ok line := by
  unfold simplifyVw3; rw [if_pos (by omega)]

end

/-! ## the areas -/
section
variable {K : Type} [Scalar K] [Field K] [LinearOrder K] [ExactScalar K]

/-- C14: in exact arithmetic the compared number is four times the square of the area of the triangle. -/
theorem C14_area2 (a b c : V2 K) : triangleArea2 a b c = 4 * (orient a b c / 2) ^ 2 := by
  unfold triangleArea2 orient
  simp only [exact_simp]
  have : (2 : K) ≠ 0 := two_ne_zero
  field_simp
  ring

/-- C14: and in 3D it is the squared length of the cross product of two sides, also four times the square of
the area: by Lagrange's identity `|u|²|v|² - (u·v)²`. -/
theorem C14_area3 (a b c : V3 K) : triangleArea3 a b c =
    ((a.x - b.x) ^ 2 + (a.y - b.y) ^ 2 + (a.z - b.z) ^ 2) * ((c.x - b.x) ^ 2 + (c.y - b.y) ^ 2 + (c.z - b.z) ^ 2)
      - ((a.x - b.x) * (c.x - b.x) + (a.y - b.y) * (c.y - b.y) + (a.z - b.z) * (c.z - b.z)) ^ 2 := by
  unfold triangleArea3
  simp only [exact_simp]
  ring

/-- with exact arithmetic there is no NaN -/
theorem exact_total : TotalOn (α := K) (fun _ => True) := by
  refine ⟨?_, ?_, ?_, ?_⟩
  · intro a b _ _
    rw [OrderedScalar.le_iff, OrderedScalar.le_iff]; exact le_total a b
  · intro a b c _ _ _
    rw [OrderedScalar.le_iff, OrderedScalar.le_iff, OrderedScalar.le_iff]; exact le_trans
  · intro a b _ _ h
    rw [OrderedScalar.beq_iff] at h
    rw [OrderedScalar.le_iff, OrderedScalar.le_iff, h]; exact ⟨le_refl _, le_refl _⟩
  · intro a _; rw [OrderedScalar.beq_iff]
end

/-! ## witnesses -/

/-- the first position of a least key -/
def leastPos {α : Type} [Scalar α] : List (α × Nat) → Nat
  | [] => 0
  | [_] => 0
  | e :: t =>
    match t[leastPos t]? with
    | none => 0
    | some f => if Scalar.le e.1 f.1 then 0 else leastPos t + 1

theorem leastPos_ok {α : Type} [Scalar α] {S : α → Prop} (hS : TotalOn S) : ∀ (heap : List (α × Nat)), heap ≠ [] →
    (∀ e ∈ heap, S e.1) → ∃ e, heap[leastPos heap]? = some e ∧ ∀ f ∈ heap, Scalar.le e.1 f.1 = true := by
  have hrefl : ∀ a, S a → Scalar.le a a = true := fun a h => by rcases hS.total a a h h with h | h <;> exact h
  intro heap
  induction heap with
  | nil => intro h; exact absurd rfl h
  | cons e t ih =>
    intro _ hg
    match t, ih, hg with
    | [], _, hg => exact ⟨e, rfl, fun f hf => by simp at hf; subst hf; exact hrefl _ (hg _ (by simp))⟩
    | g :: t, ih, hg =>
      obtain ⟨f, h1, h2⟩ := ih (by simp) (fun f hf => hg f (List.mem_cons_of_mem _ hf))
      have hfm : f ∈ g :: t := List.mem_of_getElem? h1
      unfold leastPos
      rw [h1]
      simp only
      by_cases hle : Scalar.le e.1 f.1 = true
      · rw [if_pos hle]
        refine ⟨e, rfl, fun x hx => ?_⟩
        rcases List.mem_cons.1 hx with rfl | hx
        · exact hrefl _ (hg _ (by simp))
        · exact hS.trans _ _ _ (hg _ (by simp)) (hg f (List.mem_cons_of_mem _ hfm)) (hg x (List.mem_cons_of_mem _ hx)) hle
            (h2 x hx)
      · rw [if_neg hle]
        refine ⟨f, by rw [List.getElem?_cons_succ]; exact h1, fun x hx => ?_⟩
        rcases List.mem_cons.1 hx with rfl | hx
        · exact (hS.total _ _ (hg x (by simp)) (hg f (List.mem_cons_of_mem _ hfm))).resolve_left hle
        · exact h2 x hx

theorem leastPos_pops {α : Type} [Scalar α] {S : α → Prop} (hS : TotalOn S) : PopsLeast S (fun _ heap => leastPos heap) :=
  fun _ heap h1 h2 => leastPos_ok hS heap h1 h2

/-- a house with a dent: seven points, open -/
def vwOpen : List (V2 Rat) := [⟨0, 0⟩, ⟨1, 1⟩, ⟨2, 1/10⟩, ⟨3, 5⟩, ⟨4, 6⟩, ⟨5, 7⟩, ⟨6, 8⟩]
/-- closed polygon of the documentation's kind -/
def vwClosed : List (V2 Rat) := [⟨0, 0⟩, ⟨4, 0⟩, ⟨5, 1⟩, ⟨4, 4⟩, ⟨2, 5⟩, ⟨0, 4⟩, ⟨0, 0⟩]

example : ∃ out, simplifyVw2 (fun _ heap => leastPos heap) 100 vwOpen 2 = .ok out ∧
    GreedyDeletes triangleArea2 (fun a b => Scalar.le a b = true) (vwOpen.length - out.length) vwOpen out :=
  C14_vw2_open_greedy exact_total _ (leastPos_pops exact_total) vwOpen (by decide) 2 100
    (by intro a b h1 h2; simp [vwOpen] at h1 h2; subst h1 h2; decide +kernel) (fun _ _ _ _ _ _ => trivial) (by decide)

example : simplifyVw2 (fun _ heap => leastPos heap) 100 vwOpen 2 = .ok [⟨0, 0⟩, ⟨1, 1⟩, ⟨2, 1/10⟩, ⟨3, 5⟩, ⟨6, 8⟩] := by
  decide +kernel

example : ∃ out, simplifyVw2 (fun _ heap => leastPos heap) 100 vwClosed 3 = .ok out ∧
    out.length = vwClosed.length - min 3 (vwClosed.length - 3) :=
  C13_vw2_closed_length exact_total _ (leastPos_pops exact_total) vwClosed (by decide) 3 100
    ⟨⟨0, 0⟩, ⟨0, 0⟩, rfl, rfl, by decide +kernel⟩ (fun _ _ _ _ _ _ => trivial) (by decide)

/-- C13: a closed line does not stay closed: the first point that is deleted is the closing point, since the
triangle it makes with the appended copy of the first point is flat. -/
theorem C13_closed_line_is_opened : simplifyVw2 (fun _ heap => leastPos heap) 100 vwClosed 1 =
    .ok [⟨0, 0⟩, ⟨4, 0⟩, ⟨5, 1⟩, ⟨4, 4⟩, ⟨2, 5⟩, ⟨0, 4⟩] := by decide +kernel

/-- C13: an open line of four points is never simplified, however many points are to be deleted. -/
theorem C13_four_points_stay : simplifyVw2 (fun _ heap => leastPos heap) 100
    ([⟨0, 0⟩, ⟨1, 0⟩, ⟨2, 0⟩, ⟨3, 0⟩] : List (V2 Rat)) 2 = .ok [⟨0, 0⟩, ⟨1, 0⟩, ⟨2, 0⟩, ⟨3, 0⟩] := by decide +kernel

/-- C15: the last point is not in the result. -/
theorem C15_last_point_is_lost : simplifyVw3 (fun _ heap => leastPos heap) 100
    ([⟨0, 0, 0⟩, ⟨1, 0, 0⟩, ⟨2, 0, 5⟩] : List (V3 Rat)) 0 = .ok [⟨0, 0, 0⟩, ⟨1, 0, 0⟩] := by decide +kernel

example : ∃ out, simplifyVw3 (fun _ heap => leastPos heap) 100
    ([⟨0, 0, 0⟩, ⟨1, 0, 0⟩, ⟨2, 0, 5⟩, ⟨3, 3, 3⟩] : List (V3 Rat)) 1 = .ok out ∧
    out.length = 1 + (4 - 2 - min 1 (4 - 2)) ∧
      out.Sublist (List.dropLast [⟨0, 0, 0⟩, ⟨1, 0, 0⟩, ⟨2, 0, 5⟩, ⟨3, 3, 3⟩]) ∧ out.head? = some ⟨0, 0, 0⟩ :=
  C15_vw3 exact_total _ (leastPos_pops exact_total) _ (by decide) 1 100 (fun _ _ _ _ _ _ => trivial) (by decide)

/-- C12: the hypothesis about NaN areas is needed: one NaN coordinate makes the heap's comparison panic. -/
theorem C12_nan_area_panics : simplifyVw2 (fun _ heap => leastPos heap) 100
    ([⟨.fin 0, .fin 0⟩, ⟨.fin 1, .nan⟩, ⟨.fin 2, .fin 0⟩, ⟨.fin 3, .fin 1⟩, ⟨.fin 4, .fin 0⟩] : List (V2 FQ)) 1 =
      .error .panic := by decide +kernel

/-- for the extended rationals, `TotalOn` holds for everything but NaN -/
theorem fq_total : TotalOn (α := FQ) (fun x => x ≠ .nan) := by
  refine ⟨?_, ?_, ?_, ?_⟩
  · intro a b ha hb
    cases a <;> cases b <;> simp_all [Scalar.le, FQ.lt, FQ.beq]
    rename_i a b
    rcases lt_trichotomy a b with h | h | h <;> simp [h]
  · intro a b c ha hb hc
    cases a <;> cases b <;> cases c <;> simp_all [Scalar.le, FQ.lt, FQ.beq]
    rename_i a b c
    intro h1 h2
    rw [← le_iff_lt_or_eq] at h1 h2 ⊢
    exact h1.trans h2
  · intro a b ha hb
    cases a <;> cases b <;> simp_all [Scalar.le, Scalar.beq, FQ.lt, FQ.beq]
  · intro a ha
    cases a <;> simp_all [Scalar.beq, FQ.lt, FQ.beq]

end Verif.Props
