import Verif.Proofs.HullModel
import Mathlib.Data.List.Sort
/-!
# C36, C37: the Graham scans return the convex hull
-/
set_option linter.unusedSectionVars false
set_option linter.unusedVariables false
set_option linter.unusedSimpArgs false
namespace Verif.Props
open Verif Verif.Spec Verif.Model Verif.Hull

section
variable {K : Type} [Scalar K] [Field K] [LinearOrder K] [ExactScalar K]

/-- dropping the loop point keeps the set of points -/
theorem dropLoopPoint_mem (input : List (V2 K)) (h : 4 ≤ (dropLoopPoint input).length) (p : V2 K) :
    p ∈ dropLoopPoint input ↔ p ∈ input := by
  unfold dropLoopPoint at *
  rcases input with _ | ⟨a, l⟩
  · simp at h
  · obtain ⟨b, hb⟩ : ∃ b, (a :: l).getLast? = some b := ⟨_, List.getLast?_eq_some_getLast (List.cons_ne_nil _ _)⟩
    rw [hb] at h ⊢
    simp only [List.head?_cons] at h ⊢
    by_cases e : a.beq b = true
    · rw [if_pos e] at h ⊢
      rw [beq_iff] at e
      subst e
      simp only [List.tail_cons, List.mem_cons] at h ⊢
      constructor
      · exact Or.inr
      · rintro (rfl | hp)
        · rcases l with _ | ⟨c, l⟩
          · simp at h
          · rw [List.getLast?_cons_cons] at hb
            exact List.mem_of_getLast? hb
        · exact hp
    · rw [if_neg e]

theorem dropLoopPoint_length (input : List (V2 K)) (h4 : 4 ≤ input.length)
    (h5 : input.head? = input.getLast? → 5 ≤ input.length) : 4 ≤ (dropLoopPoint input).length := by
  unfold dropLoopPoint
  rcases input with _ | ⟨a, l⟩
  · simp at h4
  · obtain ⟨b, hb⟩ : ∃ b, (a :: l).getLast? = some b := ⟨_, List.getLast?_eq_some_getLast (List.cons_ne_nil _ _)⟩
    rw [hb] at h5 ⊢
    simp only [List.head?_cons] at h5 ⊢
    by_cases e : a.beq b = true
    · rw [if_pos e]
      rw [beq_iff] at e
      have := h5 (by rw [e])
      simp at this ⊢
      omega
    · rw [if_neg e]; exact h4

/-- a closed loop that ends at the lexicographically smallest point starts there -/
theorem startsLowest_of {pts hull : List (V2 K)} {s : V2 K} (hc : hull.head? = hull.getLast?)
    (hl : hull.getLast? = some s) (h : ∀ p ∈ pts, p = s ∨ LexLt s p) : StartsLowest pts hull := by
  refine ⟨s, hc.trans hl, fun p hp => ?_⟩
  rcases h p hp with rfl | h | ⟨h, h'⟩
  · exact Or.inr ⟨rfl, le_refl _⟩
  · exact Or.inl h
  · exact Or.inr ⟨h, h'.le⟩

theorem grahamScan_long {α : Type} [Scalar α] (srt : List (V2 α × α × α) → List (V2 α × α × α)) (input : List (V2 α))
    (h : 4 ≤ (dropLoopPoint input).length) : grahamScan srt input = (do
      let (_, start) ← findLowest false getPoint (dropLoopPoint input)
      let entries := (dropLoopPoint input).map (fun p => angleEntry start p p)
      let hull ← grahamLoop getPoint (fun p => p.beq start) ((srt entries).map (·.1)) [start]
      let hull := hull.reverse
      if hull.length > 1 then .ok (hull ++ hull.head?.toList) else .ok hull) := by
  unfold grahamScan
  generalize dropLoopPoint input = l at *
  match l, h with
  | a :: b :: c :: d :: l, _ => rfl
end

section
variable {K : Type} [Scalar K] [Field K] [LinearOrder K] [ExactScalar K] [ExactAtan2 K]

/-- the Graham scan of at least four points (not counting the repetition of the first point at the
end), not all equal -/
theorem C36_graham_scan_is_hull (srt : List (V2 K × K × K) → List (V2 K × K × K)) (hsrt : Sorts angleCmp srt)
    (input : List (V2 K)) (h4 : 4 ≤ input.length) (h5 : input.head? = input.getLast? → 5 ≤ input.length)
    (hne : ∃ a ∈ input, ∃ b ∈ input, a ≠ b) :
    ∃ hull, grahamScan srt input = .ok hull ∧ lineConvexHull srt input = .ok hull ∧ IsHullLoop input hull ∧
      StartsLowest input hull := by
  have hl := dropLoopPoint_length input h4 h5
  have hmem := dropLoopPoint_mem input hl
  rw [lineConvexHull, grahamScan_long srt input hl]
  generalize dropLoopPoint input = pts at *
  obtain ⟨k, s, e1, e2, e3⟩ := findLowest_ok getPoint (fun p : V2 K => p) pts (by rintro rfl; simp at hl) (fun _ _ => rfl)
  rw [e1]
  have hs : s ∈ pts := List.mem_of_getElem? e2
  obtain ⟨st, g1, g2, g3⟩ := graham_core getPoint (fun p : V2 K => p) (fun p => p.beq s) pts s srt hsrt
    (fun _ _ => rfl) hs e3 (fun j _ => beq_iff j s)
  have hex : ∃ j ∈ pts, j ≠ s := by
    obtain ⟨a, ha, b, hb, hab⟩ := hne
    by_cases e : a = s
    · exact ⟨b, (hmem b).2 hb, fun h => hab (e.trans h.symm)⟩
    · exact ⟨a, (hmem a).2 ha, e⟩
  obtain ⟨hh, hlen, hhead⟩ := g3 hex
  have g1' : grahamLoop getPoint (fun p => p.beq s) (List.map (fun x => x.1)
      (srt (List.map (fun p => angleEntry s p p) pts))) [s] = .ok st := g1
  simp only [bind, Except.bind]
  rw [g1']
  simp only [List.length_reverse]
  have e4 : st.reverse.head? = some s := by simpa using hhead
  rw [if_pos (by omega), e4]
  have : IsHullLoop input (st.reverse ++ [s]) := by
    have h : IsHullLoop pts (st.reverse ++ [s]) := by simpa using hh
    exact ⟨h.len, h.closed, fun v hv => (hmem v).1 (h.vertices v hv), h.once,
      fun i a b h1 h2 p hp => h.left i a b h1 h2 p ((hmem p).2 hp), h.turn, h.turnClosing,
      fun a b c e p hp => h.flat a b c e p ((hmem p).2 hp)⟩
  exact ⟨_, rfl, rfl, this, startsLowest_of this.closed (by simp) (fun p hp => e3 p ((hmem p).2 hp))⟩

/-- merge sort is a possible sort, so the hypothesis of `C36_graham_scan_is_hull` can be met -/
theorem sorts_mergeSort {ι : Type} :
    Sorts (angleCmp (α := K) (ι := ι)) (fun l => l.mergeSort (fun a b => angleCmp a b != .gt)) := by
  intro l
  refine ⟨List.mergeSort_perm _ _, ?_⟩
  have key : ∀ a b : ι × K × K, (angleCmp a b != .gt) = true ↔ a.2.1 < b.2.1 ∨ (a.2.1 = b.2.1 ∧ a.2.2 ≤ b.2.2) := by
    intro a b
    simp only [angleCmp, pcmp_ordered, Option.getD_some]
    rcases lt_trichotomy a.2.1 b.2.1 with h | h | h
    · rw [compare_lt_iff_lt.2 h]; simp [h, Ordering.then]
    · rw [compare_eq_iff_eq.2 h]
      simp only [Ordering.then, h, lt_irrefl, true_and, false_or, bne_iff_ne, ne_eq, compare_gt_iff_gt, not_lt]
    · rw [compare_gt_iff_gt.2 h]
      simp [Ordering.then, h.ne', h.le]
  have := List.pairwise_mergeSort (le := fun a b : ι × K × K => angleCmp a b != .gt) (by
    intro a b c h1 h2
    rw [key] at h1 h2 ⊢
    rcases h1 with h1 | ⟨h1, h1'⟩ <;> rcases h2 with h2 | ⟨h2, h2'⟩
    · exact Or.inl (h1.trans h2)
    · exact Or.inl (h2 ▸ h1)
    · exact Or.inl (h1 ▸ h2)
    · exact Or.inr ⟨h1.trans h2, h1'.trans h2'⟩) (by
    intro a b
    rw [Bool.or_eq_true, key, key]
    rcases lt_trichotomy a.2.1 b.2.1 with h | h | h
    · exact Or.inl (Or.inl h)
    · rcases le_total a.2.2 b.2.2 with h' | h'
      · exact Or.inl (Or.inr ⟨h, h'⟩)
      · exact Or.inr (Or.inr ⟨h.symm, h'⟩)
    · exact Or.inr (Or.inl h)) l
  exact this.imp (fun h => by simpa using h)
end

/-- the short inputs of the Graham scans and of gift wrapping: a single point has the empty hull, two
points are returned unchanged, and three points are returned as a triangle that is not closed and that
is not oriented counter clockwise if they are on a line. -/
theorem C36_short_inputs {α : Type} [Scalar α] (srt : List (V2 α × α × α) → List (V2 α × α × α)) :
    grahamScan srt [] = .ok [] ∧
    (∀ a b : V2 α, a.beq b = false → grahamScan srt [a, b] = .ok [a, b]) ∧
    (∀ a b c : V2 α, a.beq c = false → isPointLeft a b c = true → grahamScan srt [a, b, c] = .ok [a, b, c]) ∧
    (∀ a b c : V2 α, a.beq c = false → isPointLeft a b c = false → grahamScan srt [a, b, c] = .ok [a, c, b]) := by
  refine ⟨rfl, ?_, ?_, ?_⟩
  · intro a b h; simp [grahamScan, dropLoopPoint, h]
  · intro a b c h h2; simp [grahamScan, dropLoopPoint, h, triangle3, h2]
  · intro a b c h h2; simp [grahamScan, dropLoopPoint, h, triangle3, h2]

/-- the hypotheses of `C36_graham_scan_is_hull` are met by a concrete list, and the result is the square -/
example : (fun (input : List (V2 ℚ)) => 4 ≤ input.length ∧ (input.head? = input.getLast? → 5 ≤ input.length) ∧
    (∃ a ∈ input, ∃ b ∈ input, a ≠ b))
    [⟨0, 0⟩, ⟨1, 1⟩, ⟨2, 0⟩, ⟨2, 2⟩, ⟨0, 2⟩, ⟨1, 0⟩, ⟨0, 0⟩] := by
  refine ⟨by decide, by decide, ?_⟩
  exact ⟨⟨0, 0⟩, by simp, ⟨1, 1⟩, by simp, by decide⟩

/-! ## C37 -/

section
variable {K : Type} [Scalar K] [Field K] [LinearOrder K] [ExactScalar K]

theorem grahamScanWo_long {α : Type} [Scalar α] (srt : V2 α → List (V2 α) → Option (List (V2 α))) (input : List (V2 α))
    (h : 4 ≤ (dropLoopPoint input).length) : grahamScanWoAtan2 srt input = (do
      let (_, start) ← findLowest false getPoint (dropLoopPoint input)
      match srt start (dropLoopPoint input) with
      | none => .error .panic
      | some sorted =>
        let hull ← grahamLoop2 sorted [start]
        let hull := hull.reverse
        if isConnected2 hull then .ok hull else .ok (hull ++ hull.head?.toList)) := by
  unfold grahamScanWoAtan2
  generalize dropLoopPoint input = l at *
  match l, h with
  | a :: b :: c :: d :: l, _ => rfl

theorem orientCmp_iff (s b c : V2 K) : orientCmp s b c ≠ some .gt ↔ After s b c := by
  refine ⟨fun h => (orientCmp_after h).1, ?_⟩
  intro h
  rw [orientCmp_eq]
  rcases h with h | ⟨h, h'⟩
  · rw [if_neg (not_lt.2 h.le), if_pos h]; simp
  · rw [if_neg (by rw [h]; exact lt_irrefl _), if_neg (by rw [h]; exact lt_irrefl _), if_neg (not_lt.2 h')]; simp

theorem after_trans {s a b c : V2 K} (ha : a = s ∨ LexLt s a) (hb : b = s ∨ LexLt s b) (hc : c = s ∨ LexLt s c)
    (h1 : After s a b) (h2 : After s b c) : After s a c := by
  have hs : ∀ {a : V2 K}, After s a s → a = s := fun {a} h => by
    have h' := (orientCmp_iff s a s).2 h
    exact (orientCmp_after h').2 rfl
  rcases hb with rfl | hb
  · obtain rfl := hs h1; exact h2
  rcases hc with rfl | hc
  · obtain rfl := hs h2; exact h1
  rcases ha with rfl | ha
  · refine Or.inr ⟨(orient_self _ _).2.2, ?_⟩
    rw [sqDist2_self]; simp only [sqDist2]; positivity
  have g : ∀ {a b : V2 K}, After s a b → 0 ≤ orient s a b := by
    rintro a b (h | ⟨h, -⟩)
    · exact h.le
    · exact h.ge
  have t := ang_trans ha hb hc (g h1) (g h2)
  rcases h1 with h1 | ⟨h1, d1⟩
  · exact Or.inl (t.2 (Or.inl h1))
  rcases h2 with h2 | ⟨h2, d2⟩
  · exact Or.inl (t.2 (Or.inr h2))
  have t' := ang_trans hc hb ha (by rw [orient_swap, h2, neg_zero]) (by rw [orient_swap, h1, neg_zero])
  rw [orient_swap s a c] at t'
  exact Or.inr ⟨le_antisymm (by linarith [t'.1]) t.1, d1.trans d2⟩

theorem after_total (s a b : V2 K) : After s a b ∨ After s b a := by
  have e := orient_swap s a b
  rcases lt_trichotomy (orient s a b) 0 with h | h | h
  · exact Or.inr (Or.inl (by linarith))
  · rcases le_total (sqDist2 s a) (sqDist2 s b) with d | d
    · exact Or.inl (Or.inr ⟨h, d⟩)
    · exact Or.inr (Or.inr ⟨by rw [e, h, neg_zero], d⟩)
  · exact Or.inl (Or.inl h)

open Classical in
/-- the hypothesis about the sort in `C37_graham_scan_wo_atan2_is_hull` can be met -/
theorem C37_sort_exists (s : V2 K) (l : List (V2 K)) (hl : ∀ a ∈ l, s.x < a.x ∨ s.x = a.x ∧ s.y ≤ a.y) :
    ∃ r : List (V2 K), r.Perm l ∧ r.Pairwise (fun a b => orientCmp s a b ≠ some .gt) := by
  have hl' : ∀ a ∈ l, a = s ∨ LexLt s a := by
    intro a ha
    rcases hl a ha with h | ⟨h, h'⟩
    · exact Or.inr (Or.inl h)
    · rcases h'.lt_or_eq with h' | h'
      · exact Or.inr (Or.inr ⟨h, h'⟩)
      · left; cases a; cases s; simp only at h h'; rw [h, h']
  let A := {a : V2 K // a = s ∨ LexLt s a}
  let l0 : List A := l.attach.map (fun a => ⟨a.1, hl' a.1 a.2⟩)
  let le : A → A → Bool := fun a b => decide (After s a.1 b.1)
  have h := List.pairwise_mergeSort (le := le)
    (by
      intro a b c h1 h2
      simp only [le, decide_eq_true_eq] at *
      exact after_trans a.2 b.2 c.2 h1 h2)
    (by
      intro a b
      simp only [le, Bool.or_eq_true, decide_eq_true_eq]
      exact after_total s a.1 b.1) l0
  refine ⟨(l0.mergeSort le).map Subtype.val, ?_, ?_⟩
  · refine ((List.mergeSort_perm l0 le).map _).trans ?_
    have : l0.map Subtype.val = l := by
      simp only [l0, List.map_map, Function.comp_def]
      exact List.attach_map_subtype_val l
    rw [this]
  · rw [List.pairwise_map]
    refine h.imp ?_
    intro a b hab
    rw [orientCmp_iff]
    simpa [le] using hab

/-- the Graham scan without `atan2`: as C36.  The sort is any function that returns a permutation in
which no entry compares greater than a later one whenever the comparison does not panic and the start
is lexicographically the first point (`C37_sort_exists`: there is such a function). -/
theorem C37_graham_scan_wo_atan2_is_hull (srt : V2 K → List (V2 K) → Option (List (V2 K)))
    (hsrt : ∀ s l, (∀ a ∈ l, s.x < a.x ∨ s.x = a.x ∧ s.y ≤ a.y) → (∀ a ∈ l, ∀ b ∈ l, orientCmp s a b ≠ none) →
      ∃ r, srt s l = some r ∧ r.Perm l ∧ r.Pairwise (fun a b => orientCmp s a b ≠ some .gt))
    (input : List (V2 K)) (h4 : 4 ≤ input.length) (h5 : input.head? = input.getLast? → 5 ≤ input.length)
    (hne : ∃ a ∈ input, ∃ b ∈ input, a ≠ b) :
    ∃ hull, grahamScanWoAtan2 srt input = .ok hull ∧ IsHullLoop input hull ∧ StartsLowest input hull := by
  have hl := dropLoopPoint_length input h4 h5
  have hmem := dropLoopPoint_mem input hl
  rw [grahamScanWo_long srt input hl]
  generalize dropLoopPoint input = pts at *
  obtain ⟨k, s, e1, e2, e3⟩ := findLowest_ok getPoint (fun p : V2 K => p) pts (by rintro rfl; simp at hl) (fun _ _ => rfl)
  rw [e1]
  have hs : s ∈ pts := List.mem_of_getElem? e2
  obtain ⟨sorted, f1, f2, f3⟩ := hsrt s pts (by
    intro a ha
    rcases e3 a ha with rfl | h | ⟨h, h'⟩
    · exact Or.inr ⟨rfl, le_refl _⟩
    · exact Or.inl h
    · exact Or.inr ⟨h, h'.le⟩) (by intro a _ b _; rw [orientCmp_eq]; simp)
  have hex : ∃ j ∈ pts, j ≠ s := by
    obtain ⟨a, ha, b, hb, hab⟩ := hne
    by_cases e : a = s
    · exact ⟨b, (hmem b).2 hb, fun h => hab (e.trans h.symm)⟩
    · exact ⟨a, (hmem a).2 ha, e⟩
  obtain ⟨a, st, g1, g2, g3, h⟩ := graham2_core hs f2 f3 e3 hex
  simp only [bind, Except.bind]
  rw [f1]
  simp only
  rw [g1]
  simp only
  have ehead : (a :: st).reverse.head? = some s := by
    rw [List.reverse_cons, List.head?_append, List.head?_reverse, g3]; rfl
  have elast : (a :: st).reverse.getLast? = some a := by simp
  have hnc : isConnected2 (a :: st).reverse = false := by
    unfold isConnected2
    rw [ehead, elast]
    simp only
    rw [← Bool.not_eq_true, beq_iff]
    exact g2.symm
  rw [hnc, ehead]
  exact ⟨_, rfl, ⟨h.len, h.closed, fun v hv => (hmem v).1 (h.vertices v hv), h.once,
    fun i a b h1 h2 p hp => h.left i a b h1 h2 p ((hmem p).2 hp), h.turn, h.turnClosing,
    fun a b c e p hp => h.flat a b c e p ((hmem p).2 hp)⟩,
    startsLowest_of h.closed (by simp) (fun p hp => e3 p ((hmem p).2 hp))⟩
end

end Verif.Props
