import Verif.Props.Contain
namespace Verif.Props
open Verif.Model Verif.Spec Verif.Hull
/-- C44, any arithmetic: a container of at most one point contains nothing, not even the empty line; every
longer container contains the empty line -/
theorem C44_small_containers {α : Type} [Scalar α] (a b : List (V2 α)) (order : List (V2 α) → List (V2 α)) :
    (a.length ≤ 1 → containsConvexHull a b = .ok false ∧ containsConvexHullPar order a b = .ok false) ∧
    (2 ≤ a.length → containsConvexHull a [] = .ok true ∧ containsConvexHullPar order a [] = .ok true) := by
  refine ⟨fun h => ?_, fun h => ?_⟩
  · have : pointCount2 a ≤ 1 := by unfold pointCount2; split <;> omega
    exact ⟨by unfold containsConvexHull; rw [if_pos this], by unfold containsConvexHullPar; rw [if_pos this]⟩
  · have : ¬ pointCount2 a ≤ 1 := by
      unfold pointCount2
      split
      · rename_i hc; simp at hc; omega
      · omega
    exact ⟨by unfold containsConvexHull; rw [if_neg this]; rfl, by unfold containsConvexHullPar; rw [if_neg this]; rfl⟩

section
variable {K : Type} [Scalar K] [Field K] [LinearOrder K] [ExactScalar K]

theorem two_open (x y q : V2 K) (h : x ≠ y) : containsPointInclusive [x, y] q = .ok false := by
  have : (x.beq y) = false := by rw [← Bool.not_eq_true, beq_iff]; exact h
  simp [containsPointInclusive, containsPoint, this]

omit [Field K] [LinearOrder K] [ExactScalar K] in
theorem par_all {a b : List (V2 K)} {g : V2 K → Bool} (h2 : 2 ≤ a.length)
    (hg : ∀ q, containsPointInclusive a q = .ok (g q)) (order : List (V2 K) → List (V2 K)) (ho : ∀ l, (order l).Perm l) :
    containsConvexHullPar order a b = .ok (b.all g) := by
  cases b with
  | nil => exact ((C44_small_containers a [] order).2 h2).2
  | cons b0 b =>
    have : ¬ pointCount2 a ≤ 1 := by
      unfold pointCount2
      split
      · rename_i hc; simp at hc; omega
      · omega
    unfold containsConvexHullPar
    rw [if_neg this, ← (ho (b0 :: b)).all_eq]
    exact allM_ok _ _ _ (fun q _ => hg q)

omit [Field K] [LinearOrder K] [ExactScalar K] in
/-- if the first test on the middle edge only rejects points that are not contained, it changes nothing -/
theorem seq_all {a b : List (V2 K)} {g : V2 K → Bool} (h2 : 2 ≤ a.length)
    (hg : ∀ q, containsPointInclusive a q = .ok (g q)) {e0 e1 : V2 K}
    (h0 : a[a.length / 2 - 1]? = some e0) (h1 : a[a.length / 2]? = some e1)
    (hr : ∀ q, isPointLeftAllowCollinear e0 e1 q = false → g q = false) :
    containsConvexHull a b = .ok (b.all g) := by
  cases b with
  | nil => exact ((C44_small_containers a [] id).2 h2).1
  | cons b0 b =>
    have hp : ¬ pointCount2 a ≤ 1 := by
      unfold pointCount2
      split
      · rename_i hc; simp at hc; omega
      · omega
    obtain ⟨b1, hb⟩ : ∃ b1, (b0 :: b)[(b0 :: b).length / 2]? = some b1 :=
      ⟨_, List.getElem?_eq_getElem (by simp; omega)⟩
    have i0 : idx a (a.length / 2 - 1) = .ok e0 := by simp [idx, h0]
    have i1 : idx a (a.length / 2) = .ok e1 := by simp [idx, h1]
    have i2 : idx (b0 :: b) ((b0 :: b).length / 2) = .ok b1 := by unfold idx; rw [hb]
    have i3 : idx (b0 :: b) 0 = .ok b0 := rfl
    unfold containsConvexHull
    rw [if_neg hp]
    simp only [List.isEmpty_cons, Bool.false_eq_true, if_false, i0, i1, i2, i3, bind, Except.bind]
    have key : ∀ q ∈ b0 :: b, isPointLeftAllowCollinear e0 e1 q = false →
        (Except.ok false : Except Err Bool) = .ok ((b0 :: b).all g) := by
      intro q hq hn
      congr 1
      symm
      rw [← Bool.not_eq_true]
      intro hall
      have := (List.all_eq_true.1 hall) q hq
      rw [hr q hn] at this
      cases this
    cases c0 : isPointLeftAllowCollinear e0 e1 b0
    · simp only [Bool.not_false, Bool.true_or, if_true]
      exact key b0 (by simp) c0
    · cases c1 : isPointLeftAllowCollinear e0 e1 b1
      · simp only [Bool.not_false, Bool.or_true, if_true]
        exact key b1 (List.mem_of_getElem? hb) c1
      · simp only [Bool.not_true, Bool.or_self, Bool.false_eq_true, if_false]
        exact allM_ok _ _ _ (fun q _ => hg q)

/-- C44: degenerate containers of two points: an open segment contains only the empty line, a doubled point
contains every line, and the flat hull of a segment contains the lines all of whose points are on the infinite
line through it; in every order of the parallel version -/
theorem C44_degenerate_containers (x y : V2 K) (b : List (V2 K)) (order : List (V2 K) → List (V2 K))
    (ho : ∀ l, (order l).Perm l) :
    (x ≠ y → containsConvexHull [x, y] b = .ok (decide (b = [])) ∧ containsConvexHullPar order [x, y] b = .ok (decide (b = []))) ∧
    (containsConvexHull [x, x] b = .ok true ∧ containsConvexHullPar order [x, x] b = .ok true) ∧
    (containsConvexHull [x, y, x] b = .ok (decide (∀ q ∈ b, orient x y q = 0)) ∧
      containsConvexHullPar order [x, y, x] b = .ok (decide (∀ q ∈ b, orient x y q = 0))) := by
  have hnil : decide (b = []) = b.all (fun _ => false) := by cases b <;> simp
  have hall : decide (∀ q ∈ b, orient x y q = 0) = b.all (fun q => decide (orient x y q = 0)) := by
    rw [Bool.eq_iff_iff]; simp
  have htrue : true = b.all (fun _ => true) := by simp
  refine ⟨fun h => ?_, ?_, ?_⟩
  · rw [hnil]
    exact ⟨seq_all (by simp) (fun q => two_open x y q h) (e0 := x) (e1 := y) (by simp) (by simp) (fun _ _ => rfl),
      par_all (by simp) (fun q => two_open x y q h) order ho⟩
  · rw [htrue]
    refine ⟨seq_all (by simp) (fun q => C42_doubled_point_contains_everything x q) (e0 := x) (e1 := x) (by simp) (by simp) (fun q hq => ?_),
      par_all (by simp) (fun q => C42_doubled_point_contains_everything x q) order ho⟩
    rw [← Bool.not_eq_true, isPointLeftAC_iff] at hq
    exact absurd (by simp [orient]) hq
  · rw [hall]
    refine ⟨seq_all (by simp) (fun q => C42_flat_hull_contains_the_line x y q) (e0 := x) (e1 := y) (by simp) (by simp) (fun q hq => ?_),
      par_all (by simp) (fun q => C42_flat_hull_contains_the_line x y q) order ho⟩
    rw [← Bool.not_eq_true, isPointLeftAC_iff] at hq
    rw [decide_eq_false_iff_not]
    exact fun e => hq e.ge
end

/-- so a point that `contains_point_inclusive` finds in a hull of one point is not contained as a line -/
example : containsPointInclusive [(⟨1, 2⟩ : V2 ℚ)] ⟨1, 2⟩ = .ok true ∧
    containsConvexHull [(⟨1, 2⟩ : V2 ℚ)] [⟨1, 2⟩] = .ok false ∧
    containsConvexHull [(⟨1, 2⟩ : V2 ℚ), ⟨1, 2⟩] [⟨5, 7⟩] = .ok true := by decide +kernel

section
variable {α : Type} [Scalar α]

theorem idx_total {A : Type} (l : List A) (i : Nat) (h : i < l.length) : ∃ a, idx l i = .ok a := by
  refine ⟨l[i], ?_⟩
  simp [idx, List.getElem?_eq_getElem h]

theorem containsLoop_total (base p : V2 α) : ∀ (fuel : Nat) (slice : List (V2 α)) (retain : Bool),
    slice.length < fuel → slice ≠ [] →
    containsLoop base p fuel slice retain = .ok none ∨
      ∃ s r, s ≠ [] ∧ containsLoop base p fuel slice retain = .ok (some (s, r)) := by
  intro fuel
  induction fuel with
  | zero => intro slice retain h; omega
  | succ fuel ih =>
    intro slice retain h hne
    have hpos : 0 < slice.length := List.length_pos_iff.2 hne
    unfold containsLoop
    by_cases hc : (decide (slice.length > 3) || (retain && decide (slice.length > 2))) = true
    · rw [if_pos hc]
      obtain ⟨mid, hm⟩ : ∃ mid, mid = (if retain = true then (slice.length + 1) / 2 - 1 else slice.length / 2) := ⟨_, rfl⟩
      have h1 : 1 ≤ mid ∧ mid + 1 < slice.length := by
        cases retain <;> simp at hc hm <;> omega
      simp only [← hm]
      obtain ⟨a, ha⟩ := idx_total slice (mid - 1) (by omega)
      obtain ⟨m, hmm⟩ := idx_total slice mid (by omega)
      obtain ⟨s0, hs0⟩ := idx_total slice 0 hpos
      simp only [ha, hmm, hs0, bind, Except.bind]
      split
      · exact Or.inl rfl
      · split
        · exact ih _ _ (by simp; omega) (by rw [← List.length_pos_iff]; simp; omega)
        · exact ih _ _ (by simp; omega) (by rw [← List.length_pos_iff]; simp; omega)
    · rw [if_neg hc]
      exact Or.inr ⟨slice, retain, hne, rfl⟩

theorem containsPoint_total (test : V2 α → V2 α → V2 α → Bool) (input : List (V2 α)) (p : V2 α) :
    ∃ r, containsPoint test input p = .ok r := by
  match input with
  | [] => exact ⟨_, rfl⟩
  | [a] => exact ⟨_, rfl⟩
  | a :: b :: rest =>
    by_cases hc : (rest.isEmpty && !(a.beq b)) = true
    · exact ⟨false, by simp only [containsPoint]; rw [if_pos hc]⟩
    · simp only [containsPoint]
      rw [if_neg hc]
      obtain ⟨last, hl⟩ := idx_total (a :: b :: rest) ((a :: b :: rest).length - 1) (by simp)
      simp only [hl, bind, Except.bind]
      obtain ⟨base, hb⟩ : ∃ base, base = (if a.beq last = true then b else a) := ⟨_, rfl⟩
      obtain ⟨slice, hs⟩ : ∃ slice, slice = (if a.beq last = true then b :: rest else a :: b :: rest) := ⟨_, rfl⟩
      have hne : slice ≠ [] := by rw [hs]; split <;> simp
      rw [← hb, ← hs]
      rcases containsLoop_total base p (slice.length + 1) slice false (by omega) hne with h | ⟨s, r, hs', h⟩
      · rw [h]; exact ⟨_, rfl⟩
      · rw [h]
        have hpos : 0 < s.length := List.length_pos_iff.2 hs'
        obtain ⟨f, hf⟩ := idx_total s 0 hpos
        obtain ⟨g, hg⟩ := idx_total s (s.length - 1) (by omega)
        simp only [containsFinal, hf, hg, bind, Except.bind]
        split <;> exact ⟨_, rfl⟩

/-- C42, C43, any arithmetic (NaN included) and any list of points, convex or not: the containment tests
neither panic nor loop -/
theorem C42_any_arithmetic (line : List (V2 α)) (p : V2 α) :
    (∃ r, containsPointInclusive line p = .ok r) ∧ (∃ r, containsPointExclusive line p = .ok r) ∧
    (∃ r, lineContainsInclusive line p = .ok r) ∧ (∃ r, lineContainsExclusive line p = .ok r) := by
  refine ⟨containsPoint_total _ _ _, containsPoint_total _ _ _, ?_, ?_⟩
  · unfold lineContainsInclusive; split
    · exact containsPoint_total _ _ _
    · exact ⟨_, rfl⟩
  · unfold lineContainsExclusive; split
    · exact containsPoint_total _ _ _
    · exact ⟨_, rfl⟩

/-- C44, any arithmetic and any lists: both functions return, the parallel answer is the same for every
schedule, and it is true iff the container has at least two points and the point test accepts every point; a `true` of the sequential function is a `true` of the parallel one -/
theorem C44_any_arithmetic (a b : List (V2 α)) :
    ∃ r s, containsConvexHull a b = .ok r ∧
      (∀ order : List (V2 α) → List (V2 α), (∀ l, (order l).Perm l) → containsConvexHullPar order a b = .ok s) ∧
      (s = true ↔ 2 ≤ a.length ∧ ∀ q ∈ b, containsPointInclusive a q = .ok true) ∧
      (r = true → s = true) := by
  choose g hg using fun q => (C42_any_arithmetic a q).1
  by_cases h2 : 2 ≤ a.length
  · have hp : ¬ pointCount2 a ≤ 1 := by
      unfold pointCount2
      split
      · rename_i hc; simp at hc; omega
      · omega
    have key : b.all g = true ↔ 2 ≤ a.length ∧ ∀ q ∈ b, containsPointInclusive a q = .ok true := by
      rw [List.all_eq_true]
      refine ⟨fun h => ⟨h2, fun q hq => by rw [hg, h q hq]⟩, fun h q hq => ?_⟩
      have := h.2 q hq
      rw [hg] at this
      exact Except.ok.inj this
    have hseq : containsConvexHull a b = .ok false ∨ containsConvexHull a b = .ok (b.all g) := by
      cases b with
      | nil => exact Or.inr ((C44_small_containers a [] id).2 h2).1
      | cons b0 b =>
        unfold containsConvexHull
        rw [if_neg hp]
        obtain ⟨e0, i0⟩ := idx_total a (a.length / 2 - 1) (by omega)
        obtain ⟨e1, i1⟩ := idx_total a (a.length / 2) (by omega)
        obtain ⟨b1, i2⟩ := idx_total (b0 :: b) ((b0 :: b).length / 2) (by simp; omega)
        have i3 : idx (b0 :: b) 0 = .ok b0 := rfl
        simp only [List.isEmpty_cons, Bool.false_eq_true, if_false, i0, i1, i2, i3, bind, Except.bind]
        split
        · exact Or.inl rfl
        · exact Or.inr (allM_ok _ _ _ (fun q _ => hg q))
    rcases hseq with h | h
    · exact ⟨false, b.all g, h, fun order ho => par_all h2 hg order ho, key, fun h => by cases h⟩
    · exact ⟨b.all g, b.all g, h, fun order ho => par_all h2 hg order ho, key, fun h => h⟩
  · exact ⟨false, false, ((C44_small_containers a b id).1 (by omega)).1,
      fun order _ => ((C44_small_containers a b order).1 (by omega)).2,
      Iff.intro (fun h => nomatch h) (fun h => absurd h.1 h2), fun h => h⟩
end

/-- with a container that is not convex the two functions can differ: the sequential one looks at the middle edge first -/
theorem C44_differ_on_non_convex_containers :
    ∃ (a b : List (V2 ℚ)), containsConvexHull a b = .ok false ∧ containsConvexHullPar id a b = .ok true := by
  refine ⟨[⟨2, 4⟩, ⟨0, 0⟩, ⟨-2, 2⟩, ⟨4, 0⟩, ⟨2, 4⟩], [⟨2, 1⟩], ?_, ?_⟩ <;> decide +kernel
end Verif.Props
