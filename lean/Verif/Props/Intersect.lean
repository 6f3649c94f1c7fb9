import Verif.Proofs.Intersect
import Verif.Spec.Instances
/-!
# C18 – C25, C53: intersections of segments and line strings, iterators
-/
namespace Verif.Props.Intersect
open Verif Verif.Model Verif.Spec Verif.Proofs.Intersect Scalar
set_option linter.unusedSectionVars false

section exact
variable {K : Type} [Scalar K] [Field K] [LinearOrder K] [ExactScalar K] [ExactSqrt K]

/-- C18: a reported point lies on both segments. -/
theorem C18_point_is_common (l m : Line2 K) (p : V2 K)
    (h : l.intersectionPoint m = some (.point p)) :
    OnSegment2 l.start l.end p ∧ OnSegment2 m.start m.end p := by
  have := (intersectionPoint_denotes l m p).1
  rw [h] at this
  exact this rfl

/-- C18: both ends of a reported overlap (and all points between) lie on both segments. -/
theorem C18_overlap_is_common (l m o : Line2 K) (q : V2 K)
    (h : l.intersectionPoint m = some (.overlap o)) (hq : OnSegment2 o.start o.end q) :
    OnSegment2 l.start l.end q ∧ OnSegment2 m.start m.end q := by
  have := (intersectionPoint_denotes l m q).1
  rw [h] at this
  exact this hq

theorem overlap_proper (l m o : Line2 K) (h : l.intersectionPoint m = some (.overlap o)) :
    o.start ≠ o.end := by
  unfold Line2.intersectionPoint at h
  have hlp : ∀ (l : Line2 K) p, intersectLinePoint l p ≠ some (.overlap o) := by
    intro l p hc
    unfold intersectLinePoint at hc
    simp only at hc
    split_ifs at hc <;> cases hc
  simp only at h
  split_ifs at h <;> first
    | exact absurd h (hlp _ _)
    | (cases h; done)
    | (rename_i hb; cases h; intro hc; exact hb ((v2_beq _ _).2 hc))

/-- C19: `None` is returned exactly for disjoint segments. -/
theorem C19_none_iff_disjoint (l m : Line2 K) :
    l.intersectionPoint m = none ↔
      ∀ q, ¬ (OnSegment2 l.start l.end q ∧ OnSegment2 m.start m.end q) := by
  constructor
  · intro h q hq
    have := (intersectionPoint_denotes l m q).2 hq
    rw [h] at this
    exact this
  · intro h
    cases hi : l.intersectionPoint m with
    | none => rfl
    | some i =>
      cases i with
      | point p => exact absurd (C18_point_is_common l m p hi) (h p)
      | overlap o => exact absurd (C18_overlap_is_common l m o _ hi (onSeg_start _ _)) (h _)

/-- C19: a single reported point is the only common point. -/
theorem C19_point_is_unique (l m : Line2 K) (p : V2 K)
    (h : l.intersectionPoint m = some (.point p)) (q : V2 K) :
    (OnSegment2 l.start l.end q ∧ OnSegment2 m.start m.end q) ↔ q = p := by
  rw [← intersectionPoint_denotes, h]; exact Iff.rfl

/-- C19: a reported overlap is a proper segment and is exactly the set of common points. -/
theorem C19_overlap_is_exact (l m o : Line2 K)
    (h : l.intersectionPoint m = some (.overlap o)) :
    o.start ≠ o.end ∧ ∀ q : V2 K,
      (OnSegment2 l.start l.end q ∧ OnSegment2 m.start m.end q) ↔ OnSegment2 o.start o.end q := by
  refine ⟨overlap_proper l m o h, fun q => ?_⟩
  rw [← intersectionPoint_denotes, h]; exact Iff.rfl

/-- C20: swapping the two segments does not change the reported set of points. -/
theorem C20_symmetric (l m : Line2 K) (q : V2 K) :
    Denotes (l.intersectionPoint m) q ↔ Denotes (m.intersectionPoint l) q := by
  rw [intersectionPoint_denotes, intersectionPoint_denotes, and_comm]

/-- C20: nor whether something is reported. -/
theorem C20_symmetric_isSome (l m : Line2 K) :
    (l.intersectionPoint m).isSome = (m.intersectionPoint l).isSome := by
  rw [Bool.eq_iff_iff, ← not_iff_not]
  simp only [Bool.not_eq_true, Option.isSome_eq_false_iff, Option.isNone_iff_eq_none]
  rw [C19_none_iff_disjoint, C19_none_iff_disjoint]
  simp only [and_comm]

/-- C20: reversing the direction of either segment does not change the reported set of points. -/
theorem C20_reverse (l m : Line2 K) (q : V2 K) :
    (Denotes ((Line2.mk l.end l.start).intersectionPoint m) q ↔ Denotes (l.intersectionPoint m) q) ∧
    (Denotes (l.intersectionPoint ⟨m.end, m.start⟩) q ↔ Denotes (l.intersectionPoint m) q) := by
  simp only [intersectionPoint_denotes]
  exact ⟨⟨fun h => ⟨onSeg_symm h.1, h.2⟩, fun h => ⟨onSeg_symm h.1, h.2⟩⟩,
    ⟨fun h => ⟨h.1, onSeg_symm h.2⟩, fun h => ⟨h.1, onSeg_symm h.2⟩⟩⟩

/-- C18–C20 are not vacuous: the example of the documentation and a crossing (over ℝ only the
decision procedure is missing; ℚ computes the same result where no square root is involved). -/
example : (Line2.mk (⟨0, 0⟩ : V2 ℚ) ⟨5, 0⟩).intersectionPoint ⟨⟨1, 0⟩, ⟨3, 0⟩⟩ =
      some (.overlap ⟨⟨1, 0⟩, ⟨3, 0⟩⟩) ∧
    (Line2.mk (⟨0, 0⟩ : V2 ℚ) ⟨4, 4⟩).intersectionPoint ⟨⟨0, 2⟩, ⟨4, 0⟩⟩ =
      some (.point ⟨4/3, 4/3⟩) ∧
    (Line2.mk (⟨0, 0⟩ : V2 ℚ) ⟨4, 4⟩).intersectionPoint ⟨⟨0, 2⟩, ⟨1, 2⟩⟩ = none := by
  refine ⟨?_, ?_, ?_⟩ <;> decide +kernel

/-- the laws used in C18 – C24 hold for the real numbers -/
example (l m : Line2 ℝ) (h : l.intersectionPoint m = none) (q : V2 ℝ) :
    ¬ (OnSegment2 l.start l.end q ∧ OnSegment2 m.start m.end q) :=
  (C19_none_iff_disjoint l m).1 h q

end exact

/-! ### iterators -/

theorem windows2_length {A : Type} (l : List A) : (windows2 l).length = l.length - 1 := by
  induction l with
  | nil => rfl
  | cons a l ih =>
    cases l with
    | nil => rfl
    | cons b l => simp only [windows2, List.length_cons] at ih ⊢; omega

theorem windows2_get {A : Type} (l : List A) (i : Nat) (a b : A) :
    (windows2 l)[i]? = some (a, b) ↔ l[i]? = some a ∧ l[i + 1]? = some b := by
  induction l generalizing i with
  | nil => simp [windows2]
  | cons x l ih =>
    cases l with
    | nil => simp [windows2]
    | cons y l =>
      cases i with
      | zero => simp [windows2]
      | succ i =>
        simp only [windows2, List.getElem?_cons_succ]
        rw [ih i]
        simp

/-- all items yielded by repeatedly calling `next` until it returns `None` -/
inductive Yields {S I : Type} (next : S → Option (I × S)) : S → List I → Prop
  | done (s : S) (h : next s = none) : Yields next s []
  | step (s s' : S) (i : I) (is : List I) (h : next s = some (i, s')) (r : Yields next s' is) :
      Yields next s (i :: is)

theorem yields_windows {A : Type} (l : List A) : Yields windowNext l (windows2 l) := by
  induction l with
  | nil => exact .done _ rfl
  | cons a l ih =>
    cases l with
    | nil => exact .done _ rfl
    | cons b l => exact .step _ _ _ _ rfl ih

/-- C25: `window_iter` yields `len - 1` segments, the i-th from point i to point i+1, and `len()` is
at every moment the number of segments still to be yielded. -/
theorem C25_window_iter {A : Type} (l : List A) :
    ∃ ws, Yields windowNext l ws ∧ ws.length = l.length - 1 ∧ windowLen l = ws.length ∧
      ∀ i a b, ws[i]? = some (a, b) ↔ l[i]? = some a ∧ l[i + 1]? = some b := by
  refine ⟨windows2 l, yields_windows l, windows2_length l, ?_, windows2_get l⟩
  rw [windows2_length]; unfold windowLen; split <;> omega

/-- C25: the state after `next` is again a window iterator, so the statement about `len()` above
holds after any number of calls. -/
theorem C25_window_iter_state {A : Type} (l : List A) (w : A × A) (l' : List A)
    (h : windowNext l = some (w, l')) : l = w.1 :: l' ∧ l'.head? = some w.2 ∧
      windowLen l = windowLen l' + 1 := by
  match l, h with
  | a :: b :: rest, h =>
    simp only [windowNext, Option.some.injEq, Prod.mk.injEq] at h
    obtain ⟨rfl, rfl⟩ := h
    refine ⟨rfl, rfl, ?_⟩
    simp only [windowLen, List.length_cons]
    split <;> split <;> omega

open Verif.Shape in
theorem chunks2_length {A : Type} : ∀ l : List A, (chunks2 l).length = l.length / 2
  | [] => by simp [chunks2]
  | [_] => by simp [chunks2]
  | a :: b :: l => by
    simp only [chunks2, List.length_cons, chunks2_length l]; omega

open Verif.Shape in
theorem chunks2_get {A : Type} : ∀ (l : List A) (i : Nat) (a b : A),
    (chunks2 l)[i]? = some (a, b) ↔ l[2 * i]? = some a ∧ l[2 * i + 1]? = some b
  | [], i, a, b => by simp [chunks2]
  | [x], i, a, b => by
    cases i with
    | zero => simp [chunks2]
    | succ i => simp [chunks2]
  | x :: y :: l, i, a, b => by
    cases i with
    | zero => simp [chunks2]
    | succ i =>
      have e : 2 * (i + 1) = 2 * i + 1 + 1 := by omega
      simp only [chunks2, e, List.getElem?_cons_succ]
      exact chunks2_get l i a b

open Verif.Shape in
theorem yields_chunks {A : Type} : ∀ (v rem : List A),
    Yields chunkNext (⟨v, rem⟩ : ChunkState A) (chunks2 v)
  | [], _ => .done _ rfl
  | [_], _ => .done _ rfl
  | _ :: _ :: l, rem => .step _ _ _ _ rfl (yields_chunks l rem)

/-- C25: `chunk_iter` yields `len / 2` segments, the i-th from point 2i to point 2i+1; `len()` is
their number and `remainder()` is the unpaired last point, if any. -/
theorem C25_chunk_iter {A : Type} (l : List A) :
    ∃ cs, Yields chunkNext (chunkNew l) cs ∧ cs.length = l.length / 2 ∧
      chunkLen (chunkNew l) = cs.length ∧
      (∀ i a b, cs[i]? = some (a, b) ↔ l[2 * i]? = some a ∧ l[2 * i + 1]? = some b) ∧
      chunkRemainder (chunkNew l) = if l.length % 2 = 1 then l.getLast?.toList else [] := by
  have hlen : (l.take (l.length - l.length % 2)).length / 2 = l.length / 2 := by
    simp only [List.length_take]; omega
  refine ⟨Verif.Shape.chunks2 (l.take (l.length - l.length % 2)), yields_chunks _ _, ?_, ?_, ?_, ?_⟩
  · rw [chunks2_length, hlen]
  · rw [chunks2_length]; rfl
  · intro i a b
    rw [chunks2_get]
    rw [List.getElem?_take, List.getElem?_take]
    constructor
    · intro ⟨h1, h2⟩
      split at h1
      · split at h2
        · exact ⟨h1, h2⟩
        · cases h2
      · cases h1
    · intro ⟨h1, h2⟩
      have : 2 * i + 1 < l.length := by
        by_contra hc
        rw [List.getElem?_eq_none (by omega)] at h2
        cases h2
      rw [if_pos (by omega), if_pos (by omega)]
      exact ⟨h1, h2⟩
  · unfold chunkRemainder chunkNew
    simp only
    split
    · next h =>
      rw [h]
      have hne : l ≠ [] := by rintro rfl; simp at h
      rw [List.getLast?_eq_some_getLast hne]
      conv_lhs => rw [← List.dropLast_append_getLast hne]
      rw [List.drop_append_of_le_length (by simp)]
      simp
    · next h =>
      have : l.length % 2 = 0 := by omega
      rw [this]; simp

/-- C25 also after any number of calls: one call of `next` removes one segment and keeps the
remainder. -/
theorem C25_chunk_iter_state {A : Type} (s : ChunkState A) (w : A × A) (s' : ChunkState A)
    (h : chunkNext s = some (w, s')) : s.v = w.1 :: w.2 :: s'.v ∧ s'.rem = s.rem ∧
      chunkLen s = chunkLen s' + 1 := by
  obtain ⟨v, rem⟩ := s
  match v, h with
  | a :: b :: rest, h =>
    simp only [chunkNext, Option.some.injEq, Prod.mk.injEq] at h
    obtain ⟨rfl, rfl⟩ := h
    refine ⟨rfl, rfl, ?_⟩
    simp only [chunkLen, List.length_cons]; omega

example : (chunkNew [1, 2, 3, 4, 5]).v = [1, 2, 3, 4] ∧ (chunkNew [1, 2, 3, 4, 5]).rem = [5] := by
  decide

section strings
variable {K : Type} [Scalar K] [Field K] [LinearOrder K] [ExactScalar K] [ExactSqrt K]

theorem onPolyline_iff (line : List (V2 K)) (q : V2 K) :
    OnPolyline line q ↔ ∃ l ∈ windowIter2 line, OnSegment2 l.start l.end q := by
  unfold OnPolyline windowIter2
  constructor
  · rintro ⟨i, a, b, ha, hb, h⟩
    refine ⟨⟨a, b⟩, ?_, h⟩
    rw [List.mem_map]
    exact ⟨(a, b), List.mem_of_getElem? ((windows2_get line i a b).2 ⟨ha, hb⟩), rfl⟩
  · rintro ⟨l, hl, h⟩
    rw [List.mem_map] at hl
    obtain ⟨⟨a, b⟩, hab, rfl⟩ := hl
    obtain ⟨i, hi⟩ := List.mem_iff_getElem?.1 hab
    obtain ⟨ha, hb⟩ := (windows2_get line i a b).1 hi
    exact ⟨i, a, b, ha, hb, h⟩

omit [Field K] [LinearOrder K] [ExactScalar K] [ExactSqrt K] in
/-- C21: `intersection` returns the result for the first segment that meets `other`. -/
theorem C21_intersection_is_first (line : List (V2 K)) (other : Line2 K) :
    intersection2 line other = (windowIter2 line).findSome? (·.intersectionPoint other) := by
  unfold intersection2
  induction windowIter2 line with
  | nil => rfl
  | cons l ls ih =>
    simp only [intersection2.go, List.findSome?_cons]
    cases l.intersectionPoint other with
    | none => exact ih
    | some i => rfl

omit [Field K] [LinearOrder K] [ExactScalar K] [ExactSqrt K] in
/-- C21: `find_all_intersections` returns one entry per meeting segment, in order. -/
theorem C21_find_all_is_filter (line : List (V2 K)) (other : Line2 K) :
    findAll2 line other = (windowIter2 line).filterMap (·.intersectionPoint other) := by
  unfold findAll2
  have : ∀ (ws : List (Line2 K)) (acc : List (Intersection K)),
      ws.foldl (findAllStep other) acc = acc ++ ws.filterMap (·.intersectionPoint other) := by
    intro ws
    induction ws with
    | nil => intro acc; simp
    | cons l ls ih =>
      intro acc
      rw [List.foldl_cons, ih]
      cases h : l.intersectionPoint other with
      | none => simp [findAllStep, h]
      | some i => simp [findAllStep, h]
  simpa using this (windowIter2 line) []

/-- C21: nothing is found by `intersection` iff line string and segment are disjoint. -/
theorem C21_intersection_none_iff (line : List (V2 K)) (other : Line2 K) :
    intersection2 line other = none ↔ ∀ q, ¬ (OnPolyline line q ∧ OnSegment2 other.start other.end q) := by
  rw [C21_intersection_is_first, List.findSome?_eq_none_iff]
  constructor
  · rintro h q ⟨hq, ho⟩
    obtain ⟨l, hl, hlq⟩ := (onPolyline_iff line q).1 hq
    exact (C19_none_iff_disjoint l other).1 (h l hl) q ⟨hlq, ho⟩
  · intro h l hl
    exact (C19_none_iff_disjoint l other).2 (fun q hq =>
      h q ⟨(onPolyline_iff line q).2 ⟨l, hl, hq.1⟩, hq.2⟩)

/-- C21: everything reported by `intersection` is common. -/
theorem C21_intersection_sound (line : List (V2 K)) (other : Line2 K) (q : V2 K)
    (h : Denotes (intersection2 line other) q) :
    OnPolyline line q ∧ OnSegment2 other.start other.end q := by
  rw [C21_intersection_is_first] at h
  cases hf : (windowIter2 line).findSome? (·.intersectionPoint other) with
  | none => rw [hf] at h; exact absurd h (by simp [Denotes])
  | some i =>
    rw [hf] at h
    obtain ⟨l, hl, hi⟩ := List.exists_of_findSome?_eq_some hf
    rw [← hi] at h
    obtain ⟨h1, h2⟩ := (intersectionPoint_denotes l other q).1 h
    exact ⟨(onPolyline_iff line q).2 ⟨l, hl, h1⟩, h2⟩

/-- C21: the union of everything reported by `find_all_intersections` is exactly the common part
of line string and segment. -/
theorem C21_find_all_denotes (line : List (V2 K)) (other : Line2 K) (q : V2 K) :
    (∃ i ∈ findAll2 line other, Denotes (some i) q) ↔
      OnPolyline line q ∧ OnSegment2 other.start other.end q := by
  rw [C21_find_all_is_filter]
  constructor
  · rintro ⟨i, hi, hd⟩
    rw [List.mem_filterMap] at hi
    obtain ⟨l, hl, hli⟩ := hi
    rw [← hli] at hd
    obtain ⟨h1, h2⟩ := (intersectionPoint_denotes l other q).1 hd
    exact ⟨(onPolyline_iff line q).2 ⟨l, hl, h1⟩, h2⟩
  · rintro ⟨h1, h2⟩
    obtain ⟨l, hl, hlq⟩ := (onPolyline_iff line q).1 h1
    have hd := (intersectionPoint_denotes l other q).2 ⟨hlq, h2⟩
    cases hi : l.intersectionPoint other with
    | none => rw [hi] at hd; exact absurd hd (by simp [Denotes])
    | some i =>
      rw [hi] at hd
      exact ⟨i, List.mem_filterMap.2 ⟨l, hl, hi⟩, hd⟩

theorem containsV2_iff (l : List (V2 K)) (p : V2 K) : containsV2 l p = true ↔ p ∈ l := by
  unfold containsV2
  rw [List.any_eq_true]
  constructor
  · rintro ⟨q, hq, h⟩
    rw [v2_beq] at h
    exact h ▸ hq
  · intro h; exact ⟨p, h, (v2_beq _ _).2 rfl⟩

/-- one step of `find_two_intersections` -/
theorem findTwoStep_spec (acc : List (V2 K)) (l other : Line2 K) (hn : acc.Nodup)
    (hl : acc.length < 2) :
    let acc' := findTwoStep acc (l.intersectionPoint other)
    acc'.Nodup ∧ acc'.length ≤ 2 ∧ (∀ p ∈ acc, p ∈ acc') ∧
      (∀ p ∈ acc', p ∈ acc ∨ (OnSegment2 l.start l.end p ∧ OnSegment2 other.start other.end p)) ∧
      (acc'.length < 2 → ∀ q, OnSegment2 l.start l.end q → OnSegment2 other.start other.end q →
        q ∈ acc') := by
  intro acc'
  have hd := intersectionPoint_denotes l other
  cases hi : l.intersectionPoint other with
  | none =>
    have e : acc' = acc := by show findTwoStep _ _ = _; rw [hi]; rfl
    rw [e]
    refine ⟨hn, by omega, fun p hp => hp, fun p hp => Or.inl hp, fun _ q h1 h2 => ?_⟩
    have := (hd q).2 ⟨h1, h2⟩
    rw [hi] at this
    exact absurd this (by simp [Denotes])
  | some i =>
    cases i with
    | point p =>
      have hp := C18_point_is_common l other p hi
      have hu := C19_point_is_unique l other p hi
      have e : acc' = if containsV2 acc p then acc else acc ++ [p] := by
        show findTwoStep _ _ = _; rw [hi]; rfl
      by_cases hc : p ∈ acc
      · rw [if_pos ((containsV2_iff _ _).2 hc)] at e
        rw [e]
        exact ⟨hn, by omega, fun p hp => hp, fun p hp => Or.inl hp, fun _ q h1 h2 =>
          (hu q).1 ⟨h1, h2⟩ ▸ hc⟩
      · rw [if_neg (by rw [containsV2_iff]; exact hc)] at e
        rw [e]
        refine ⟨?_, by simp; omega, fun x hx => by simp [hx], ?_, ?_⟩
        · rw [List.nodup_append]
          exact ⟨hn, by simp, by intro a ha b hb hab; rw [List.mem_singleton] at hb; subst hb; exact hc (hab ▸ ha)⟩
        · intro x hx
          simp only [List.mem_append, List.mem_singleton] at hx
          rcases hx with hx | rfl
          · exact Or.inl hx
          · exact Or.inr hp
        · intro _ q h1 h2
          rw [(hu q).1 ⟨h1, h2⟩]; simp
    | overlap o =>
      have hp1 := C18_overlap_is_common l other o o.start hi (onSeg_start _ _)
      have hp2 := C18_overlap_is_common l other o o.end hi (onSeg_end _ _)
      have hne := overlap_proper l other o hi
      obtain ⟨acc1, hacc1⟩ : ∃ a, a = if containsV2 acc o.start then acc else acc ++ [o.start] :=
        ⟨_, rfl⟩
      have e : acc' = if (acc1.length < 2 && !containsV2 acc1 o.end) then acc1 ++ [o.end] else acc1 := by
        rw [hacc1]; show findTwoStep _ _ = _; rw [hi]; rfl
      have h1 : acc1.Nodup ∧ acc1.length ≤ 2 ∧ (∀ p ∈ acc, p ∈ acc1) ∧ o.start ∈ acc1 ∧
          ∀ p ∈ acc1, p ∈ acc ∨ p = o.start := by
        by_cases hc : o.start ∈ acc
        · rw [if_pos ((containsV2_iff _ _).2 hc)] at hacc1
          subst hacc1
          exact ⟨hn, by omega, fun p hp => hp, hc, fun p hp => Or.inl hp⟩
        · rw [if_neg (by rw [containsV2_iff]; exact hc)] at hacc1
          subst hacc1
          refine ⟨?_, by simp; omega, fun x hx => by simp [hx], by simp, ?_⟩
          · rw [List.nodup_append]
            exact ⟨hn, by simp, by intro a ha b hb hab; rw [List.mem_singleton] at hb; subst hb; exact hc (hab ▸ ha)⟩
          · intro x hx; simpa using hx
      obtain ⟨n1, l1, s1, m1, b1⟩ := h1
      have key : acc'.Nodup ∧ acc'.length = 2 ∧ (∀ p ∈ acc1, p ∈ acc') ∧
          ∀ p ∈ acc', p ∈ acc1 ∨ p = o.end := by
        by_cases hc : acc1.length < 2
        · have hnot : o.end ∉ acc1 := by
            intro hmem
            have hlen : acc1.length = 1 := by
              have := List.length_pos_of_mem m1; omega
            obtain ⟨z, hz⟩ := List.length_eq_one_iff.1 hlen
            rw [hz] at m1 hmem
            simp at m1 hmem
            exact hne (m1.trans hmem.symm)
          rw [if_pos (by
            simp only [Bool.and_eq_true, decide_eq_true_eq, Bool.not_eq_true']
            refine ⟨hc, ?_⟩
            rw [← Bool.not_eq_true, containsV2_iff]; exact hnot)] at e
          rw [e]
          have hlen : acc1.length = 1 := by have := List.length_pos_of_mem m1; omega
          refine ⟨?_, by simp [hlen], fun x hx => by simp [hx], fun x hx => by simpa using hx⟩
          rw [List.nodup_append]
          exact ⟨n1, by simp, by intro a ha b hb hab; rw [List.mem_singleton] at hb; subst hb; exact hnot (hab ▸ ha)⟩
        · rw [if_neg (by
            simp only [Bool.and_eq_true, decide_eq_true_eq]
            exact fun h => hc h.1)] at e
          rw [e]
          exact ⟨n1, by omega, fun p hp => hp, fun p hp => Or.inl hp⟩
      obtain ⟨n2, l2, s2, b2⟩ := key
      refine ⟨n2, by omega, fun p hp => s2 p (s1 p hp), ?_, fun h => by omega⟩
      intro p hp
      rcases b2 p hp with h | rfl
      · rcases b1 p h with h | rfl
        · exact Or.inl h
        · exact Or.inr hp1
      · exact Or.inr hp2

theorem findTwo_go_spec (other : Line2 K) (ws : List (Line2 K)) (acc : List (V2 K)) (hn : acc.Nodup)
    (hl : acc.length < 2) :
    let r := findTwo2.go other acc ws
    r.Nodup ∧ r.length ≤ 2 ∧ (∀ p ∈ acc, p ∈ r) ∧
      (∀ p ∈ r, p ∈ acc ∨ ∃ l ∈ ws, OnSegment2 l.start l.end p ∧ OnSegment2 other.start other.end p) ∧
      (r.length < 2 → ∀ l ∈ ws, ∀ q, OnSegment2 l.start l.end q → OnSegment2 other.start other.end q →
        q ∈ r) := by
  induction ws generalizing acc with
  | nil =>
    simp only [findTwo2.go]
    exact ⟨hn, by omega, fun p hp => hp, fun p hp => Or.inl hp, by simp⟩
  | cons l ls ih =>
    intro r
    obtain ⟨n1, l1, s1, b1, c1⟩ := findTwoStep_spec acc l other hn hl
    have e : r = if (findTwoStep acc (l.intersectionPoint other)).length = 2 then
        findTwoStep acc (l.intersectionPoint other)
      else findTwo2.go other (findTwoStep acc (l.intersectionPoint other)) ls := rfl
    generalize findTwoStep acc (l.intersectionPoint other) = acc' at *
    by_cases h2 : acc'.length = 2
    · rw [if_pos h2] at e
      rw [e]
      refine ⟨n1, l1, s1, ?_, fun h => by omega⟩
      intro p hp
      rcases b1 p hp with h | h
      · exact Or.inl h
      · exact Or.inr ⟨l, by simp, h⟩
    · rw [if_neg h2] at e
      rw [e]
      obtain ⟨n2, l2, s2, b2, c2⟩ := ih acc' n1 (by omega)
      refine ⟨n2, l2, fun p hp => s2 p (s1 p hp), ?_, ?_⟩
      · intro p hp
        rcases b2 p hp with h | ⟨m, hm, h⟩
        · rcases b1 p h with h | h
          · exact Or.inl h
          · exact Or.inr ⟨l, by simp, h⟩
        · exact Or.inr ⟨m, by simp [hm], h⟩
      · intro hlt m hm q h1 h2'
        rcases List.mem_cons.1 hm with rfl | hm
        · exact s2 q (c1 (by omega) q h1 h2')
        · exact c2 hlt m hm q h1 h2'

/-- C21: `find_two_intersections`.  All reported points are common points, they differ, nothing is
reported iff there is no common point, and if only one point is reported it is the only common
point. -/
theorem C21_find_two (line : List (V2 K)) (other : Line2 K) :
    let common := fun q => OnPolyline line q ∧ OnSegment2 other.start other.end q
    match findTwo2 line other with
    | (none, none) => ∀ q, ¬ common q
    | (some p, none) => ∀ q, common q ↔ q = p
    | (some p, some q) => common p ∧ common q ∧ p ≠ q
    | (none, some _) => False := by
  intro common
  obtain ⟨n, l, -, b, c⟩ := findTwo_go_spec other (windowIter2 line) [] (by simp) (by simp)
  have hb : ∀ p ∈ findTwo2.go other [] (windowIter2 line), common p := by
    intro p hp
    rcases b p hp with h | ⟨m, hm, h⟩
    · simp at h
    · exact ⟨(onPolyline_iff line p).2 ⟨m, hm, h.1⟩, h.2⟩
  have hc : (findTwo2.go other [] (windowIter2 line)).length < 2 → ∀ q, common q →
      q ∈ findTwo2.go other [] (windowIter2 line) := by
    intro hlt q hq
    obtain ⟨m, hm, h⟩ := (onPolyline_iff line q).1 hq.1
    exact c hlt m hm q h hq.2
  unfold findTwo2
  simp only
  generalize findTwo2.go other [] (windowIter2 line) = r at *
  match r, n, l, hb, hc with
  | [], _, _, _, hc => simp only [List.getElem?_nil]; intro q hq; simpa using hc (by simp) q hq
  | [p], _, _, hb, hc =>
    simp only [List.getElem?_cons_zero, List.getElem?_cons_succ, List.getElem?_nil]
    intro q
    exact ⟨fun hq => by simpa using hc (by simp) q hq, fun hq => hb q (by simp [hq])⟩
  | [p, q], n, _, hb, _ =>
    simp only [List.getElem?_cons_zero, List.getElem?_cons_succ]
    exact ⟨hb p (by simp), hb q (by simp), by simpa using n⟩
  | _ :: _ :: _ :: _, _, l, _, _ => simp at l

/-- a line string and a segment with two common points -/
example : findTwo2 [(⟨0, 0⟩ : V2 ℚ), ⟨4, 0⟩, ⟨4, 4⟩, ⟨0, 4⟩, ⟨0, 0⟩] ⟨⟨-1, 2⟩, ⟨5, 2⟩⟩ =
    (some ⟨4, 2⟩, some ⟨0, 2⟩) ∧
    findAll2 [(⟨0, 0⟩ : V2 ℚ), ⟨4, 0⟩, ⟨4, 4⟩, ⟨0, 4⟩, ⟨0, 0⟩] ⟨⟨-1, 2⟩, ⟨5, 2⟩⟩ =
    [.point ⟨4, 2⟩, .point ⟨0, 2⟩] := by decide +kernel

end strings

/-! ### rays -/
section rays
variable {K : Type} [Scalar K] [Field K] [LinearOrder K] [ExactScalar K]

/-- the point `o + t·r` of a ray -/
def rayPoint (o r : V2 K) (t : K) : V2 K := ⟨o.x + t * r.x, o.y + t * r.y⟩

theorem dir_sq_pos {r : V2 K} (hr : r ≠ ⟨0, 0⟩) : 0 < r.x * r.x + r.y * r.y := by
  have : r.x ≠ 0 ∨ r.y ≠ 0 := by
    by_contra hc
    push Not at hc
    exact hr (v2_ext hc.1 hc.2)
  rcases this with h | h
  · have := mul_self_pos.2 h; have := mul_self_nonneg r.y; linarith
  · have := mul_self_pos.2 h; have := mul_self_nonneg r.x; linarith

/-- A hit that `closest_ray_intersection` can see: the ray `o + t r` meets the edge `ab` at `t`, and
the edge is not part of the line of the ray with a point at or behind the origin. -/
def VisibleHit (o r a b : V2 K) (t : K) : Prop :=
  OnSegment2 a b (rayPoint o r t) ∧
    ((b.x - a.x) * r.y - (b.y - a.y) * r.x = 0 → ∀ t', OnSegment2 a b (rayPoint o r t') → 0 < t')

theorem rayEdge_spec (o r a b : V2 K) (hr : r ≠ ⟨0, 0⟩) :
    (∀ t, rayEdgeIntersection o r a b = some t → OnSegment2 a b (rayPoint o r t)) ∧
    (∀ t, 0 < t → VisibleHit o r a b t → ∃ t', rayEdgeIntersection o r a b = some t' ∧ 0 < t' ∧ t' ≤ t) := by
  have hrr := dir_sq_pos hr
  obtain ⟨s, hs⟩ : ∃ s : V2 K, s = ⟨b.x - a.x, b.y - a.y⟩ := ⟨_, rfl⟩
  by_cases hpar : r.x * s.y - r.y * s.x = 0
  · by_cases hcol : (a.x - o.x) * r.y - (a.y - o.y) * r.x = 0
    · -- collinear
      obtain ⟨hx, hy⟩ := proj_coords r ⟨a.x - o.x, a.y - o.y⟩ hrr (by simp only; linear_combination -hcol)
      obtain ⟨hsx, hsy⟩ := proj_coords r s hrr hpar
      obtain ⟨t0, ht0⟩ : ∃ t0, t0 = ((a.x - o.x) * r.x + (a.y - o.y) * r.y) / (r.x * r.x + r.y * r.y) :=
        ⟨_, rfl⟩
      obtain ⟨k, hk⟩ : ∃ k, k = (s.x * r.x + s.y * r.y) / (r.x * r.x + r.y * r.y) := ⟨_, rfl⟩
      simp only at hx hy
      rw [← ht0] at hx hy
      rw [← hk] at hsx hsy
      have hres : rayEdgeIntersection o r a b = some (min t0 (t0 + k)) := by
        unfold rayEdgeIntersection
        simp only
        rw [if_pos (by simp only [exact_simp]; rw [hs] at hpar; exact hpar),
          if_pos (by simp only [exact_simp]; exact hcol)]
        simp only [exact_simp, ht0, hk, hs]
      have ha : a = rayPoint o r t0 := v2_ext (by simp only [rayPoint]; linarith)
        (by simp only [rayPoint]; linarith)
      have hb : b = rayPoint o r (t0 + k) := by
        apply v2_ext
        · simp only [rayPoint]; rw [hs] at hsx; simp only at hsx; linarith
        · simp only [rayPoint]; rw [hs] at hsy; simp only at hsy; linarith
      have hmem : OnSegment2 a b (rayPoint o r (min t0 (t0 + k))) := by
        rcases le_total t0 (t0 + k) with h | h
        · rw [min_eq_left h, ← ha]; exact onSeg_start _ _
        · rw [min_eq_right h, ← hb]; exact onSeg_end _ _
      constructor
      · intro t ht
        rw [hres, Option.some.injEq] at ht
        subst ht
        exact hmem
      · rintro t htpos ⟨hon, hvis⟩
        refine ⟨_, hres, ?_, ?_⟩
        · refine hvis ?_ _ hmem
          rw [hs] at hpar
          linear_combination -hpar
        · obtain ⟨u, u0, u1, hu⟩ := hon
          -- t = t0 + u k
          have e1 : t * r.x = (t0 + u * k) * r.x := by
            have := congrArg V2.x hu
            rw [ha, hb] at this
            simp only [rayPoint, lerp2] at this
            linear_combination this
          have e2 : t * r.y = (t0 + u * k) * r.y := by
            have := congrArg V2.y hu
            rw [ha, hb] at this
            simp only [rayPoint, lerp2] at this
            linear_combination this
          have ht : t = t0 + u * k := by
            have : (t - (t0 + u * k)) * (r.x * r.x + r.y * r.y) = 0 := by
              linear_combination r.x * e1 + r.y * e2
            rcases mul_eq_zero.1 this with h | h
            · linarith
            · exact absurd h hrr.ne'
          rw [ht]
          rcases le_total 0 k with h | h
          · exact (min_le_left _ _).trans (by have := mul_nonneg u0 h; linarith)
          · refine (min_le_right _ _).trans ?_
            have := mul_nonneg (sub_nonneg.2 u1) (neg_nonneg.2 h); linarith
    · -- parallel, not collinear
      have hres : rayEdgeIntersection o r a b = none := by
        unfold rayEdgeIntersection
        simp only
        rw [if_pos (by simp only [exact_simp]; rw [hs] at hpar; exact hpar),
          if_neg (by simp only [exact_simp]; exact hcol)]
      constructor
      · intro t ht; rw [hres] at ht; cases ht
      · rintro t - ⟨⟨u, -, -, hu⟩, -⟩
        exfalso
        apply hcol
        have e1 := congrArg V2.x hu
        have e2 := congrArg V2.y hu
        simp only [rayPoint, lerp2] at e1 e2
        rw [hs] at hpar
        simp only at hpar
        linear_combination u * hpar - r.y * e1 + r.x * e2
  · -- general position
    obtain ⟨c, hc⟩ : ∃ c, c = r.x * s.y - r.y * s.x := ⟨_, rfl⟩
    obtain ⟨t', ht'⟩ : ∃ t', t' = ((a.x - o.x) * s.y - (a.y - o.y) * s.x) / c := ⟨_, rfl⟩
    obtain ⟨u', hu'⟩ : ∃ u', u' = ((a.x - o.x) * r.y - (a.y - o.y) * r.x) / c := ⟨_, rfl⟩
    have hres : rayEdgeIntersection o r a b =
        if 0 ≤ t' ∧ 0 ≤ u' ∧ u' ≤ 1 then some t' else none := by
      unfold rayEdgeIntersection
      simp only
      rw [if_neg (by simp only [exact_simp]; rw [hs] at hpar; exact hpar)]
      simp only [exact_simp, ht', hu', hc, hs]
    have hc0 : c ≠ 0 := hc ▸ hpar
    have hp : rayPoint o r t' = lerp2 a b u' := by
      have h1 : t' * c = (a.x - o.x) * s.y - (a.y - o.y) * s.x := by
        rw [ht', div_mul_cancel₀ _ hc0]
      have h2 : u' * c = (a.x - o.x) * r.y - (a.y - o.y) * r.x := by
        rw [hu', div_mul_cancel₀ _ hc0]
      have hsx : s.x = b.x - a.x := by rw [hs]
      have hsy : s.y = b.y - a.y := by rw [hs]
      apply v2_ext
      · apply mul_right_cancel₀ hc0
        simp only [rayPoint, lerp2]
        rw [← hsx]
        linear_combination r.x * h1 - s.x * h2 + (o.x - a.x) * hc
      · apply mul_right_cancel₀ hc0
        simp only [rayPoint, lerp2]
        rw [← hsy]
        linear_combination r.y * h1 - s.y * h2 + (o.y - a.y) * hc
    constructor
    · intro t ht
      rw [hres] at ht
      split_ifs at ht with h
      cases ht
      exact ⟨u', h.2.1, h.2.2, hp⟩
    · rintro t htpos ⟨⟨u, u0, u1, hu⟩, -⟩
      have e1 := congrArg V2.x hu
      have e2 := congrArg V2.y hu
      simp only [rayPoint, lerp2] at e1 e2
      have hsx : s.x = b.x - a.x := by rw [hs]
      have hsy : s.y = b.y - a.y := by rw [hs]
      rw [← hsx] at e1
      rw [← hsy] at e2
      have ht : t' = t := by
        rw [ht', div_eq_iff hc0, hc]
        linear_combination (-s.y) * e1 + s.x * e2
      have hu2 : u' = u := by
        rw [hu', div_eq_iff hc0, hc]
        linear_combination (-r.y) * e1 + r.x * e2
      refine ⟨t', ?_, by rw [ht]; exact htpos, ht.le⟩
      rw [hres, if_pos ⟨by rw [ht]; exact htpos.le, by rw [hu2]; exact u0, by rw [hu2]; exact u1⟩]

/-- the fold over the edges -/
theorem nearest_fold (o r : V2 K) (ws : List (V2 K × V2 K)) (acc : Option K)
    (hacc : ∀ t, acc = some t → 0 < t) :
    let res := ws.foldl (fun n v => nearestStep n (rayEdgeIntersection o r v.1 v.2)) acc
    (∀ t, res = some t → 0 < t ∧ (acc = some t ∨ ∃ v ∈ ws, rayEdgeIntersection o r v.1 v.2 = some t)) ∧
    (∀ t, acc = some t → ∃ t', res = some t' ∧ t' ≤ t) ∧
    (∀ v ∈ ws, ∀ t, rayEdgeIntersection o r v.1 v.2 = some t → 0 < t → ∃ t', res = some t' ∧ t' ≤ t) := by
  induction ws generalizing acc with
  | nil =>
    exact ⟨fun t ht => ⟨hacc t ht, Or.inl ht⟩, fun t ht => ⟨t, ht, le_rfl⟩, by simp⟩
  | cons v ws ih =>
    intro res
    obtain ⟨acc', hacc'⟩ : ∃ a, a = nearestStep acc (rayEdgeIntersection o r v.1 v.2) := ⟨_, rfl⟩
    have hstep : (∀ t, acc' = some t → 0 < t ∧ (acc = some t ∨ rayEdgeIntersection o r v.1 v.2 = some t)) ∧
        (∀ t, acc = some t → ∃ t', acc' = some t' ∧ t' ≤ t) ∧
        (∀ t, rayEdgeIntersection o r v.1 v.2 = some t → 0 < t → ∃ t', acc' = some t' ∧ t' ≤ t) := by
      rw [hacc']
      cases hh : rayEdgeIntersection o r v.1 v.2 with
      | none =>
        simp only [nearestStep]
        exact ⟨fun t ht => ⟨hacc t ht, Or.inl ht⟩, fun t ht => ⟨t, ht, le_rfl⟩, by simp⟩
      | some t =>
        cases acc with
        | none =>
          simp only [nearestStep, exact_simp]
          split_ifs with h
          · exact ⟨fun x hx => by cases hx; exact ⟨h, Or.inr rfl⟩, by simp,
              fun x hx _ => ⟨t, rfl, by cases hx; exact le_rfl⟩⟩
          · refine ⟨by simp, by simp, fun x hx hpos => ?_⟩
            cases hx; exact absurd hpos h
        | some nt =>
          simp only [nearestStep, exact_simp]
          split_ifs with h
          · refine ⟨fun x hx => by cases hx; exact ⟨h.1, Or.inr rfl⟩, fun x hx => ⟨t, rfl, ?_⟩,
              fun x hx _ => ⟨t, rfl, by cases hx; exact le_rfl⟩⟩
            cases hx; exact h.2.le
          · refine ⟨fun x hx => by cases hx; exact ⟨hacc _ rfl, Or.inl rfl⟩,
              fun x hx => ⟨nt, rfl, by cases hx; exact le_rfl⟩, fun x hx hpos => ⟨nt, rfl, ?_⟩⟩
            cases hx
            by_contra hc
            exact h ⟨hpos, not_le.1 hc⟩
    obtain ⟨s1, s2, s3⟩ := hstep
    obtain ⟨i1, i2, i3⟩ := ih acc' (fun t ht => (s1 t ht).1)
    have eres : res = ws.foldl (fun n v => nearestStep n (rayEdgeIntersection o r v.1 v.2)) acc' := by
      rw [hacc']; rfl
    rw [eres]
    refine ⟨?_, ?_, ?_⟩
    · intro t ht
      obtain ⟨hp, h | ⟨w, hw, h⟩⟩ := i1 t ht
      · rcases (s1 t h).2 with h | h
        · exact ⟨hp, Or.inl h⟩
        · exact ⟨hp, Or.inr ⟨v, by simp, h⟩⟩
      · exact ⟨hp, Or.inr ⟨w, by simp [hw], h⟩⟩
    · intro t ht
      obtain ⟨t', h1, h2⟩ := s2 t ht
      obtain ⟨t'', h3, h4⟩ := i2 t' h1
      exact ⟨t'', h3, h4.trans h2⟩
    · intro w hw t ht hpos
      rcases List.mem_cons.1 hw with rfl | hw
      · obtain ⟨t', h1, h2⟩ := s3 t ht hpos
        obtain ⟨t'', h3, h4⟩ := i2 t' h1
        exact ⟨t'', h3, h4.trans h2⟩
      · exact i3 w hw t ht hpos

/-- C22: a returned point is on the line string and on the ray at a positive parameter `t`, and
every other visible hit has a parameter at least `t`. -/
theorem C22_closest_ray_hit (line : List (V2 K)) (r o p : V2 K) (hr : r ≠ ⟨0, 0⟩)
    (h : closestRayIntersection line r o = some p) :
    ∃ t, 0 < t ∧ p = rayPoint o r t ∧ OnPolyline line p ∧
      ∀ i a b t', line[i]? = some a → line[i + 1]? = some b → 0 < t' → VisibleHit o r a b t' → t ≤ t' := by
  unfold closestRayIntersection at h
  split_ifs at h
  obtain ⟨f1, -, f3⟩ := nearest_fold o r (windows2 line) none (by simp)
  generalize (windows2 line).foldl (fun n v => nearestStep n (rayEdgeIntersection o r v.1 v.2)) none =
    res at *
  rw [Option.map_eq_some_iff] at h
  obtain ⟨t, ht, hp⟩ := h
  have hp : p = rayPoint o r t := by
    rw [← hp]; simp only [exact_simp, rayPoint, V2.mk.injEq]
    exact ⟨by ring, by ring⟩
  obtain ⟨htpos, h | ⟨⟨a, b⟩, hv, hab⟩⟩ := f1 t ht
  · cases h
  refine ⟨t, htpos, hp, ?_, ?_⟩
  · obtain ⟨i, hi⟩ := List.mem_iff_getElem?.1 hv
    obtain ⟨ha, hb⟩ := (windows2_get line i a b).1 hi
    exact ⟨i, a, b, ha, hb, hp ▸ (rayEdge_spec o r a b hr).1 t hab⟩
  · intro i a' b' t' ha hb htp hvis
    obtain ⟨t2, h1, h2, h3⟩ := (rayEdge_spec o r a' b' hr).2 t' htp hvis
    obtain ⟨t3, h4, h5⟩ := f3 (a', b') (List.mem_of_getElem? ((windows2_get line i a' b').2 ⟨ha, hb⟩))
      t2 h1 h2
    rw [ht] at h4
    cases h4
    exact h5.trans h3

/-- C22: if nothing is returned there is no visible hit. -/
theorem C22_none (line : List (V2 K)) (r o : V2 K) (hr : r ≠ ⟨0, 0⟩)
    (h : closestRayIntersection line r o = none) (i : Nat) (a b : V2 K) (t : K)
    (ha : line[i]? = some a) (hb : line[i + 1]? = some b) (ht : 0 < t) : ¬ VisibleHit o r a b t := by
  intro hvis
  unfold closestRayIntersection at h
  rw [if_neg (by
    intro hc
    rw [List.getElem?_eq_none (by omega)] at hb
    cases hb)] at h
  obtain ⟨-, -, f3⟩ := nearest_fold o r (windows2 line) none (by simp)
  obtain ⟨t2, h1, h2, h3⟩ := (rayEdge_spec o r a b hr).2 t ht hvis
  obtain ⟨t3, h4, h5⟩ := f3 (a, b) (List.mem_of_getElem? ((windows2_get line i a b).2 ⟨ha, hb⟩)) t2 h1 h2
  rw [h4] at h
  cases h

/-- C22, the excluded case is real: a line string lying on the ray that starts behind the origin is
not seen at all, although the ray runs along it. -/
theorem C22_collinear_edge_behind_origin_is_invisible :
    closestRayIntersection [(⟨-1, 0⟩ : V2 ℚ), ⟨5, 0⟩] ⟨1, 0⟩ ⟨0, 0⟩ = none ∧
    closestRayIntersection [(⟨1, 0⟩ : V2 ℚ), ⟨5, 0⟩] ⟨1, 0⟩ ⟨0, 0⟩ = some ⟨1, 0⟩ := by
  constructor <;> decide +kernel

/-- the hypotheses of C22 are met -/
example : closestRayIntersection [(⟨3, -1⟩ : V2 ℚ), ⟨3, 1⟩, ⟨2, 1⟩, ⟨2, -2⟩] ⟨1, 0⟩ ⟨0, 0⟩ =
    some ⟨2, 0⟩ := by decide +kernel

/-- C23: `closest` of an overlap is one of its ends and neither end is nearer. -/
theorem C23_closest_overlap (a : Line2 K) (p : V2 K) :
    ((Intersection.overlap a).closest p = a.start ∨ (Intersection.overlap a).closest p = a.end) ∧
    sqDist2 p ((Intersection.overlap a).closest p) ≤ sqDist2 p a.start ∧
    sqDist2 p ((Intersection.overlap a).closest p) ≤ sqDist2 p a.end := by
  have e : ∀ q : V2 K, V2.distSq p q = sqDist2 p q := by
    intro q; simp only [exact_simp, sqDist2]; ring
  have e2 : (Intersection.overlap a).closest p =
      if sqDist2 p a.start < sqDist2 p a.end then a.start else a.end := by
    simp only [Intersection.closest, e, lt_decide, decide_eq_true_eq]
  rw [e2]
  split_ifs with h
  · exact ⟨Or.inl rfl, le_rfl, h.le⟩
  · exact ⟨Or.inr rfl, not_lt.1 h, le_rfl⟩

omit [Field K] [LinearOrder K] [ExactScalar K] in
/-- C23: `closest` and `single` of a point are that point; `single` of an overlap is its start. -/
theorem C23_single (q p : V2 K) (a : Line2 K) : (Intersection.point q).closest p = q ∧
    (Intersection.point q).single = q ∧ (Intersection.overlap a).single = a.start := ⟨rfl, rfl, rfl⟩

end rays

/-! ### self intersection of short lines -/
section self
variable {K : Type} [Scalar K] [Field K] [LinearOrder K] [ExactScalar K] [ExactSqrt K]

omit [Field K] [LinearOrder K] [ExactScalar K] [ExactSqrt K] in
/-- C24: for fewer than ten points there is always an answer, for at most two points it is “no”. -/
theorem C24_short_lines_answer (line : List (V2 K)) :
    (line.length < 10 → (isSelfIntersectingShort line).isSome) ∧
    (line.length ≤ 2 → isSelfIntersectingShort line = some false) := by
  unfold isSelfIntersectingShort
  constructor
  · intro h; split_ifs <;> rfl
  · intro h; rw [if_pos h]

omit [Field K] [LinearOrder K] [ExactScalar K] [ExactSqrt K] in
theorem selfShort_iff (line : List (V2 K)) (h3 : 2 < line.length) (h : line.length < 10) :
    isSelfIntersectingShort line = some true ↔
      (∃ i a b c, line[i]? = some a ∧ line[i + 1]? = some b ∧ line[i + 2]? = some c ∧
        (intersectionPoint3 a b c).isSome) ∨
      ∃ i j a b c d, i + 1 < j ∧ line[i]? = some a ∧ line[i + 1]? = some b ∧ line[j]? = some c ∧
        line[j + 1]? = some d ∧ nonAdjacentHit ⟨a, b⟩ ⟨c, d⟩ = true := by
  have hw : ∀ i (l : Line2 K), (windowIter2 line)[i]? = some l ↔
      line[i]? = some l.start ∧ line[i + 1]? = some l.end := by
    intro i l
    unfold windowIter2
    rw [List.getElem?_map, Option.map_eq_some_iff]
    constructor
    · rintro ⟨⟨a, b⟩, h1, rfl⟩; exact (windows2_get line i a b).1 h1
    · intro h1; exact ⟨(l.start, l.end), (windows2_get line i _ _).2 h1, rfl⟩
  have hlen : (windowIter2 line).length = line.length - 1 := by
    unfold windowIter2; rw [List.length_map, windows2_length]
  have hmem1 : ∀ (l : Line2 K) i, (l, i) ∈ (windowIter2 line).zipIdx.take ((windowIter2 line).length - 1) ↔
      (windowIter2 line)[i]? = some l ∧ i + 1 < (windowIter2 line).length := by
    intro l i
    rw [List.mem_iff_getElem?]
    constructor
    · rintro ⟨k, hk⟩
      rw [List.getElem?_take] at hk
      split_ifs at hk with hlt
      rw [List.getElem?_zipIdx, Option.map_eq_some_iff] at hk
      obtain ⟨x, hx, he⟩ := hk
      simp only [Prod.mk.injEq, Nat.zero_add] at he
      obtain ⟨rfl, rfl⟩ := he
      exact ⟨hx, by omega⟩
    · rintro ⟨h1, h2⟩
      refine ⟨i, ?_⟩
      rw [List.getElem?_take, if_pos (by omega), List.getElem?_zipIdx, h1]
      simp
  have hmem2 : ∀ (l : Line2 K) i k, (l, i) ∈ (windowIter2 line).zipIdx.drop (k + 1) ↔
      (windowIter2 line)[i]? = some l ∧ k < i := by
    intro l i k
    rw [List.mem_iff_getElem?]
    constructor
    · rintro ⟨n, hn⟩
      rw [List.getElem?_drop, List.getElem?_zipIdx, Option.map_eq_some_iff] at hn
      obtain ⟨x, hx, he⟩ := hn
      simp only [Prod.mk.injEq, Nat.zero_add] at he
      obtain ⟨rfl, rfl⟩ := he
      exact ⟨hx, by omega⟩
    · rintro ⟨h1, h2⟩
      refine ⟨i - (k + 1), ?_⟩
      have : k + 1 + (i - (k + 1)) = i := by omega
      rw [List.getElem?_drop, this, List.getElem?_zipIdx, h1]
      simp
  unfold isSelfIntersectingShort
  rw [if_neg (by omega), if_pos h]
  simp only [Option.some.injEq, List.any_eq_true]
  constructor
  · rintro ⟨⟨l0, i0⟩, hl0, ⟨l1, i1⟩, hl1, hh⟩
    rw [hmem1] at hl0
    rw [hmem2] at hl1
    simp only at hh
    rw [if_neg (by omega)] at hh
    split_ifs at hh with he
    · left
      subst he
      refine ⟨i0, l0.start, l0.end, l1.end, ((hw _ _).1 hl0.1).1, ((hw _ _).1 hl0.1).2, ?_, hh⟩
      exact ((hw _ _).1 hl1.1).2
    · right
      exact ⟨i0, i1, l0.start, l0.end, l1.start, l1.end, by omega, ((hw _ _).1 hl0.1).1,
        ((hw _ _).1 hl0.1).2, ((hw _ _).1 hl1.1).1, ((hw _ _).1 hl1.1).2, hh⟩
  · rintro (⟨i, a, b, c, ha, hb, hc, hh⟩ | ⟨i, j, a, b, c, d, hij, ha, hb, hc, hd, hh⟩)
    · have hi2 : i + 2 < line.length := by
        by_contra hcon
        rw [List.getElem?_eq_none (by omega)] at hc
        cases hc
      refine ⟨(⟨a, b⟩, i), (hmem1 _ _).2 ⟨(hw _ _).2 ⟨ha, hb⟩, by omega⟩, (⟨b, c⟩, i + 1),
        (hmem2 _ _ _).2 ⟨(hw _ _).2 ⟨hb, hc⟩, by omega⟩, ?_⟩
      simp only
      rw [if_neg (by omega), if_pos trivial]; exact hh
    · have hj2 : j + 1 < line.length := by
        by_contra hcon
        rw [List.getElem?_eq_none (by omega)] at hd
        cases hd
      refine ⟨(⟨a, b⟩, i), (hmem1 _ _).2 ⟨(hw _ _).2 ⟨ha, hb⟩, by omega⟩, (⟨c, d⟩, j),
        (hmem2 _ _ _).2 ⟨(hw _ _).2 ⟨hc, hd⟩, by omega⟩, ?_⟩
      simp only
      rw [if_neg (by omega), if_neg (by omega)]; exact hh

/-- C24: if two non-adjacent segments have exactly one common point and it is not an end point of
both of them, `is_self_intersecting` answers true. -/
theorem C24_detects_crossings (line : List (V2 K)) (h : line.length < 10) (i j : Nat)
    (a b c d p : V2 K) (hij : i + 1 < j) (ha : line[i]? = some a) (hb : line[i + 1]? = some b)
    (hc : line[j]? = some c) (hd : line[j + 1]? = some d)
    (hp : ∀ q, (OnSegment2 a b q ∧ OnSegment2 c d q) ↔ q = p)
    (hend : ¬ ((p = a ∨ p = b) ∧ (p = c ∨ p = d))) :
    isSelfIntersectingShort line = some true := by
  have h3 : 2 < line.length := by
    by_contra hcon
    rw [List.getElem?_eq_none (by omega)] at hd
    cases hd
  rw [selfShort_iff line h3 h]
  right
  refine ⟨i, j, a, b, c, d, hij, ha, hb, hc, hd, ?_⟩
  unfold nonAdjacentHit
  have hden := intersectionPoint_denotes (⟨a, b⟩ : Line2 K) ⟨c, d⟩
  cases hi : (Line2.mk a b).intersectionPoint ⟨c, d⟩ with
  | none =>
    rw [hi] at hden
    exact absurd ((hden p).2 ((hp p).2 rfl)) (by simp [Denotes])
  | some r =>
    rw [hi] at hden
    have hsingle : r.single = p := by
      apply (hp r.single).1
      apply (hden r.single).1
      cases r with
      | point q => rfl
      | overlap o => exact onSeg_start _ _
    simp only [hsingle, Bool.not_eq_true', ← Bool.not_eq_true, Bool.and_eq_true, Bool.or_eq_true, v2_ulps]
    exact hend

/-- C24: whenever the answer is true, two non-adjacent segments share a point that is not an end
point of both, or the three point test (`intersection_point3`) fired for two consecutive segments. -/
theorem C24_true_has_reason (line : List (V2 K)) (h : isSelfIntersectingShort line = some true) :
    (∃ i a b c, line[i]? = some a ∧ line[i + 1]? = some b ∧ line[i + 2]? = some c ∧
        (intersectionPoint3 a b c).isSome) ∨
    ∃ i j a b c d p, i + 1 < j ∧ line[i]? = some a ∧ line[i + 1]? = some b ∧ line[j]? = some c ∧
      line[j + 1]? = some d ∧ OnSegment2 a b p ∧ OnSegment2 c d p ∧
      ¬ ((p = a ∨ p = b) ∧ (p = c ∨ p = d)) := by
  have h3 : 2 < line.length ∧ line.length < 10 := by
    unfold isSelfIntersectingShort at h
    split_ifs at h with h1 h2
    · cases h
    · exact ⟨by omega, h2⟩
  rw [selfShort_iff line h3.1 h3.2] at h
  rcases h with h | ⟨i, j, a, b, c, d, hij, ha, hb, hc, hd, hh⟩
  · exact Or.inl h
  · right
    unfold nonAdjacentHit at hh
    have hden := intersectionPoint_denotes (⟨a, b⟩ : Line2 K) ⟨c, d⟩
    cases hi : (Line2.mk a b).intersectionPoint ⟨c, d⟩ with
    | none => rw [hi] at hh; cases hh
    | some r =>
      rw [hi] at hh hden
      simp only [Bool.not_eq_true', ← Bool.not_eq_true, Bool.and_eq_true, Bool.or_eq_true, v2_ulps] at hh
      have hs : OnSegment2 a b r.single ∧ OnSegment2 c d r.single := by
        apply (hden r.single).1
        cases r with
        | point q => rfl
        | overlap o => exact onSeg_start _ _
      exact ⟨i, j, a, b, c, d, r.single, hij, ha, hb, hc, hd, hs.1, hs.2, hh⟩

omit [ExactSqrt K] in
/-- C24: what the three point test decides. -/
theorem C24_three_point_test (s m e : V2 K) (h1 : m.y ≠ s.x) (h2 : m.y ≠ e.y) :
    (intersectionPoint3 s m e).isSome = true ↔ ThreePoint s m e := by
  have g1 : m.y - s.x ≠ 0 := sub_ne_zero.2 h1
  have g2 : m.y - e.y ≠ 0 := sub_ne_zero.2 h2
  unfold intersectionPoint3 ThreePoint
  simp only [exact_simp]
  have sh : (if (m.x - s.x) * (m.x - s.x) + (m.y - s.x) * (m.y - s.x) < (m.x - e.x) * (m.x - e.x) + (m.y - e.y) * (m.y - e.y)
      then some (Intersection.overlap ⟨s, m⟩) else some (Intersection.overlap ⟨m, e⟩)).isSome = true := by
    split_ifs <;> rfl
  generalize (if (m.x - s.x) * (m.x - s.x) + (m.y - s.x) * (m.y - s.x) < (m.x - e.x) * (m.x - e.x) + (m.y - e.y) * (m.y - e.y)
      then some (Intersection.overlap ⟨s, m⟩) else some (Intersection.overlap ⟨m, e⟩)) = S at sh
  simp only [sub_eq_zero, sub_neg, sub_nonneg, div_eq_div_iff g1 g2]
  split_ifs with c1 c2 c3 c4
  · simp only [Option.isSome_none, Bool.false_eq_true, false_iff]
    tauto
  · rw [sh]; tauto
  · simp only [Option.isSome_none, Bool.false_eq_true, false_iff]
    tauto
  · rw [sh]; tauto
  · simp only [Option.isSome_none, Bool.false_eq_true, false_iff]
    tauto

/-- C24, what does *not* hold: two non-adjacent segments that overlap in a whole segment can be
missed if the overlap begins at a shared end point (here (0,0)–(2,0) and (0,0)–(1,0)). -/
theorem C24_misses_overlaps : isSelfIntersectingShort
    [(⟨0, 0⟩ : V2 ℚ), ⟨2, 0⟩, ⟨1, 2⟩, ⟨0, 0⟩, ⟨1, 0⟩] = some false := by decide +kernel

/-- C24, what does *not* hold: a straight line is reported as self intersecting (three point test). -/
theorem C24_straight_line_reported : isSelfIntersectingShort
    [(⟨0, 0⟩ : V2 ℚ), ⟨1, 1⟩, ⟨2, 2⟩] = some true := by decide +kernel

/-- C24, what does *not* hold: because of the typo `middle.y() - start.x()` even a line with a
real corner is reported. -/
theorem C24_corner_reported : isSelfIntersectingShort
    [(⟨1, 0⟩ : V2 ℚ), ⟨2, 2⟩, ⟨3, 3⟩] = some true := by decide +kernel

/-- C24 is not vacuous: a crossing and a simple line -/
example : isSelfIntersectingShort [(⟨0, 0⟩ : V2 ℚ), ⟨4, 1⟩, ⟨4, 3⟩, ⟨1, -1⟩] = some true ∧
    isSelfIntersectingShort [(⟨0, 0⟩ : V2 ℚ), ⟨4, 1⟩, ⟨4, 3⟩, ⟨1, 5⟩] = some false := by
  constructor <;> decide +kernel

end self

/-! ### approximate equality -/
section approx
variable {α : Type}

/-- C53: reversing one of the lines does not change the comparison, if the scalar comparison is
transitive enough to make `start ≈ start'` and `start ≈ end'` imply the same for `end`; for an exact
comparison this is the undirected equality of the end points. -/
theorem C53_approx_exact (cmp : α → α → Bool) (hcmp : ∀ a b, cmp a b = true ↔ a = b) (a b : Line2 α) :
    a.approxEq cmp b = true ↔
      (a.start = b.start ∧ a.end = b.end) ∨ (a.start = b.end ∧ a.end = b.start) := by
  obtain ⟨⟨ax, ay⟩, ⟨bx, bY⟩⟩ := a
  obtain ⟨⟨cx, cy⟩, ⟨dx, dy⟩⟩ := b
  unfold Line2.approxEq
  simp only [V2.mk.injEq]
  split_ifs with h
  · simp only [Bool.and_eq_true, hcmp] at h ⊢
    obtain ⟨rfl, rfl⟩ := h
    constructor
    · intro h; exact Or.inl ⟨⟨rfl, rfl⟩, h⟩
    · rintro (h | ⟨⟨rfl, rfl⟩, rfl, rfl⟩)
      · exact h.2
      · exact ⟨rfl, rfl⟩
  · simp only [Bool.and_eq_true, hcmp] at h ⊢
    constructor
    · rintro ⟨⟨⟨h1, h2⟩, h3⟩, h4⟩; exact Or.inr ⟨⟨h1, h2⟩, h3, h4⟩
    · rintro (⟨h1, -⟩ | ⟨⟨h1, h2⟩, h3, h4⟩)
      · exact absurd h1 h
      · exact ⟨⟨⟨h1, h2⟩, h3⟩, h4⟩

/-- C53: the comparison ignores the direction of either line (exact scalar comparison). -/
theorem C53_approx_undirected (cmp : α → α → Bool) (hcmp : ∀ a b, cmp a b = true ↔ a = b)
    (a b : Line2 α) :
    a.approxEq cmp ⟨b.end, b.start⟩ = a.approxEq cmp b ∧
    (Line2.mk a.end a.start).approxEq cmp b = a.approxEq cmp b := by
  constructor <;> rw [Bool.eq_iff_iff, C53_approx_exact cmp hcmp, C53_approx_exact cmp hcmp] <;>
    simp only <;> tauto

/-- C53: reflexive whenever the scalar comparison is. -/
theorem C53_approx_refl (cmp : α → α → Bool) (hcmp : ∀ a, cmp a a = true) (a : Line2 α) :
    a.approxEq cmp a = true := by
  simp [Line2.approxEq, hcmp]

/-- C53: for *any* scalar comparison, a line compares equal to its reversal. -/
theorem C53_approx_reversed (cmp : α → α → Bool) (hcmp : ∀ a, cmp a a = true)
    (hsymm : ∀ a b, cmp a b = cmp b a) (a : Line2 α) :
    a.approxEq cmp ⟨a.end, a.start⟩ = true := by
  unfold Line2.approxEq
  simp only
  split_ifs with h
  · rw [hsymm a.end.x, hsymm a.end.y]; exact h
  · simp [hcmp]

/-- C53: with a tolerance the comparison is *not* invariant under reversal: with `|u - v| ≤ 1` the
lines `(0,0)–(2,0)` and `(1,0)–(-1,0)` compare unequal, but equal after reversing the second. -/
theorem C53_tolerance_depends_on_direction :
    let cmp : Int → Int → Bool := fun a b => decide (a - b ≤ 1 ∧ b - a ≤ 1)
    Line2.approxEq cmp ⟨⟨0, 0⟩, ⟨2, 0⟩⟩ ⟨⟨1, 0⟩, ⟨-1, 0⟩⟩ = false ∧
    Line2.approxEq cmp ⟨⟨0, 0⟩, ⟨2, 0⟩⟩ ⟨⟨-1, 0⟩, ⟨1, 0⟩⟩ = true := by decide

/-- C53: `==` on lines compares the starts with each other and the ends with each other, so it depends on
the direction; it is reflexive and symmetric if the comparison of numbers is. -/
theorem C53_line_equality [Scalar α] (a b : Line2 α) :
    (a.eq b = true ↔ Scalar.ulpsEq a.start.x b.start.x = true ∧ Scalar.ulpsEq a.start.y b.start.y = true ∧
      Scalar.ulpsEq a.end.x b.end.x = true ∧ Scalar.ulpsEq a.end.y b.end.y = true) ∧
    (a.eq b = true → a.approxEq Scalar.ulpsEq b = true) := by
  unfold Line2.eq Line2.approxEq
  simp only [Bool.and_eq_true]
  refine ⟨by tauto, ?_⟩
  rintro ⟨⟨⟨h1, h2⟩, h3⟩, h4⟩
  simp [h1, h2, h3, h4]

/-- C53: in exact arithmetic `==` on lines is equality, so a line equals its reversal only if it has
length zero. -/
theorem C53_line_equality_exact {K : Type} [Scalar K] [Field K] [LinearOrder K] [ExactScalar K] (a b : Line2 K) :
    (a.eq b = true ↔ a = b) ∧ (a.eq ⟨a.end, a.start⟩ = true ↔ a.start = a.end) := by
  obtain ⟨⟨ax, ay⟩, ⟨bx, bY⟩⟩ := a
  obtain ⟨⟨cx, cy⟩, ⟨dx, dy⟩⟩ := b
  simp only [Line2.eq, exact_simp, Bool.and_eq_true, decide_eq_true_iff, Line2.mk.injEq, V2.mk.injEq]
  constructor
  · tauto
  · constructor
    · tauto
    · rintro ⟨rfl, rfl⟩; simp

/-- C53: `Approx` on vectors holds iff the lengths agree and all points compare equal. -/
theorem C53_approx_vec {A : Type} (cmp : A → A → Bool) (a b : List A) :
    approxEqVec cmp a b = true ↔ a.length = b.length ∧
      ∀ (i : Nat) (x y : A), a[i]? = some x → b[i]? = some y → cmp x y = true := by
  unfold approxEqVec
  rw [Bool.and_eq_true, beq_iff_eq, List.all_eq_true]
  refine and_congr_right (fun hl => ?_)
  constructor
  · intro h i x y hx hy
    have : (x, y) ∈ a.zip b := by
      apply List.mem_of_getElem? (i := i)
      rw [List.getElem?_zip_eq_some]; exact ⟨hx, hy⟩
    exact h _ this
  · rintro h ⟨x, y⟩ hxy
    obtain ⟨i, hi⟩ := List.mem_iff_getElem?.1 hxy
    rw [List.getElem?_zip_eq_some] at hi
    exact h i x y hi.1 hi.2

end approx

end Verif.Props.Intersect
