import Verif.Props.Hull
import Verif.Props.GiftWrap
import Verif.Props.IndexedHull
/-!
# C36, C37, C38: short inputs and equal points
-/
namespace Verif.Props
open Verif Verif.Model Verif.Spec Verif.Hull Scalar

section
variable {K : Type} [Scalar K] [Field K] [LinearOrder K] [ExactScalar K]

/-- what the hull functions return for up to three points (a repetition of the first point at the end not counted):
three points are ordered counter clockwise, and nothing is closed -/
def smallHull (pts : List (V2 K)) : List (V2 K) :=
  match pts with
  | [a, b, c] => if 0 < orient a b c then [a, b, c] else [a, c, b]
  | l => l

theorem dropLoop_eq (input : List (V2 K)) :
    dropLoopPoint input = if input.head? = input.getLast? then input.tail else input := by
  cases input with
  | nil => rfl
  | cons a l =>
    unfold dropLoopPoint
    rw [List.head?_cons, List.getLast?_cons]
    simp only [beq_iff, Option.some.injEq]

theorem triangle3_eq (a b c : V2 K) : triangle3 a b c = smallHull [a, b, c] := by
  show (if isPointLeft a b c then [a, b, c] else [a, c, b]) = (if 0 < orient a b c then [a, b, c] else [a, c, b])
  by_cases h : 0 < orient a b c
  · rw [if_pos h, if_pos ((isPointLeft_iff a b c).2 h)]
  · rw [if_neg h, if_neg (fun h' => h ((isPointLeft_iff a b c).1 h'))]

/-- C36, C37, C38: the three hull functions on short inputs -/
theorem C36_short_inputs_all (srt : List (V2 K × K × K) → List (V2 K × K × K))
    (srt' : V2 K → List (V2 K) → Option (List (V2 K))) (fuel : Nat) (input pts : List (V2 K))
    (hp : pts = if input.head? = input.getLast? then input.tail else input) (h3 : pts.length ≤ 3) :
    grahamScan srt input = .ok (smallHull pts) ∧ lineConvexHull srt input = .ok (smallHull pts) ∧
    grahamScanWoAtan2 srt' input = .ok (smallHull pts) ∧ giftWrap fuel input = .ok (smallHull pts) := by
  have hd : dropLoopPoint input = pts := by rw [dropLoop_eq, hp]
  unfold lineConvexHull grahamScan grahamScanWoAtan2 giftWrap
  rw [hd]
  match pts, h3 with
  | [], _ => exact ⟨rfl, rfl, rfl, rfl⟩
  | [a], _ => exact ⟨rfl, rfl, rfl, rfl⟩
  | [a, b], _ => exact ⟨rfl, rfl, rfl, rfl⟩
  | [a, b, c], _ =>
    have := triangle3_eq a b c
    exact ⟨congrArg _ this, congrArg _ this, congrArg _ this, congrArg _ this⟩

theorem lowest_equal (get : ι → Except Err (V2 K)) (a : V2 K) : ∀ (l : List ι) (pos m : Nat), (∀ i ∈ l, get i = .ok a) →
    lowestLoop get l pos m a = .ok (m, a) := by
  intro l
  induction l with
  | nil => intro pos m _; rfl
  | cons i l ih =>
    intro pos m h
    have hx : Scalar.pcmp a.x a.x = some .eq := by
      rw [pcmp_ordered]; simp
    have hy : Scalar.lt a.y a.y = false := by
      rw [← Bool.not_eq_true, OrderedScalar.lt_iff]; exact lt_irrefl _
    simp only [lowestLoop, h i List.mem_cons_self, bind, Except.bind, hx, hy]
    exact ih _ _ (fun j hj => h j (List.mem_cons_of_mem _ hj))

omit [Field K] [LinearOrder K] [ExactScalar K] in
theorem graham_skip_all (get : ι → Except Err (V2 K)) (skip : ι → Bool) (hull : List ι) : ∀ l : List ι, (∀ i ∈ l, skip i = true) →
    grahamLoop get skip l hull = .ok hull := by
  intro l
  induction l with
  | nil => intro _; rfl
  | cons i l ih =>
    intro h
    rw [grahamLoop, if_pos (h i List.mem_cons_self)]
    exact ih (fun j hj => h j (List.mem_cons_of_mem _ hj))

theorem graham2_skip_all (a : V2 K) : ∀ l : List (V2 K), (∀ p ∈ l, p = a) → grahamLoop2 l [a] = .ok [a] := by
  intro l
  induction l with
  | nil => intro _; rfl
  | cons p l ih =>
    intro h
    have hb : a.beq p = true := (beq_iff a p).2 (h p List.mem_cons_self).symm
    simp only [grahamLoop2, popWhile, bind, Except.bind, hb, if_true]
    exact ih (fun j hj => h j (List.mem_cons_of_mem _ hj))

theorem giftStep_equal (get : Nat → Except Err (V2 K)) (a : V2 K) (n start p : Nat) (hget : ∀ j < n, get j = .ok a) (hp : p < n)
    (s : Nat × List Nat) (hs : s.1 < n) (j : Nat) (hj : j < n) :
    ∃ v, giftStep get start p s j = .ok (s.1, v) := by
  unfold giftStep
  split
  · exact ⟨s.2, rfl⟩
  · have ho : pointOrientation a a a = .collinear := by
      rw [pointOrientation_eq]; simp [orient]
    have hd : Scalar.gt (a.distSq a) (a.distSq a) = false := by
      rw [gt_decide]; simp
    simp only [hget p hp, hget s.1 hs, hget j hj, bind, Except.bind, ho, hd]
    by_cases h : (j != start) = true
    · exact ⟨_, by rw [if_neg (by simp), if_pos h]⟩
    · exact ⟨_, by rw [if_neg (by simp), if_neg h]⟩

theorem giftFold_equal (get : Nat → Except Err (V2 K)) (a : V2 K) (n start p : Nat) (hget : ∀ j < n, get j = .ok a) (hp : p < n) :
    ∀ (l : List Nat) (s : Nat × List Nat), s.1 < n → (∀ j ∈ l, j < n) →
    ∃ v, l.foldlM (giftStep get start p) s = .ok (s.1, v) := by
  intro l
  induction l with
  | nil => intro s _ _; exact ⟨s.2, rfl⟩
  | cons j l ih =>
    intro s hs hl
    obtain ⟨v, hv⟩ := giftStep_equal get a n start p hget hp s hs j (hl j List.mem_cons_self)
    obtain ⟨v', hv'⟩ := ih (s.1, v) hs (fun i hi => hl i (List.mem_cons_of_mem _ hi))
    refine ⟨v', ?_⟩
    rw [List.foldlM_cons, hv]
    exact hv'

theorem giftLoop_equal (get : Nat → Except Err (V2 K)) (a : V2 K) (n : Nat) (hget : ∀ j < n, get j = .ok a) :
    ∀ (fuel p : Nat) (visited hull : List Nat), p < n → n - p ≤ fuel →
    ∃ r, giftLoop get n 0 fuel p visited hull = .ok (hull.reverse ++ r) ∧ r.length = n - p ∧ ∀ j ∈ r, j < n := by
  intro fuel
  induction fuel with
  | zero => intro p _ _ h1 h2; omega
  | succ fuel ih =>
    intro p visited hull hp hf
    obtain ⟨v, hv⟩ := giftFold_equal get a n 0 p hget hp (List.range n) ((p + 1) % n, if (p != 0) = true then p :: visited else visited)
      (Nat.mod_lt _ (by omega)) (fun j hj => List.mem_range.1 hj)
    have hr : giftRound get n 0 p visited = .ok ((p + 1) % n, v) := hv
    rw [giftLoop]
    simp only [hr, bind, Except.bind]
    by_cases he : p + 1 = n
    · rw [he, Nat.mod_self]
      exact ⟨[p], by simp, by simp; omega, by simpa using hp⟩
    · have hm : (p + 1) % n = p + 1 := Nat.mod_eq_of_lt (by omega)
      rw [hm]
      have : ((p + 1 : Nat) == 0) = false := by simp
      simp only [this]
      obtain ⟨r, h1, h2, h3⟩ := ih (p + 1) v (p :: hull) (by omega) (by omega)
      refine ⟨p :: r, ?_, by simp; omega, by simpa using ⟨hp, h3⟩⟩
      rw [if_neg (by simp), h1]
      simp

/-- C36, C37, C38: equal points.  Up to four copies of a point give one copy less; of more, the Graham scans keep one
point, which is not closed, and gift wrapping keeps all of them. -/
theorem C36_equal_points (a : V2 K) (n : Nat) (srt : List (V2 K × K × K) → List (V2 K × K × K)) (hs : ∀ l, (srt l).Perm l)
    (srt' : V2 K → List (V2 K) → Option (List (V2 K))) (hs' : ∀ s l, ∃ r, srt' s l = some r ∧ r.Perm l)
    (fuel : Nat) (hf : n ≤ fuel) :
    grahamScan srt (List.replicate n a) = .ok (List.replicate (if n ≤ 4 then n - 1 else 1) a) ∧
    grahamScanWoAtan2 srt' (List.replicate n a) = .ok (List.replicate (if n ≤ 4 then n - 1 else 1) a) ∧
    giftWrap fuel (List.replicate n a) = .ok (List.replicate (if n ≤ 4 then n - 1 else n) a) := by
  have hd : dropLoopPoint (List.replicate n a) = List.replicate (n - 1) a := by
    rw [dropLoop_eq, if_pos, List.tail_replicate]
    cases n with
    | zero => rfl
    | succ n => rw [List.getLast?_replicate]; simp [List.replicate_succ]
  match n, hd with
  | 0, hd => exact ⟨by unfold grahamScan; rw [hd]; rfl, by unfold grahamScanWoAtan2; rw [hd]; rfl, by unfold giftWrap; rw [hd]; rfl⟩
  | 1, hd => exact ⟨by unfold grahamScan; rw [hd]; rfl, by unfold grahamScanWoAtan2; rw [hd]; rfl, by unfold giftWrap; rw [hd]; rfl⟩
  | 2, hd => exact ⟨by unfold grahamScan; rw [hd]; rfl, by unfold grahamScanWoAtan2; rw [hd]; rfl, by unfold giftWrap; rw [hd]; rfl⟩
  | 3, hd => exact ⟨by unfold grahamScan; rw [hd]; rfl, by unfold grahamScanWoAtan2; rw [hd]; rfl, by unfold giftWrap; rw [hd]; rfl⟩
  | 4, hd =>
    have ht : triangle3 a a a = [a, a, a] := by unfold triangle3; split <;> rfl
    exact ⟨by unfold grahamScan; rw [hd]; exact congrArg _ ht, by unfold grahamScanWoAtan2; rw [hd]; exact congrArg _ ht, by unfold giftWrap; rw [hd]; exact congrArg _ ht⟩
  | m + 5, hd =>
    have hd2 : dropLoopPoint (List.replicate (m + 5) a) = a :: a :: a :: a :: List.replicate m a := by
      rw [hd]; simp [List.replicate_succ]
    have hm : ∀ p ∈ a :: a :: a :: a :: List.replicate m a, p = a := by simp
    have hlow : findLowest false getPoint (a :: a :: a :: a :: List.replicate m a) = .ok (0, a) := by
      unfold findLowest
      exact lowest_equal getPoint a _ 1 0 (fun i hi => by
        rw [hm i (List.mem_cons_of_mem _ hi)]; rfl)
    have h5 : ¬ m + 5 ≤ 4 := by omega
    simp only [h5, if_false]
    refine ⟨?_, ?_, ?_⟩
    · unfold grahamScan
      rw [hd2]
      simp only [hlow, bind, Except.bind]
      rw [graham_skip_all]
      · rfl
      · intro i hi
        obtain ⟨e, he, rfl⟩ := List.mem_map.1 hi
        have he := (hs _).mem_iff.1 he
        obtain ⟨p, hp, rfl⟩ := List.mem_map.1 he
        rw [beq_iff]
        exact hm p hp
    · unfold grahamScanWoAtan2
      rw [hd2]
      simp only [hlow, bind, Except.bind]
      obtain ⟨r, hr, hperm⟩ := hs' a (a :: a :: a :: a :: List.replicate m a)
      rw [hr]
      simp only
      rw [graham2_skip_all a r (fun p hp => hm p (hperm.mem_iff.1 hp))]
      simp [isConnected2, (beq_iff a a).2 rfl]
    · unfold giftWrap
      rw [hd2]
      simp only [hlow, bind, Except.bind]
      obtain ⟨pts, hpts⟩ : ∃ pts, pts = a :: a :: a :: a :: List.replicate m a := ⟨_, rfl⟩
      rw [← hpts] at hm ⊢
      have hlen : pts.length = m + 4 := by rw [hpts]; simp
      have hget : ∀ j < pts.length, idx pts j = .ok a := by
        intro j hj
        simp only [idx, List.getElem?_eq_getElem hj]
        rw [hm _ (List.getElem_mem hj)]
      obtain ⟨r, h1, h2, h3⟩ := giftLoop_equal (idx pts) a pts.length hget fuel 0 [] [] (by omega) (by omega)
      rw [h1]
      simp only
      have hall : ∀ l : List Nat, (∀ j ∈ l, j < pts.length) → l.mapM (idx pts) = .ok (List.replicate l.length a) := by
        intro l
        induction l with
        | nil => intro _; rfl
        | cons j l ih =>
          intro h
          rw [List.mapM_cons, hget j (h j List.mem_cons_self), ih (fun i hi => h i (List.mem_cons_of_mem _ hi))]
          rfl
      rw [hall]
      · simp [h2, hlen]
      · intro j hj
        simp at hj
        rcases hj with hj | rfl
        · exact h3 j hj
        · omega
end

/-- C40: the indexed functions on short lists of indices: unlike the functions on points they close the loop of two or three
indices; a single index that is given twice counts once. -/
theorem C40_short_inputs {K : Type} [Scalar K] [Field K] [LinearOrder K] [ExactScalar K] (srt : List (Nat × K × K) → List (Nat × K × K))
    (fuel : Nat) (vertices : List (V2 K)) (pt : Nat → V2 K) (i j k : Nat)
    (hi : vertices[i]? = some (pt i)) (hj : vertices[j]? = some (pt j)) (hk : vertices[k]? = some (pt k)) :
    (∀ F ∈ [indexedGrahamScan srt vertices, indexedGiftWrap fuel vertices],
      F [] = .ok [] ∧ F [i] = .ok [i] ∧ F [i, i] = .ok [i] ∧
      (i ≠ j → F [i, j] = .ok [i, j, i] ∧ F [i, j, i] = .ok [i, j, i]) ∧
      (i ≠ k → F [i, j, k] = .ok (if 0 < orient (pt i) (pt j) (pt k) then [i, j, k, i] else [i, k, j, i])) ∧
      F [i, j, k, i] = .ok (if 0 < orient (pt i) (pt j) (pt k) then [i, j, k, i] else [i, k, j, i])) := by
  have h3 : (do
        let pa ← idx vertices i
        let pb ← idx vertices j
        let pc ← idx vertices k
        if isPointLeft pa pb pc then .ok [i, j, k] else .ok [i, k, j] : Except Err (List Nat)) =
      .ok (if 0 < orient (pt i) (pt j) (pt k) then [i, j, k] else [i, k, j]) := by
    simp only [idx, hi, hj, hk, bind, Except.bind]
    by_cases h : 0 < orient (pt i) (pt j) (pt k)
    · rw [if_pos h, if_pos ((isPointLeft_iff _ _ _).2 h)]
    · rw [if_neg h, if_neg (fun h' => h ((isPointLeft_iff _ _ _).1 h'))]
  have hc : closeLoop (if 0 < orient (pt i) (pt j) (pt k) then [i, j, k] else [i, k, j]) =
      if 0 < orient (pt i) (pt j) (pt k) then [i, j, k, i] else [i, k, j, i] := by split <;> rfl
  have hF : ∀ F ∈ [indexedGrahamScan srt vertices, indexedGiftWrap fuel vertices], ∀ l r, indexedShort vertices l = .inl (.ok r) →
      F l = .ok (closeLoop r) := by
    intro F hF l r h
    simp only [List.mem_cons, List.not_mem_nil, or_false] at hF
    rcases hF with rfl | rfl
    · simp only [indexedGrahamScan, indexedGrahamNoLoop, h]; rfl
    · simp only [indexedGiftWrap, indexedGiftNoLoop, h]; rfl
  intro F hm
  have s1 : indexedShort vertices [i, i] = .inl (.ok [i]) := by simp [indexedShort, openIndices]
  have s5 : indexedShort vertices [i, j, k, i] = .inl (.ok (if 0 < orient (pt i) (pt j) (pt k) then [i, j, k] else [i, k, j])) := by
    rw [← h3]
    simp [indexedShort, openIndices]
  refine ⟨hF F hm _ [] rfl, hF F hm _ [i] rfl, hF F hm _ [i] s1, fun h => ⟨?_, ?_⟩, fun h => ?_, ?_⟩
  · exact hF F hm _ [i, j] (by simp [indexedShort, openIndices, h])
  · exact hF F hm _ [i, j] (by simp [indexedShort, openIndices])
  · rw [← hc]
    refine hF F hm _ _ ?_
    rw [← h3]
    simp [indexedShort, openIndices, h]
  · rw [← hc]; exact hF F hm _ _ s5

/-- the sort hypotheses can be met by `id` -/
example : (∀ l : List (V2 ℚ × ℚ × ℚ), (id l).Perm l) ∧ ∀ (s : V2 ℚ) (l : List (V2 ℚ)), ∃ r, (fun _ l => some l : V2 ℚ → List (V2 ℚ) → Option (List (V2 ℚ))) s l = some r ∧ r.Perm l :=
  ⟨fun l => List.Perm.refl l, fun _ l => ⟨l, rfl, List.Perm.refl l⟩⟩
end Verif.Props
