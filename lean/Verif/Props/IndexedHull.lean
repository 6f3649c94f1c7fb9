import Verif.Props.GiftWrap
/-!
# C40: indexed hulls
-/
set_option linter.unusedSectionVars false
set_option linter.unusedVariables false
set_option linter.unusedSimpArgs false
namespace Verif.Props
open Verif Verif.Spec Verif.Model Verif.Hull

section
variable {α : Type} [Scalar α]

theorem indexedShort_long (vertices : List (V2 α)) (indices : List Nat) (h : 4 ≤ (openIndices indices).length) :
    indexedShort vertices indices = .inr (openIndices indices) := by
  have hl : ¬ indices.length ≤ 1 := by
    intro hc
    have : (openIndices indices).length ≤ indices.length := by
      unfold openIndices; split <;> simp
    omega
  unfold indexedShort
  rw [if_neg hl]
  generalize openIndices indices = l at *
  match l, h with
  | a :: b :: c :: d :: l, _ => rfl

theorem openIndices_length (indices : List Nat) (h4 : 4 ≤ indices.length)
    (h5 : indices.head? = indices.getLast? → 5 ≤ indices.length) : 4 ≤ (openIndices indices).length := by
  unfold openIndices
  split
  · rename_i h
    have := h5 h
    simp; omega
  · exact h4

theorem openIndices_mem (indices : List Nat) (h4 : 4 ≤ indices.length) (i : Nat) :
    i ∈ openIndices indices ↔ i ∈ indices := by
  unfold openIndices
  split
  · rename_i h
    refine ⟨fun hi => List.dropLast_subset _ hi, fun hi => ?_⟩
    have hne : indices ≠ [] := by rintro rfl; simp at h4
    have e := List.dropLast_append_getLast hne
    rw [← e, List.mem_append, List.mem_singleton] at hi
    rcases hi with hi | hi
    · exact hi
    · rw [List.getLast?_eq_some_getLast hne, ← hi] at h
      match indices, h4, h with
      | a :: b :: l, _, h =>
        simp only [List.head?_cons, Option.some_inj] at h
        rw [← h]; simp
  · rfl

theorem openIndices_sub (indices : List Nat) : (∀ i ∈ openIndices indices, i ∈ indices) ∧
    (openIndices indices).length ≤ indices.length := by
  unfold openIndices
  split
  · exact ⟨fun i hi => List.dropLast_subset _ hi, by simp⟩
  · exact ⟨fun i hi => hi, le_refl _⟩
end

section
variable {K : Type} [Scalar K] [Field K] [LinearOrder K] [ExactScalar K]

theorem IsHullLoop.congr {pts pts' hull : List (V2 K)} (h : IsHullLoop pts hull) (hm : ∀ p, p ∈ pts ↔ p ∈ pts') :
    IsHullLoop pts' hull :=
  ⟨h.len, h.closed, fun v hv => (hm v).1 (h.vertices v hv), h.once,
    fun i a b h1 h2 p hp => h.left i a b h1 h2 p ((hm p).2 hp), h.turn, h.turnClosing,
    fun a b c e p hp => h.flat a b c e p ((hm p).2 hp)⟩

theorem mapM_ok {A B : Type} (f : A → Except Err B) (g : A → B) : ∀ (l : List A), (∀ a ∈ l, f a = .ok (g a)) →
    l.mapM f = .ok (l.map g) := by
  intro l
  induction l with
  | nil => intro _; rfl
  | cons a l ih =>
    intro h
    rw [List.mapM_cons, h a List.mem_cons_self, ih (fun b hb => h b (List.mem_cons_of_mem _ hb))]
    rfl

theorem openIndices_self {is : List Nat} (hn : is.Nodup) (h2 : 2 ≤ is.length) : openIndices is = is := by
  unfold openIndices
  rw [if_neg]
  intro h
  match is, h2, hn, h with
  | a :: b :: l, _, hn, h =>
    rw [List.head?_cons, List.getLast?_cons_cons] at h
    have : a ∈ b :: l := List.mem_of_getLast? h.symm
    exact (List.nodup_cons.1 hn).1 this

/-- the scan without the closing index: what it starts with, and that closing it gives the hull -/
theorem indexedGrahamNoLoop_core [ExactAtan2 K] (srt : List (Nat × K × K) → List (Nat × K × K))
    (hsrt : Sorts angleCmp srt) (vertices : List (V2 K)) (indices is : List Nat) (pt : Nat → V2 K)
    (hshort : indexedShort vertices indices = .inr is) (h0 : is ≠ [])
    (hget : ∀ i ∈ is, idx vertices i = .ok (pt i))
    (hdiff : ∀ i ∈ is, ∀ j ∈ is, pt i = pt j → i = j) (hne : ∃ i ∈ is, ∃ j ∈ is, i ≠ j) :
    ∃ k s h, vertices.isEmpty = false ∧ findLowest false (idx vertices) is = .ok (k, pt s) ∧ is[k]? = some s ∧
      indexedGrahamNoLoop srt vertices indices none = .ok h ∧ h.head? = some s ∧ 2 ≤ h.length ∧
      (∀ i ∈ h, i ∈ is) ∧ IsHullLoop (is.map pt) ((h ++ [s]).map pt) ∧
      ∀ j ∈ is, pt j = pt s ∨ LexLt (pt s) (pt j) := by
  obtain ⟨k, s, e1, e2, e3⟩ := findLowest_ok (idx vertices) pt is h0 hget
  have hs : s ∈ is := List.mem_of_getElem? e2
  have hv : vertices.isEmpty = false := by
    have := hget s hs
    cases vertices with
    | nil => simp [idx] at this
    | cons => rfl
  obtain ⟨st, g1, g2, g3⟩ := graham_core (idx vertices) pt (fun i => i == s) is s srt hsrt hget hs e3 (by
    intro j hj
    rw [beq_iff_eq]
    exact ⟨fun e => by rw [e], hdiff j hj s hs⟩)
  obtain ⟨hh, hlen, hhead⟩ := g3 (by
    obtain ⟨i, hi, j, hj, hij⟩ := hne
    by_cases e : i = s
    · refine ⟨j, hj, fun e' => hij ?_⟩
      rw [e, hdiff j hj s hs e']
    · exact ⟨i, hi, fun e' => e (hdiff i hi s hs e')⟩)
  have hent : is.mapM (fun i => do
      let p ← idx vertices i
      (.ok (angleEntry (pt s) i p) : Except Err (Nat × K × K))) = .ok (is.map fun i => angleEntry (pt s) i (pt i)) :=
    mapM_ok _ _ is (fun i hi => by rw [hget i hi]; rfl)
  have hk : idx is k = .ok s := by simp [idx, e2]
  have hhd : st.reverse.head? = some s := by
    cases h : st.reverse.head? with
    | none => rw [h] at hhead; simp at hhead
    | some q =>
      rw [h] at hhead
      simp only [Option.map_some, Option.some_inj] at hhead
      have hq : q ∈ st := List.mem_reverse.1 (List.mem_of_mem_head? h)
      rw [hdiff q (g2 q hq) s hs hhead]
  refine ⟨k, s, st.reverse, hv, e1, e2, ?_, hhd, by simpa using hlen, fun i hi => g2 i (List.mem_reverse.1 hi),
    by simpa using hh, e3⟩
  unfold indexedGrahamNoLoop
  rw [hshort]
  simp only
  rw [hv, e1]
  simp only [bind, Except.bind]
  rw [hk]
  simp only
  have hent' := hent
  simp only [bind, Except.bind] at hent'
  rw [hent']
  simp only
  rw [g1]

/-- the indexed Graham scan, if different indices mean different points -/
theorem C40_indexed_graham_scan_is_hull [ExactAtan2 K] (srt : List (Nat × K × K) → List (Nat × K × K))
    (hsrt : Sorts angleCmp srt) (vertices : List (V2 K)) (indices : List Nat) (pt : Nat → V2 K)
    (hpt : ∀ i ∈ indices, vertices[i]? = some (pt i)) (h4 : 4 ≤ indices.length)
    (h5 : indices.head? = indices.getLast? → 5 ≤ indices.length)
    (hdiff : ∀ i ∈ indices, ∀ j ∈ indices, pt i = pt j → i = j) (hne : ∃ i ∈ indices, ∃ j ∈ indices, i ≠ j) :
    ∃ hull, indexedGrahamScan srt vertices indices = .ok hull ∧ (∀ i ∈ hull, i ∈ indices) ∧
      IsHullLoop (indices.map pt) (hull.map pt) ∧ StartsLowest (indices.map pt) (hull.map pt) := by
  have hl := openIndices_length indices h4 h5
  have hmem := openIndices_mem indices h4
  obtain ⟨k, s, h, -, -, e2, hn, hhd, hlen, hsub, hh, hlow⟩ := indexedGrahamNoLoop_core srt hsrt vertices indices
    (openIndices indices) pt (indexedShort_long vertices indices hl) (by intro e; rw [e] at hl; simp at hl)
    (fun i hi => by simp [idx, hpt i ((hmem i).1 hi)])
    (fun i hi j hj => hdiff i ((hmem i).1 hi) j ((hmem j).1 hj))
    (by obtain ⟨i, hi, j, hj, hij⟩ := hne; exact ⟨i, (hmem i).2 hi, j, (hmem j).2 hj, hij⟩)
  unfold indexedGrahamScan
  rw [hn]
  simp only [Except.map, closeLoop]
  rw [if_pos (by omega), hhd]
  refine ⟨_, rfl, ?_, ?_⟩
  · intro i hi
    simp only [Option.toList_some, List.mem_append, List.mem_singleton] at hi
    rcases hi with hi | rfl
    · exact (hmem i).1 (hsub i hi)
    · exact (hmem i).1 (List.mem_of_getElem? e2)
  · have hh' : IsHullLoop (indices.map pt) ((h ++ [s]).map pt) := by
      refine IsHullLoop.congr (pts := (openIndices indices).map pt) hh (fun p => ?_)
      simp only [List.mem_map, hmem]
    refine ⟨hh', startsLowest_of (s := pt s) hh'.closed (by simp) (fun p hp => ?_)⟩
    obtain ⟨j, hj, rfl⟩ := List.mem_map.1 hp
    exact hlow j ((hmem j).2 hj)

/-- the indexed gift wrapping, for different points -/
theorem C40_indexed_gift_wrap_is_hull (vertices : List (V2 K)) (indices : List Nat) (pt : Nat → V2 K)
    (hpt : ∀ i ∈ indices, vertices[i]? = some (pt i)) (h4 : 4 ≤ indices.length)
    (h5 : indices.head? = indices.getLast? → 5 ≤ indices.length)
    (hdiff : ∀ i ∈ indices, ∀ j ∈ indices, pt i = pt j → i = j)
    (hnd : indices.dropLast.Nodup) (hnd2 : indices.head? ≠ indices.getLast? → indices.Nodup)
    (fuel : Nat) (hf : (indices.length + 1) * (indices.length + 1) < fuel) :
    ∃ hull, indexedGiftWrap fuel vertices indices = .ok hull ∧ (∀ i ∈ hull, i ∈ indices) ∧
      IsHullLoop (indices.map pt) (hull.map pt) ∧ StartsLowest (indices.map pt) (hull.map pt) := by
  have hl := openIndices_length indices h4 h5
  have hmem := openIndices_mem indices h4
  have hsub := openIndices_sub indices
  have hn : (openIndices indices).Nodup := by
    unfold openIndices
    split
    · exact hnd
    · rename_i h; exact hnd2 h
  unfold indexedGiftWrap indexedGiftNoLoop
  rw [indexedShort_long vertices indices hl]
  generalize openIndices indices = is at *
  have hget0 : ∀ i ∈ is, idx vertices i = .ok (pt i) := by
    intro i hi
    simp [idx, hpt i ((hmem i).1 hi)]
  obtain ⟨k, s, e1, e2, e3⟩ := findLowest_ok (idx vertices) pt is (by rintro rfl; simp at hl) hget0
  obtain ⟨hk, rfl⟩ := List.getElem?_eq_some_iff.1 e2
  have hv : vertices.isEmpty = false := by
    have := hpt is[k] ((hmem _).1 (List.getElem_mem hk))
    cases vertices with
    | nil => simp at this
    | cons => rfl
  have hjm : ∀ j (hj : j < is.length), is.getD j 0 = is[j] := by
    intro j hj; simp [hj]
  have hget : ∀ j < is.length, (fun j => do idx vertices (← idx is j)) j = .ok ((fun j => pt (is.getD j 0)) j) := by
    intro j hj
    have : idx is j = .ok is[j] := by simp [idx, hj]
    simp only [this, bind, Except.bind, hjm j hj]
    exact hget0 _ (List.getElem_mem hj)
  have hinj : ∀ i < is.length, ∀ j < is.length, (fun j => pt (is.getD j 0)) i = (fun j => pt (is.getD j 0)) j → i = j := by
    intro i hi j hj e
    simp only [hjm i hi, hjm j hj] at e
    have := hdiff _ ((hmem _).1 (List.getElem_mem hi)) _ ((hmem _).1 (List.getElem_mem hj)) e
    exact (List.Nodup.getElem_inj_iff hn).1 this
  have hmap : (List.range is.length).map (fun j => pt (is.getD j 0)) = is.map pt := by
    have := congrArg (List.map pt) (range_map_getD is 0)
    simpa [List.map_map, Function.comp_def] using this
  obtain ⟨r, hr, hr2, hrne⟩ := giftLoop_terminates _ is.length (fun j hj => ⟨_, hget j hj⟩) k hk fuel k [] [] hk
    (by simp) (by simp) (fun _ => rfl) (by simp) (by
      rw [if_pos rfl]
      have := Nat.mul_le_mul (Nat.succ_le_succ hsub.2) (Nat.succ_le_succ hsub.2)
      simp only [Nat.succ_eq_add_one] at this
      omega)
  have hull := giftLoop_exact _ _ is.length (by omega) hget hinj k hk (fun j hj => by
      simp only [hjm j hj, hjm k hk]
      exact e3 _ (List.getElem_mem hj)) fuel k [] [] r hk (by simp) (by simp) (Or.inl ⟨rfl, rfl⟩) hr
  rw [hmap] at hull
  simp only
  rw [hv, e1]
  simp only [bind, Except.bind] at hr ⊢
  rw [hr]
  simp only
  rw [map_mapM_idx is 0 r hr2]
  have hlen : 1 < r.length := by
    have := hull.1.len
    simp at this
    omega
  simp only [Except.map, closeLoop, List.length_map]
  rw [if_pos hlen, List.head?_map, hull.2]
  refine ⟨_, rfl, ?_, ?_⟩
  · intro i hi
    simp only [Option.map_some, Option.toList_some, List.mem_append, List.mem_map, List.mem_singleton] at hi
    rcases hi with ⟨j, hj, rfl⟩ | rfl
    · rw [hjm j (hr2 j hj)]; exact (hmem _).1 (List.getElem_mem _)
    · rw [hjm k hk]; exact (hmem _).1 (List.getElem_mem _)
  · have : IsHullLoop (is.map pt) ((r.map (fun j => is.getD j 0) ++ [is.getD k 0]).map pt) := by
      have := hull.1
      simpa [List.map_map, Function.comp_def] using this
    have hh' : IsHullLoop (indices.map pt) ((r.map (fun j => is.getD j 0) ++ [is.getD k 0]).map pt) := by
      refine IsHullLoop.congr this (fun p => ?_)
      simp only [List.mem_map, hmem]
    refine ⟨hh', startsLowest_of (s := pt is[k]) hh'.closed (by simp [hk]) (fun p hp => ?_)⟩
    obtain ⟨j, hj, rfl⟩ := List.mem_map.1 hp
    exact e3 j ((hmem j).2 hj)
end

/-- the hypotheses of the theorems of C40 are met -/
example : (fun (vertices : List (V2 ℚ)) (indices : List Nat) (pt : Nat → V2 ℚ) =>
    (∀ i ∈ indices, vertices[i]? = some (pt i)) ∧ 4 ≤ indices.length ∧
    (indices.head? = indices.getLast? → 5 ≤ indices.length) ∧
    (∀ i ∈ indices, ∀ j ∈ indices, pt i = pt j → i = j) ∧ indices.dropLast.Nodup ∧
    (indices.head? ≠ indices.getLast? → indices.Nodup) ∧
    indexedGiftWrap 100 vertices indices = .ok [0, 2, 3, 4, 0])
    [⟨0, 0⟩, ⟨1, 1⟩, ⟨2, 0⟩, ⟨2, 2⟩, ⟨0, 2⟩, ⟨7, 0⟩] [4, 3, 2, 1, 0, 4]
    (fun i => [⟨0, 0⟩, ⟨1, 1⟩, ⟨2, 0⟩, ⟨2, 2⟩, ⟨0, 2⟩, ⟨7, 0⟩].getD i ⟨0, 0⟩) := by
  decide +kernel

/-- insertion sort, for evaluation -/
def insSort {A : Type} (le : A → A → Bool) : List A → List A
  | [] => []
  | a :: l => insertInto a (insSort le l)
where
  insertInto (a : A) : List A → List A
    | [] => [a]
    | b :: l => if le a b then a :: b :: l else b :: insertInto a l

/-- if the start point occurs under two indices, the indexed Graham scan can lose a vertex of the hull -/
theorem C40_duplicate_start_loses_points :
    indexedGrahamScan (insSort (fun a b => angleCmp a b != .gt))
      ([⟨0, 0⟩, ⟨1, -1⟩, ⟨2, 0⟩, ⟨1, 1⟩, ⟨0, 0⟩] : List (V2 ℚ)) [0, 1, 2, 3, 4] = .ok [0, 2, 3, 0] ∧
    orient (⟨0, 0⟩ : V2 ℚ) ⟨2, 0⟩ ⟨1, -1⟩ < 0 := by
  decide +kernel

end Verif.Props
