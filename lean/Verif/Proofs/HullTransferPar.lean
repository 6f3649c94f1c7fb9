import Verif.Proofs.HullTransfer
/-!
# The parallel hull only looks at its points through the tests of `Agree`
-/
namespace Verif.Proofs.Transfer
open Verif Verif.Model Scalar
variable {α β : Type} [Scalar α] [Scalar β] {S : V2 α → Prop} {φ : V2 α → V2 β}
set_option linter.unusedVariables false
set_option linter.unusedSectionVars false

theorem combineScan_eq (H : Agree S φ) {pts : List (V2 α)} (hS : ∀ p ∈ pts, S p) (p : VertexIndex) :
    ∀ (l : List Nat) (jj : Nat) (e : VertexIndex) (found : Bool),
      combineScan (pts.map φ) p l jj e found = combineScan pts p l jj e found
  | [], _, _, _ => rfl
  | j :: l, jj, e, found => by
    have R := related_idx (φ := φ) hS
    unfold combineScan
    split
    · exact combineScan_eq H hS p l _ _ _
    · rcases R.look p.index with ⟨e, h1, h2⟩ | ⟨pp, hp, h1, h2⟩
      · rw [h1, h2]; rfl
      rcases R.look e.index with ⟨e, h3, h4⟩ | ⟨pe, he, h3, h4⟩
      · rw [h1, h2, h3, h4]; rfl
      rcases R.look j with ⟨e, h5, h6⟩ | ⟨pj, hj, h5, h6⟩
      · rw [h1, h2, h3, h4, h5, h6]; rfl
      rw [h1, h2, h3, h4, h5, h6]
      simp only [bind, Except.bind]
      rw [H.orient pp pe pj hp he hj, H.far pp pe pj hp he hj]
      cases pointOrientation pp pe pj with
      | right => exact combineScan_eq H hS p l _ _ _
      | collinear =>
        simp only
        split
        · exact combineScan_eq H hS p l _ _ _
        · exact combineScan_eq H hS p l _ _ _
      | left =>
        simp only
        split
        · rfl
        · exact combineScan_eq H hS p l _ _ _

theorem combineLoop_eq (H : Agree S φ) {pts : List (V2 α)} (hS : ∀ p ∈ pts, S p) (a b : List Nat) (start : Nat) :
    ∀ (fuel : Nat) (p : VertexIndex) (hull : List Nat),
      combineLoop (pts.map φ) a b start fuel p hull = combineLoop pts a b start fuel p hull
  | 0, _, _ => rfl
  | fuel + 1, p, hull => by
    unfold combineLoop
    simp only [bind, Except.bind]
    cases combineFirst (if p.fromA = true then a else b) (if p.fromA = true then b else a) p with
    | error e => rfl
    | ok e =>
      simp only
      rw [combineScan_eq H hS]
      cases combineScan pts p (if p.fromA = true then b else a) 0 e false with
      | error e => rfl
      | ok e =>
        simp only
        split
        · rfl
        · exact combineLoop_eq H hS a b start fuel e _

theorem combineHulls_eq (H : Agree S φ) {pts : List (V2 α)} (hS : ∀ p ∈ pts, S p) (fuel : Nat)
    (ra rb : Except Err (List Nat)) : combineHulls fuel (pts.map φ) ra rb = combineHulls fuel pts ra rb := by
  unfold combineHulls
  cases ra with
  | error e => rfl
  | ok a =>
    cases rb with
    | error e => rfl
    | ok b =>
      simp only [bind, Except.bind]
      match a, b with
      | [], b => rfl
      | s :: a, [] => rfl
      | s :: a, t :: b => exact combineLoop_eq H hS _ _ s fuel _ _

theorem combineOp_eq (H : Agree S φ) {pts : List (V2 α)} (hS : ∀ p ∈ pts, S p) (fuel : Nat) :
    combineOp fuel (pts.map φ) = combineOp fuel pts := by
  funext ra rb
  unfold combineOp
  cases ra with
  | error e => rfl
  | ok a => exact combineHulls_eq H hS fuel _ _

theorem parStart_eq (H : Agree S φ) {pts : List (V2 α)} (hS : ∀ p ∈ pts, S p) (chunks : List (List Nat)) :
    parStart (pts.map φ) chunks = parStart pts chunks := by
  have low : ∀ is : List Nat, findLowest pts.isEmpty (idx (pts.map φ)) is =
      (findLowest pts.isEmpty (idx pts) is).map (fun r => (r.1, φ r.2)) := by
    intro is
    have := (findLowest_eq (get := idx pts) (get' := idx (pts.map φ)) (g := id) H pts.isEmpty is
      (fun i _ => related_idx hS i)).1
    rwa [List.map_id] at this
  unfold parStart
  simp only [List.isEmpty_map]
  have e : (fun chunk : List Nat => (do
      let (ii, _) ← findLowest pts.isEmpty (idx (pts.map φ)) chunk
      idx chunk ii : Except Err Nat)) = fun chunk : List Nat => (do
      let (ii, _) ← findLowest pts.isEmpty (idx pts) chunk
      idx chunk ii : Except Err Nat) := by
    funext c
    rw [low]
    cases findLowest pts.isEmpty (idx pts) c with
    | error e => rfl
    | ok r => rfl
  rw [e]

theorem openIndices_mem' {is : List Nat} {i : Nat} (h : i ∈ openIndices is) : i ∈ is := by
  unfold openIndices at h
  split at h
  · exact List.dropLast_subset _ h
  · exact h

theorem indexedShort_mem {pts : List (V2 α)} {is js : List Nat} (h : indexedShort pts is = .inr js) :
    js = openIndices is := by
  unfold indexedShort at h
  split at h
  · cases h
  · generalize openIndices is = ks at *
    match ks, h with
    | [], h => cases h
    | [a], h => cases h
    | [a, b], h => cases h
    | [a, b, c], h => cases h
    | a :: b :: c :: d :: r, h => exact (Sum.inr.inj h).symm

theorem chunksOf_mem {A : Type} (size : Nat) : ∀ (fuel : Nat) (l c : List A), c ∈ chunksOf size fuel l → ∀ i ∈ c, i ∈ l
  | fuel, [], c, h, i, hi => by cases fuel <;> simp [chunksOf] at h
  | 0, a :: l, c, h, i, hi => by simp [chunksOf] at h
  | fuel + 1, a :: l, c, h, i, hi => by
    simp only [chunksOf, List.mem_cons] at h
    rcases h with rfl | h
    · exact List.mem_of_mem_take hi
    · exact List.mem_of_mem_drop (chunksOf_mem size fuel _ c h i hi)

/-- if the scans of all chunks correspond, so do the parallel hulls -/
theorem convexHullPar_eq (H : Agree S φ) {pts : List (V2 α)} (hS : ∀ p ∈ pts, S p)
    (srt : List (Nat × α × α) → List (Nat × α × α)) (srt' : List (Nat × β × β) → List (Nat × β × β))
    (indices : List Nat)
    (hg : ∀ is : List Nat, (∀ i ∈ is, i ∈ indices) →
      indexedGrahamNoLoop srt' (pts.map φ) is none = indexedGrahamNoLoop srt pts is none)
    (fuel : Nat) (sched : Sched) (chunk : Nat) :
    convexHullPar fuel sched srt' (pts.map φ) indices chunk = convexHullPar fuel sched srt pts indices chunk := by
  unfold convexHullPar
  rw [indexedShort_eq H hS]
  cases hsh : indexedShort pts indices with
  | inl r => rfl
  | inr js =>
    have hj := indexedShort_mem hsh
    simp only
    split
    · rfl
    · simp only [bind, Except.bind]
      rw [parStart_eq H hS, combineOp_eq H hS]
      have e : (chunksOf chunk js.length js).map (fun c => indexedGrahamNoLoop srt' (pts.map φ) c none) =
          (chunksOf chunk js.length js).map (fun c => indexedGrahamNoLoop srt pts c none) := by
        refine List.map_congr_left ?_
        intro c hc
        refine hg c (fun i hi => ?_)
        have := chunksOf_mem chunk _ _ c hc i hi
        rw [hj] at this
        exact openIndices_mem' this
      rw [e]

end Verif.Proofs.Transfer
