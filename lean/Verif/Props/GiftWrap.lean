import Verif.Proofs.Gift
import Verif.Props.Hull
/-!
# C38, C40: gift wrapping, indexed hulls
-/
set_option linter.unusedSectionVars false
set_option linter.unusedVariables false
set_option linter.unusedSimpArgs false
namespace Verif.Props
open Verif Verif.Spec Verif.Model Verif.Hull

section
variable {α : Type} [Scalar α]

/-- whatever the arithmetic does, the search for the lowest point returns a position or an error -/
theorem lowestLoop_any {ι : Type} (get : ι → Except Err (V2 α)) : ∀ (l : List ι) (pos mi : Nat) (m : V2 α),
    (∀ i ∈ l, ∃ p, get i = .ok p) → lowestLoop get l pos mi m = .error .invalid ∨
      ∃ k v, lowestLoop get l pos mi m = .ok (k, v) ∧ (k = mi ∨ (pos ≤ k ∧ k < pos + l.length)) := by
  intro l
  induction l with
  | nil => intro pos mi m _; exact Or.inr ⟨mi, m, rfl, Or.inl rfl⟩
  | cons i l ih =>
    intro pos mi m hg
    obtain ⟨p, hp⟩ := hg i List.mem_cons_self
    have hg' : ∀ i ∈ l, ∃ p, get i = .ok p := fun i hi => hg i (List.mem_cons_of_mem _ hi)
    unfold lowestLoop
    rw [hp]
    simp only [bind, Except.bind]
    have take : lowestLoop get l (pos + 1) pos p = .error .invalid ∨
        ∃ k v, lowestLoop get l (pos + 1) pos p = .ok (k, v) ∧ (k = mi ∨ (pos ≤ k ∧ k < pos + (i :: l).length)) := by
      rcases ih (pos + 1) pos p hg' with h | ⟨k, v, h, hk⟩
      · exact Or.inl h
      · refine Or.inr ⟨k, v, h, Or.inr ?_⟩
        rw [List.length_cons]
        omega
    have keep : lowestLoop get l (pos + 1) mi m = .error .invalid ∨
        ∃ k v, lowestLoop get l (pos + 1) mi m = .ok (k, v) ∧ (k = mi ∨ (pos ≤ k ∧ k < pos + (i :: l).length)) := by
      rcases ih (pos + 1) mi m hg' with h | ⟨k, v, h, hk⟩
      · exact Or.inl h
      · refine Or.inr ⟨k, v, h, ?_⟩
        rw [List.length_cons]
        omega
    cases Scalar.pcmp p.x m.x with
    | none => exact Or.inl rfl
    | some o =>
      cases o with
      | lt => exact take
      | gt => exact keep
      | eq =>
        simp only
        split
        · exact take
        · exact keep

theorem findLowest_any {ι : Type} (nv : Bool) (get : ι → Except Err (V2 α)) (l : List ι)
    (hg : ∀ i ∈ l, ∃ p, get i = .ok p) : findLowest nv get l = .error .invalid ∨
      ∃ k v, findLowest nv get l = .ok (k, v) ∧ k < l.length := by
  unfold findLowest
  cases nv with
  | true => exact Or.inl rfl
  | false =>
    simp only [Bool.false_eq_true, if_false]
    cases l with
    | nil => exact Or.inl rfl
    | cons i l =>
      obtain ⟨p, hp⟩ := hg i List.mem_cons_self
      simp only
      rw [hp]
      simp only [bind, Except.bind]
      rcases lowestLoop_any get l 1 0 p (fun i hi => hg i (List.mem_cons_of_mem _ hi)) with h | ⟨k, v, h, hk⟩
      · exact Or.inl h
      · refine Or.inr ⟨k, v, h, ?_⟩
        rw [List.length_cons]
        omega

theorem mapM_idx_ok {A : Type} (l : List A) : ∀ (is : List Nat), (∀ i ∈ is, i < l.length) →
    ∃ r, is.mapM (idx l) = .ok r ∧ (∀ v ∈ r, v ∈ l) ∧ r.length = is.length ∧
      ∀ (k : Nat), r[k]? = (is[k]?).bind (fun i => l[i]?) := by
  intro is
  induction is with
  | nil => intro _; exact ⟨[], rfl, by simp, rfl, by simp⟩
  | cons i is ih =>
    intro h
    have hi := h i List.mem_cons_self
    obtain ⟨r, h1, h2, h3, h4⟩ := ih (fun j hj => h j (List.mem_cons_of_mem _ hj))
    have he : idx l i = .ok l[i] := by simp [idx, hi]
    refine ⟨l[i] :: r, ?_, ?_, by simp [h3], ?_⟩
    · rw [List.mapM_cons, he]
      simp only [bind, Except.bind]
      rw [h1]
      rfl
    · intro v hv
      rcases List.mem_cons.1 hv with rfl | hv
      · exact List.getElem_mem hi
      · exact h2 v hv
    · intro k
      cases k with
      | zero => simp [hi]
      | succ k => simpa using h4 k

theorem dropLoopPoint_sub (input : List (V2 α)) : (∀ p ∈ dropLoopPoint input, p ∈ input) ∧
    (dropLoopPoint input).length ≤ input.length := by
  unfold dropLoopPoint
  split
  · split
    · exact ⟨fun p hp => List.mem_of_mem_tail hp, by simp⟩
    · exact ⟨fun p hp => hp, le_refl _⟩
  · exact ⟨fun p hp => hp, le_refl _⟩

theorem giftWrap_long (fuel : Nat) (input : List (V2 α))
    (h : 4 ≤ (dropLoopPoint input).length) : giftWrap fuel input = (do
      let (start, _) ← findLowest false getPoint (dropLoopPoint input)
      let hull ← giftLoop (idx (dropLoopPoint input)) (dropLoopPoint input).length start fuel start [] []
      (hull ++ [start]).mapM (idx (dropLoopPoint input))) := by
  unfold giftWrap
  generalize dropLoopPoint input = l at *
  match l, h with
  | a :: b :: c :: d :: l, _ => rfl

/-- gift wrapping terminates whatever the arithmetic does (rounding, NaN): it returns an error or a
list of input points, and it never panics -/
theorem C38_gift_wrap_terminates (input : List (V2 α)) (fuel : Nat)
    (hf : (input.length + 1) * (input.length + 1) < fuel) :
    giftWrap fuel input = .error .invalid ∨
      ∃ hull, giftWrap fuel input = .ok hull ∧ ∀ v ∈ hull, v ∈ input := by
  have hsub := dropLoopPoint_sub input
  by_cases h4 : 4 ≤ (dropLoopPoint input).length
  · rw [giftWrap_long fuel input h4]
    generalize dropLoopPoint input = pts at *
    rcases findLowest_any false getPoint pts (fun i _ => ⟨i, rfl⟩) with h | ⟨k, v, h, hk⟩
    · rw [h]; exact Or.inl rfl
    · right
      rw [h]
      have hget : ∀ j < pts.length, ∃ p, idx pts j = .ok p := by
        intro j hj
        exact ⟨pts[j], by simp [idx, hj]⟩
      obtain ⟨r, hr, hr2, -⟩ := giftLoop_terminates (idx pts) pts.length hget k hk fuel k [] [] hk (by simp) (by simp)
        (fun _ => rfl) (by simp) (by
          rw [if_pos rfl]
          have := hsub.2
          have := Nat.mul_le_mul (Nat.succ_le_succ hsub.2) (Nat.succ_le_succ hsub.2)
          simp only [Nat.succ_eq_add_one] at this
          omega)
      obtain ⟨q, hq, hq2, -⟩ := mapM_idx_ok pts (r ++ [k]) (by
        intro i hi
        rcases List.mem_append.1 hi with h | h
        · exact hr2 i h
        · rw [List.mem_singleton] at h; rw [h]; exact hk)
      refine ⟨q, ?_, fun v hv => hsub.1 v (hq2 v hv)⟩
      simp only [bind, Except.bind]
      rw [hr]
      exact hq
  · right
    unfold giftWrap
    generalize dropLoopPoint input = pts at *
    have tri : ∀ a b c v : V2 α, v ∈ triangle3 a b c → v ∈ [a, b, c] := by
      intro a b c v hv
      unfold triangle3 at hv
      split at hv
      · exact hv
      · simp only [List.mem_cons, List.not_mem_nil, or_false] at hv ⊢
        rcases hv with h | h | h
        · exact Or.inl h
        · exact Or.inr (Or.inr h)
        · exact Or.inr (Or.inl h)
    match pts, h4 with
    | [], _ => exact ⟨[], rfl, fun v hv => (List.not_mem_nil hv).elim⟩
    | [a], _ => exact ⟨[a], rfl, hsub.1⟩
    | [a, b], _ => exact ⟨[a, b], rfl, hsub.1⟩
    | [a, b, c], _ => exact ⟨_, rfl, fun v hv => hsub.1 v (tri a b c v hv)⟩
    | a :: b :: c :: d :: l, h => simp at h
end

section
variable {K : Type} [Scalar K] [Field K] [LinearOrder K] [ExactScalar K]

theorem range_map_getD {A : Type} (l : List A) (d : A) : (List.range l.length).map (fun j => l.getD j d) = l := by
  apply List.ext_getElem
  · simp
  · intro i h1 h2
    simp at h1
    simp [h1]

theorem map_mapM_idx {A : Type} (l : List A) (d : A) (is : List Nat) (h : ∀ i ∈ is, i < l.length) :
    is.mapM (idx l) = .ok (is.map (fun j => l.getD j d)) := by
  obtain ⟨r, h1, -, h3, h4⟩ := mapM_idx_ok l is h
  rw [h1]
  congr 1
  apply List.ext_getElem?
  intro k
  rw [h4, List.getElem?_map]
  cases hk : is[k]? with
  | none => rfl
  | some i =>
    have hi := h i (List.mem_of_getElem? hk)
    simp [hi]

/-- gift wrapping of at least four different points returns the convex hull -/
theorem C38_gift_wrap_is_hull (input : List (V2 K)) (h4 : 4 ≤ input.length)
    (h5 : input.head? = input.getLast? → 5 ≤ input.length)
    (hnd : input.tail.Nodup) (hnd2 : input.head? ≠ input.getLast? → input.Nodup)
    (fuel : Nat) (hf : (input.length + 1) * (input.length + 1) < fuel) :
    ∃ hull, giftWrap fuel input = .ok hull ∧ IsHullLoop input hull ∧ StartsLowest input hull := by
  have hl := dropLoopPoint_length input h4 h5
  have hmem := dropLoopPoint_mem input hl
  have hsub := dropLoopPoint_sub input
  have hn : (dropLoopPoint input).Nodup := by
    unfold dropLoopPoint
    split
    · rename_i a b ha hb
      split
      · exact hnd
      · rename_i hab
        apply hnd2
        rw [ha, hb]
        intro e
        exact hab ((beq_iff a b).2 (Option.some_inj.1 e))
    · rename_i hno
      cases input with
      | nil => simp
      | cons a l =>
        exfalso
        obtain ⟨b, hb⟩ : ∃ b, (a :: l).getLast? = some b := ⟨_, List.getLast?_eq_some_getLast (List.cons_ne_nil _ _)⟩
        exact hno a b rfl hb
  rw [giftWrap_long fuel input hl]
  generalize dropLoopPoint input = pts at *
  obtain ⟨k, s, e1, e2, e3⟩ := findLowest_ok getPoint (fun p : V2 K => p) pts (by rintro rfl; simp at hl) (fun _ _ => rfl)
  rw [e1]
  obtain ⟨hk, rfl⟩ := List.getElem?_eq_some_iff.1 e2
  obtain ⟨pt, hpt⟩ : ∃ pt : Nat → V2 K, pt = fun j => pts.getD j ⟨0, 0⟩ := ⟨_, rfl⟩
  have hptj : ∀ j (hj : j < pts.length), pt j = pts[j] := by
    intro j hj; rw [hpt]; simp [hj]
  have hget : ∀ j < pts.length, idx pts j = .ok (pt j) := by
    intro j hj; rw [hptj j hj]; simp [idx, hj]
  have hinj : ∀ i < pts.length, ∀ j < pts.length, pt i = pt j → i = j := by
    intro i hi j hj e
    rw [hptj i hi, hptj j hj] at e
    exact (List.Nodup.getElem_inj_iff hn).1 e
  have hmap : (List.range pts.length).map pt = pts := by rw [hpt]; exact range_map_getD pts _
  obtain ⟨r, hr, hr2, -⟩ := giftLoop_terminates (idx pts) pts.length (fun j hj => ⟨_, hget j hj⟩) k hk fuel k [] [] hk
    (by simp) (by simp) (fun _ => rfl) (by simp) (by
      rw [if_pos rfl]
      have := Nat.mul_le_mul (Nat.succ_le_succ hsub.2) (Nat.succ_le_succ hsub.2)
      simp only [Nat.succ_eq_add_one] at this
      omega)
  have hull := giftLoop_exact (idx pts) pt pts.length (by omega) hget hinj k hk (fun j hj => by
      rw [hptj j hj, hptj k hk]
      exact e3 _ (List.getElem_mem hj)) fuel k [] [] r hk (by simp) (by simp) (Or.inl ⟨rfl, rfl⟩) hr
  rw [hmap] at hull
  simp only [bind, Except.bind]
  rw [hr]
  simp only
  rw [map_mapM_idx pts ⟨0, 0⟩ (r ++ [k]) (by
        intro i hi
        rcases List.mem_append.1 hi with h | h
        · exact hr2 i h
        · rw [List.mem_singleton] at h; rw [h]; exact hk)]
  refine ⟨_, rfl, ?_⟩
  have h : IsHullLoop pts ((r ++ [k]).map (fun j => pts.getD j ⟨0, 0⟩)) := by
    have := hull.1
    rw [hpt] at this
    simpa using this
  refine ⟨⟨h.len, h.closed, fun v hv => (hmem v).1 (h.vertices v hv), h.once,
    fun i a b h1 h2 p hp => h.left i a b h1 h2 p ((hmem p).2 hp), h.turn, h.turnClosing,
    fun a b c e p hp => h.flat a b c e p ((hmem p).2 hp)⟩,
    startsLowest_of h.closed (s := pts[k]) (by simp [hk]) (fun p hp => e3 p ((hmem p).2 hp))⟩
end

/-- the hypotheses of `C38_gift_wrap_is_hull` are met, and the result is the square -/
example : (fun (input : List (V2 ℚ)) => 4 ≤ input.length ∧ (input.head? = input.getLast? → 5 ≤ input.length) ∧
    input.tail.Nodup ∧ (input.head? ≠ input.getLast? → input.Nodup) ∧
    giftWrap 100 input = .ok [⟨0, 0⟩, ⟨2, 0⟩, ⟨2, 2⟩, ⟨0, 2⟩, ⟨0, 0⟩])
    [⟨0, 0⟩, ⟨1, 1⟩, ⟨2, 0⟩, ⟨2, 2⟩, ⟨0, 2⟩, ⟨1, 0⟩, ⟨0, 0⟩] := by
  decide +kernel

/-- with a repeated point gift wrapping can lose a vertex of the hull: here (0,2), although it is right
of the last edge of the result; a repeated start point can even be listed twice -/
theorem C38_duplicates_lose_points :
    giftWrap 100 ([⟨0, 2⟩, ⟨0, 1⟩, ⟨0, 2⟩, ⟨1, 2⟩, ⟨1, 1⟩] : List (V2 ℚ)) = .ok [⟨0, 1⟩, ⟨1, 1⟩, ⟨1, 2⟩, ⟨0, 1⟩] ∧
    orient (⟨1, 2⟩ : V2 ℚ) ⟨0, 1⟩ ⟨0, 2⟩ < 0 ∧
    giftWrap 100 ([⟨1, 0⟩, ⟨0, 2⟩, ⟨2, 1⟩, ⟨0, 2⟩] : List (V2 ℚ)) =
      .ok [⟨0, 2⟩, ⟨1, 0⟩, ⟨2, 1⟩, ⟨0, 2⟩, ⟨1, 0⟩, ⟨0, 2⟩] := by
  decide +kernel

end Verif.Props
