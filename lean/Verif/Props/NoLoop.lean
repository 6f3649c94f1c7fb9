import Verif.Props.HullContain
import Verif.Props.HullPar
import Verif.Props.IndexedHull
import Verif.Props.HullSmall
/-!
# C40 in any arithmetic, C100: `indexed_graham_scan_no_loop`
-/
set_option linter.unusedSectionVars false
namespace Verif.Props
open Verif Verif.Model Verif.Spec Verif.Hull

section
variable {α : Type} [Scalar α]

theorem popWhile_get {ι : Type} (get : ι → Except Err (V2 α)) (p : V2 α) : ∀ (l : List ι), l ≠ [] → (∀ i ∈ l, ∃ q, get i = .ok q) →
    ∃ r, popWhile get p l = .ok r ∧ r ≠ [] ∧ (∀ q ∈ r, q ∈ l) ∧ r.getLast? = l.getLast? := by
  intro l
  induction l with
  | nil => intro h; exact absurd rfl h
  | cons a t ih =>
    intro _ hg
    match t, ih with
    | [], _ => exact ⟨[a], rfl, by simp, fun q hq => hq, rfl⟩
    | b :: t, ih =>
      obtain ⟨pa, ha⟩ := hg a (by simp)
      obtain ⟨pb, hb⟩ := hg b (by simp)
      unfold popWhile
      simp only [ha, hb, bind, Except.bind]
      split
      · obtain ⟨r, h1, h2, h3, h4⟩ := ih (by simp) (fun i hi => hg i (List.mem_cons_of_mem _ hi))
        exact ⟨r, h1, h2, fun q hq => List.mem_cons_of_mem _ (h3 q hq), by rw [h4, List.getLast?_cons_cons]⟩
      · exact ⟨_, rfl, by simp, fun q hq => hq, rfl⟩

theorem grahamLoop_get {ι : Type} (get : ι → Except Err (V2 α)) (skip : ι → Bool) : ∀ (l st : List ι), st ≠ [] →
    (∀ i ∈ l, ∃ q, get i = .ok q) → (∀ i ∈ st, ∃ q, get i = .ok q) →
    ∃ r, grahamLoop get skip l st = .ok r ∧ r ≠ [] ∧ (∀ q ∈ r, q ∈ st ∨ q ∈ l) ∧ r.getLast? = st.getLast? := by
  intro l
  induction l with
  | nil => intro st h _ _; exact ⟨st, rfl, h, fun q hq => Or.inl hq, rfl⟩
  | cons a l ih =>
    intro st h hl hst
    unfold grahamLoop
    split
    · obtain ⟨r, h1, h2, h3, h4⟩ := ih st h (fun i hi => hl i (List.mem_cons_of_mem _ hi)) hst
      exact ⟨r, h1, h2, fun q hq => (h3 q hq).imp id (List.mem_cons_of_mem _), h4⟩
    · obtain ⟨pa, hpa⟩ := hl a (by simp)
      obtain ⟨st1, e, hne, hs, hlast⟩ := popWhile_get get pa st h hst
      simp only [hpa, bind, Except.bind, e]
      obtain ⟨r, h1, h2, h3, h4⟩ := ih (a :: st1) (by simp) (fun i hi => hl i (List.mem_cons_of_mem _ hi)) (by
        intro i hi
        rcases List.mem_cons.1 hi with rfl | hi
        · exact ⟨pa, hpa⟩
        · exact hst i (hs i hi))
      refine ⟨r, h1, h2, fun q hq => ?_, ?_⟩
      · rcases h3 q hq with hq | hq
        · rcases List.mem_cons.1 hq with rfl | hq
          · exact Or.inr List.mem_cons_self
          · exact Or.inl (hs q hq)
        · exact Or.inr (List.mem_cons_of_mem _ hq)
      · rw [h4, ← hlast]
        cases st1 with
        | nil => exact absurd rfl hne
        | cons b t => rw [List.getLast?_cons_cons]

/-- the position that `find_lowest_x` returns is that of the point it returns -/
theorem lowestLoop_at {ι : Type} (get : ι → Except Err (V2 α)) (whole : List ι) : ∀ (l : List ι) (pos mi : Nat) (m : V2 α) (k : Nat) (v : V2 α),
    whole.drop pos = l → (∃ i, whole[mi]? = some i ∧ get i = .ok m) → lowestLoop get l pos mi m = .ok (k, v) →
    ∃ i, whole[k]? = some i ∧ get i = .ok v := by
  intro l
  induction l with
  | nil =>
    intro pos mi m k v _ hm h
    simp only [lowestLoop, Except.ok.injEq, Prod.mk.injEq] at h
    obtain ⟨rfl, rfl⟩ := h
    exact hm
  | cons i l ih =>
    intro pos mi m k v hd hm h
    have hi : whole[pos]? = some i := by
      have := congrArg (fun l => getElem? l 0) hd
      simpa using this
    have hd' : whole.drop (pos + 1) = l := by
      have := congrArg List.tail hd
      simpa using this
    unfold lowestLoop at h
    cases hg : get i with
    | error e => rw [hg] at h; cases h
    | ok p =>
      rw [hg] at h
      simp only [bind, Except.bind] at h
      cases hc : Scalar.pcmp p.x m.x with
      | none => rw [hc] at h; cases h
      | some o =>
        rw [hc] at h
        cases o with
        | lt => exact ih _ _ _ _ _ hd' ⟨i, hi, hg⟩ h
        | gt => exact ih _ _ _ _ _ hd' hm h
        | eq =>
          simp only at h
          split at h
          · exact ih _ _ _ _ _ hd' ⟨i, hi, hg⟩ h
          · exact ih _ _ _ _ _ hd' hm h

theorem findLowest_at {ι : Type} {nv : Bool} {get : ι → Except Err (V2 α)} {l : List ι} {k : Nat} {v : V2 α}
    (h : findLowest nv get l = .ok (k, v)) : ∃ i, l[k]? = some i ∧ get i = .ok v := by
  unfold findLowest at h
  split at h
  · cases h
  · cases l with
    | nil => cases h
    | cons i l =>
      simp only at h
      cases hg : get i with
      | error e => rw [hg] at h; cases h
      | ok p =>
        rw [hg] at h
        exact lowestLoop_at get (i :: l) l 1 0 p k v (by simp) ⟨i, by simp, hg⟩ h

/-- the scan after the start has been fixed -/
theorem noLoop_from (srt : List (Nat × α × α) → List (Nat × α × α)) (hsrt : ∀ l, (srt l).Perm l) (vertices : List (V2 α))
    (is : List Nat) (hin : ∀ i ∈ is, i < vertices.length) (s : Nat) (sp : V2 α) (hs : s < vertices.length) :
    ∃ ents hull, is.mapM (fun i => do
      let p ← idx vertices i
      .ok (angleEntry sp i p) : Nat → Except Err (Nat × α × α)) = .ok ents ∧
    grahamLoop (idx vertices) (fun i => i == s) ((srt ents).map (·.1)) [s] = .ok hull ∧ hull.reverse.head? = some s ∧
    ∀ i ∈ hull, i = s ∨ i ∈ is := by
  have hget : ∀ i < vertices.length, ∃ q, idx vertices i = .ok q := fun i hi => ⟨vertices[i], by simp [idx, hi]⟩
  have hents : ∀ l : List Nat, (∀ i ∈ l, i < vertices.length) → ∃ ents : List (Nat × α × α), l.mapM (fun i => do
      let p ← idx vertices i
      .ok (angleEntry sp i p) : Nat → Except Err (Nat × α × α)) = .ok ents ∧ ents.map (·.1) = l := by
    intro l
    induction l with
    | nil => intro _; exact ⟨[], rfl, rfl⟩
    | cons i l ih =>
      intro h
      obtain ⟨p, hp⟩ := hget i (h i (by simp))
      obtain ⟨ents, h1, h2⟩ := ih (fun j hj => h j (List.mem_cons_of_mem _ hj))
      refine ⟨angleEntry sp i p :: ents, ?_, by simp [h2, angleEntry]⟩
      rw [List.mapM_cons, hp]
      simp only [bind, Except.bind] at h1 ⊢
      rw [h1]
      rfl
  obtain ⟨ents, h1, h2⟩ := hents is hin
  have hmem : ∀ i ∈ (srt ents).map (·.1), i ∈ is := by
    intro i hi
    have := ((hsrt ents).map (·.1)).mem_iff.1 hi
    rwa [h2] at this
  obtain ⟨hull, g1, g2, g3, g4⟩ := grahamLoop_get (idx vertices) (fun i => i == s) ((srt ents).map (·.1)) [s] (by simp)
    (fun i hi => hget i (hin i (hmem i hi))) (fun i hi => by rw [List.mem_singleton.1 hi]; exact hget s hs)
  refine ⟨ents, hull, h1, g1, ?_, fun i hi => ?_⟩
  · rw [List.head?_reverse, g4]; rfl
  · rcases g3 i hi with h | h
    · exact Or.inl (List.mem_singleton.1 h)
    · exact Or.inr (hmem i h)

theorem short_in_range {vertices : List (V2 α)} {indices : List Nat} (hin : ∀ i ∈ indices, i < vertices.length)
    {r : Except Err (List Nat)} (h : indexedShort vertices indices = .inl r) : ∃ hull, r = .ok hull := by
  have hsub := (openIndices_sub indices).1
  have hget : ∀ i < vertices.length, ∃ q, idx vertices i = .ok q := fun i hi => ⟨vertices[i], by simp [idx, hi]⟩
  unfold indexedShort at h
  split at h
  · simp only [Sum.inl.injEq] at h; exact ⟨_, h.symm⟩
  · generalize openIndices indices = l at *
    match l, hsub, h with
    | [], _, h => simp only [Sum.inl.injEq] at h; exact ⟨_, h.symm⟩
    | [a], _, h => simp only [Sum.inl.injEq] at h; exact ⟨_, h.symm⟩
    | [a, b], _, h => simp only [Sum.inl.injEq] at h; exact ⟨_, h.symm⟩
    | [a, b, c], hs, h =>
      simp only [Sum.inl.injEq] at h
      obtain ⟨pa, ha⟩ := hget a (hin a (hs a (by simp)))
      obtain ⟨pb, hb⟩ := hget b (hin b (hs b (by simp)))
      obtain ⟨pc, hc⟩ := hget c (hin c (hs c (by simp)))
      simp only [ha, hb, hc, bind, Except.bind] at h
      split at h
      · exact ⟨_, h.symm⟩
      · exact ⟨_, h.symm⟩
    | a :: b :: c :: d :: l, _, h => cases h

/-- C100, any arithmetic: for indices inside of the vertex table and any start inside of it `indexed_graham_scan_no_loop` does
not panic; it reports invalid input (only without a start, and if coordinates cannot be compared) or returns given indices,
possibly with the start index -/
theorem C100_any_arithmetic (srt : List (Nat × α × α) → List (Nat × α × α)) (hsrt : ∀ l, (srt l).Perm l) (vertices : List (V2 α))
    (indices : List Nat) (hin : ∀ i ∈ indices, i < vertices.length) :
    (indexedGrahamNoLoop srt vertices indices none = .error .invalid ∨
      ∃ hull, indexedGrahamNoLoop srt vertices indices none = .ok hull ∧ ∀ i ∈ hull, i ∈ indices) ∧
    ∀ s < vertices.length, ∃ hull, indexedGrahamNoLoop srt vertices indices (some s) = .ok hull ∧ ∀ i ∈ hull, i = s ∨ i ∈ indices := by
  have hs := indexedShort_sub (vertices := vertices) (indices := indices)
  cases hsh : indexedShort vertices indices with
  | inl r =>
    obtain ⟨hull, rfl⟩ := short_in_range hin hsh
    refine ⟨Or.inr ⟨hull, ?_, hs.1 _ hull hsh rfl⟩, fun s _ => ⟨hull, ?_, fun i hi => Or.inr (hs.1 _ hull hsh rfl i hi)⟩⟩ <;>
    · unfold indexedGrahamNoLoop
      rw [hsh]
  | inr is =>
    have hsub := hs.2 is hsh
    have hin' : ∀ i ∈ is, i < vertices.length := fun i hi => hin i (hsub i hi)
    have hget : ∀ i < vertices.length, ∃ q, idx vertices i = .ok q := fun i hi => ⟨vertices[i], by simp [idx, hi]⟩
    refine ⟨?_, fun s hsl => ?_⟩
    · unfold indexedGrahamNoLoop
      rw [hsh]
      simp only
      rcases findLowest_any vertices.isEmpty (idx vertices) is (fun i hi => hget i (hin' i hi)) with e | ⟨k, v, e, hk⟩
      · rw [e]; exact Or.inl rfl
      · right
        have hi : idx is k = .ok is[k] := by simp [idx, hk]
        obtain ⟨ents, hull, h1, h2, -, h4⟩ := noLoop_from srt hsrt vertices is hin' is[k] v (hin' _ (List.getElem_mem hk))
        simp only [bind, Except.bind] at h1
        simp only [e, hi, bind, Except.bind, h1, h2]
        refine ⟨_, rfl, fun i hi => ?_⟩
        rcases h4 i (List.mem_reverse.1 hi) with h | h
        · rw [h]; exact hsub _ (List.getElem_mem hk)
        · exact hsub i h
    · unfold indexedGrahamNoLoop
      rw [hsh]
      obtain ⟨sp, hsp⟩ := hget s hsl
      obtain ⟨ents, hull, h1, h2, -, h4⟩ := noLoop_from srt hsrt vertices is hin' s sp hsl
      simp only [bind, Except.bind] at h1
      simp only [hsp, bind, Except.bind, h1, h2]
      refine ⟨_, rfl, fun i hi => ?_⟩
      rcases h4 i (List.mem_reverse.1 hi) with h | h
      · exact Or.inl h
      · exact Or.inr (hsub i h)

/-- C100, any arithmetic: what the function returns without a start it also returns if it is given the first index of that
result as its start -/
theorem C100_start_is_first (srt : List (Nat × α × α) → List (Nat × α × α)) (hsrt : ∀ l, (srt l).Perm l) (vertices : List (V2 α))
    (indices : List Nat) (hin : ∀ i ∈ indices, i < vertices.length) (hull : List Nat) (s : Nat)
    (h : indexedGrahamNoLoop srt vertices indices none = .ok hull) (hh : hull.head? = some s) :
    indexedGrahamNoLoop srt vertices indices (some s) = .ok hull := by
  have hs := indexedShort_sub (vertices := vertices) (indices := indices)
  cases hsh : indexedShort vertices indices with
  | inl r =>
    unfold indexedGrahamNoLoop at h ⊢
    rw [hsh] at h ⊢
    exact h
  | inr is =>
    have hsub := hs.2 is hsh
    have hin' : ∀ i ∈ is, i < vertices.length := fun i hi => hin i (hsub i hi)
    have hget : ∀ i < vertices.length, ∃ q, idx vertices i = .ok q := fun i hi => ⟨vertices[i], by simp [idx, hi]⟩
    unfold indexedGrahamNoLoop at h ⊢
    rw [hsh] at h ⊢
    simp only at h ⊢
    rcases findLowest_any vertices.isEmpty (idx vertices) is (fun i hi => hget i (hin' i hi)) with e | ⟨k, v, e, hk⟩
    · rw [e] at h; cases h
    · obtain ⟨i, h1, h2⟩ := findLowest_at e
      have hi : idx is k = .ok i := by simp [idx, h1]
      have hil : i < vertices.length := hin' i (List.mem_of_getElem? h1)
      obtain ⟨ents, st, g1, g2, g3, -⟩ := noLoop_from srt hsrt vertices is hin' i v hil
      simp only [bind, Except.bind] at g1
      simp only [e, hi, bind, Except.bind, g1, g2] at h
      have hst : st.reverse = hull := Except.ok.inj h
      rw [← hst, g3] at hh
      obtain rfl := Option.some.inj hh
      simp only [h2, bind, Except.bind, g1, g2]
      rw [hst]

/-- C40, any arithmetic: for indices inside of the vertex table the indexed hull functions return given indices or report
invalid input, they do not panic and terminate -/
theorem C40_any_arithmetic (srt : List (Nat × α × α) → List (Nat × α × α)) (hsrt : ∀ l, (srt l).Perm l) (vertices : List (V2 α))
    (indices : List Nat) (hin : ∀ i ∈ indices, i < vertices.length) (fuel : Nat) (hf : (indices.length + 1) * (indices.length + 1) < fuel) :
    (indexedGrahamScan srt vertices indices = .error .invalid ∨
      ∃ hull, indexedGrahamScan srt vertices indices = .ok hull ∧ ∀ i ∈ hull, i ∈ indices) ∧
    (indexedGiftWrap fuel vertices indices = .error .invalid ∨
      ∃ hull, indexedGiftWrap fuel vertices indices = .ok hull ∧ ∀ i ∈ hull, i ∈ indices) := by
  refine ⟨?_, ?_⟩
  · rcases (C100_any_arithmetic srt hsrt vertices indices hin).1 with h | ⟨hull, h, hm⟩
    · left; unfold indexedGrahamScan; rw [h]; rfl
    · right
      refine ⟨closeLoop hull, by unfold indexedGrahamScan; rw [h]; rfl, fun i hi => hm i (closeLoop_sub hull i hi)⟩
  · have hs := indexedShort_sub (vertices := vertices) (indices := indices)
    have hno : indexedGiftNoLoop fuel vertices indices = .error .invalid ∨
        ∃ hull, indexedGiftNoLoop fuel vertices indices = .ok hull ∧ ∀ i ∈ hull, i ∈ indices := by
      cases hsh : indexedShort vertices indices with
      | inl r =>
        obtain ⟨hull, rfl⟩ := short_in_range hin hsh
        exact Or.inr ⟨hull, by unfold indexedGiftNoLoop; rw [hsh], hs.1 _ hull hsh rfl⟩
      | inr is =>
        have hsub := hs.2 is hsh
        have hlen : is.length ≤ indices.length := by
          have h2 := (openIndices_sub indices).2
          unfold indexedShort at hsh
          split at hsh
          · cases hsh
          · generalize openIndices indices = l at *
            match l, hsh with
            | a :: b :: c :: d :: l, hsh => cases hsh; exact h2
        have hget : ∀ i < vertices.length, ∃ q, idx vertices i = .ok q := fun i hi => ⟨vertices[i], by simp [idx, hi]⟩
        unfold indexedGiftNoLoop
        rw [hsh]
        simp only
        rcases findLowest_any vertices.isEmpty (idx vertices) is (fun i hi => hget i (hin i (hsub i hi))) with e | ⟨k, v, e, hk⟩
        · rw [e]; exact Or.inl rfl
        · right
          rw [e]
          have hget2 : ∀ j < is.length, ∃ p, (fun j => do idx vertices (← idx is j) : Nat → Except Err (V2 α)) j = .ok p := by
            intro j hj
            obtain ⟨q, hq⟩ := hget is[j] (hin _ (hsub _ (List.getElem_mem hj)))
            have hi : idx is j = .ok is[j] := by simp [idx, hj]
            exact ⟨q, by simp only [hi, bind, Except.bind, hq]⟩
          obtain ⟨r, hr, hr2, -⟩ := giftLoop_terminates _ is.length hget2 k hk fuel k [] [] hk (by simp) (by simp)
            (fun _ => rfl) (by simp) (by
              rw [if_pos rfl]
              have := Nat.mul_le_mul (Nat.succ_le_succ hlen) (Nat.succ_le_succ hlen)
              simp only [Nat.succ_eq_add_one] at this
              omega)
          obtain ⟨q, hq, hq2, -⟩ := mapM_idx_ok is r hr2
          refine ⟨q, ?_, fun i hi => hsub i (hq2 i hi)⟩
          simp only [bind, Except.bind] at hr ⊢
          rw [hr]
          exact hq
    rcases hno with h | ⟨hull, h, hm⟩
    · left; unfold indexedGiftWrap; rw [h]; rfl
    · right
      exact ⟨closeLoop hull, by unfold indexedGiftWrap; rw [h]; rfl, fun i hi => hm i (closeLoop_sub hull i hi)⟩
end

section
variable {K : Type} [Scalar K] [Field K] [LinearOrder K] [ExactScalar K]

/-- C100, exact arithmetic: without a start, or with the index of the lowest leftmost point as the start,
`indexed_graham_scan_no_loop` returns the convex hull without the closing index -/
theorem C100_no_loop_is_hull [ExactAtan2 K] (srt : List (Nat × K × K) → List (Nat × K × K))
    (hsrt : Sorts angleCmp srt) (vertices : List (V2 K)) (indices : List Nat) (pt : Nat → V2 K)
    (hpt : ∀ i ∈ indices, vertices[i]? = some (pt i)) (h4 : 4 ≤ indices.length)
    (h5 : indices.head? = indices.getLast? → 5 ≤ indices.length)
    (hdiff : ∀ i ∈ indices, ∀ j ∈ indices, pt i = pt j → i = j) (hne : ∃ i ∈ indices, ∃ j ∈ indices, i ≠ j)
    (s : Nat) (hs : s ∈ indices) (hlow : ∀ j ∈ indices, pt j = pt s ∨ LexLt (pt s) (pt j)) :
    ∃ hull, indexedGrahamNoLoop srt vertices indices none = .ok hull ∧ indexedGrahamNoLoop srt vertices indices (some s) = .ok hull ∧
      hull.head? = some s ∧ indexedGrahamScan srt vertices indices = .ok (hull ++ [s]) ∧
      IsHullLoop (indices.map pt) ((hull ++ [s]).map pt) := by
  have hl := openIndices_length indices h4 h5
  have hmem := openIndices_mem indices h4
  obtain ⟨k, s', h, -, -, e2, hn, hhd, hlen, hsub, hh, hlow'⟩ := indexedGrahamNoLoop_core srt hsrt vertices indices
    (openIndices indices) pt (indexedShort_long vertices indices hl) (by intro e; rw [e] at hl; simp at hl)
    (fun i hi => by simp [idx, hpt i ((hmem i).1 hi)])
    (fun i hi j hj => hdiff i ((hmem i).1 hi) j ((hmem j).1 hj))
    (by obtain ⟨i, hi, j, hj, hij⟩ := hne; exact ⟨i, (hmem i).2 hi, j, (hmem j).2 hj, hij⟩)
  have hs' : s' ∈ indices := (hmem s').1 (List.mem_of_getElem? e2)
  obtain rfl : s = s' := by
    have a := hlow s' hs'
    have b := hlow' s ((hmem s).2 hs)
    refine hdiff s hs s' hs' ?_
    rcases a with a | a
    · exact a.symm
    · rcases b with b | b
      · exact b
      · exfalso
        rcases a with a | ⟨a1, a2⟩ <;> rcases b with b | ⟨b1, b2⟩
        · exact lt_asymm a b
        · exact a.ne b1.symm
        · exact b.ne a1.symm
        · exact lt_asymm a2 b2
  have hin : ∀ i ∈ indices, i < vertices.length := fun i hi => (List.getElem?_eq_some_iff.1 (hpt i hi)).1
  refine ⟨h, hn, C100_start_is_first srt (fun l => (hsrt l).1) vertices indices hin h s hn hhd, hhd, ?_, ?_⟩
  · unfold indexedGrahamScan
    rw [hn]
    simp only [Except.map, closeLoop]
    rw [if_pos (by omega), hhd]
    rfl
  · refine IsHullLoop.congr (pts := (openIndices indices).map pt) hh (fun p => ?_)
    simp only [List.mem_map, hmem]
end

/-- C41: `convex_hull_par` on short lists of indices, in any arithmetic and for every schedule: it returns what
`indexed_graham_scan` returns without the closing index -/
theorem C41_short_inputs {α : Type} [Scalar α] (fuel : Nat) (sched : Sched) (srt : List (Nat × α × α) → List (Nat × α × α))
    (vertices : List (V2 α)) (indices : List Nat) (chunk : Nat)
    (h : (if indices.head? = indices.getLast? then indices.dropLast else indices).length ≤ 3) :
    convexHullPar fuel sched srt vertices indices chunk = indexedGrahamNoLoop srt vertices indices none ∧
    indexedGrahamScan srt vertices indices = (convexHullPar fuel sched srt vertices indices chunk).map
      (fun hull => if hull.length > 1 then hull ++ hull.head?.toList else hull) := by
  have hsh : ∃ r, indexedShort vertices indices = .inl r := by
    unfold indexedShort
    split
    · exact ⟨_, rfl⟩
    · have h' : (openIndices indices).length ≤ 3 := h
      generalize openIndices indices = l at *
      match l, h' with
      | [], _ => exact ⟨_, rfl⟩
      | [a], _ => exact ⟨_, rfl⟩
      | [a, b], _ => exact ⟨_, rfl⟩
      | [a, b, c], _ => exact ⟨_, rfl⟩
  obtain ⟨r, hr⟩ := hsh
  have e1 : convexHullPar fuel sched srt vertices indices chunk = r := by unfold convexHullPar; rw [hr]
  have e2 : indexedGrahamNoLoop srt vertices indices none = r := by unfold indexedGrahamNoLoop; rw [hr]
  refine ⟨by rw [e1, e2], ?_⟩
  unfold indexedGrahamScan
  rw [e2, e1]
  rfl

/-- C100 (finding): with another corner of the hull as the start the result is not the hull: the loop of a square crosses
itself -/
theorem C100_other_starts : 
    indexedGrahamNoLoop (insSort (fun a b => angleCmp a b != .gt)) ([⟨0, 0⟩, ⟨1, 0⟩, ⟨1, 1⟩, ⟨0, 1⟩] : List (V2 ℚ)) [0, 1, 2, 3] (some 2) =
      .ok [2, 0, 1, 3] ∧
    orient (⟨1, 1⟩ : V2 ℚ) ⟨0, 0⟩ ⟨0, 1⟩ < 0 ∧
    indexedGrahamNoLoop (insSort (fun a b => angleCmp a b != .gt)) ([⟨0, 0⟩, ⟨1, 0⟩, ⟨1, 1⟩, ⟨0, 1⟩] : List (V2 ℚ)) [0, 1, 2, 3] (some 0) =
      .ok [0, 1, 2, 3] := by decide +kernel
end Verif.Props
