import Verif.Model.Rdp
import Verif.Spec.Simplify
import Verif.Spec.Laws
import Mathlib.Data.List.Basic
import Mathlib.Data.List.Infix
/-!
# Lemmas about the RDP recursion
-/
namespace Verif.Proofs.Rdp
open Verif Verif.Model Verif.Spec Scalar
variable {α : Type} [Scalar α] {P : Type}
set_option linter.unusedSectionVars false

/-- distances of the interior points to the line through the ends, with their positions -/
def interior (d : P → P → P → α) (points : List P) (s e : P) : List (α × Nat) :=
  ((points.zipIdx.drop 1).take (points.length - 2)).map (fun (p, i) => (d s e p, i))

theorem mapM_ok {A B : Type} (f : A → Except Err B) (g : A → B) (l : List A)
    (h : ∀ a ∈ l, f a = .ok (g a)) : l.mapM f = .ok (l.map g) := by
  induction l with
  | nil => rfl
  | cons a l ih =>
    rw [List.mapM_cons, h a (by simp), ih (fun b hb => h b (by simp [hb]))]
    rfl

theorem maxByLast_mem (l : List (α × Nat)) (h : l ≠ []) : ∃ x ∈ l, maxByLast l = some x := by
  cases l with
  | nil => exact absurd rfl h
  | cons x xs =>
    refine ⟨_, ?_, rfl⟩
    have : ∀ (xs : List (α × Nat)) (x : α × Nat) , xs.foldl maxStep x ∈ x :: xs := by
      intro xs
      induction xs with
      | nil => intro x; simp
      | cons y ys ih =>
        intro x
        simp only [List.foldl_cons]
        have := ih (maxStep x y)
        have h2 : maxStep x y = x ∨ maxStep x y = y := by
          unfold maxStep; split <;> simp
        rcases h2 with h2 | h2 <;> rw [h2] at this ⊢ <;> simp only [List.mem_cons] at this ⊢ <;> tauto
    exact this xs x

theorem interior_mem (d : P → P → P → α) (points : List P) (s e : P) (x : α × Nat)
    (h : x ∈ interior d points s e) :
    ∃ (hi : x.2 < points.length), 0 < x.2 ∧ x.2 + 1 < points.length ∧ x.1 = d s e points[x.2] := by
  unfold interior at h
  rw [List.mem_map] at h
  obtain ⟨⟨p, i⟩, hm, rfl⟩ := h
  rw [List.mem_iff_getElem] at hm
  obtain ⟨k, hk, hk2⟩ := hm
  simp only [List.length_take, List.length_drop, List.length_zipIdx] at hk
  simp only [List.getElem_take, List.getElem_drop, List.getElem_zipIdx] at hk2
  obtain ⟨rfl, rfl⟩ := Prod.mk.inj hk2
  refine ⟨by simp; omega, by simp, by simp; omega, by simp⟩

theorem interior_ne_nil (d : P → P → P → α) (points : List P) (s e : P) (h : 2 < points.length) :
    interior d points s e ≠ [] := by
  intro hc
  have := congrArg List.length hc
  simp [interior] at this
  omega

theorem mem_interior (d : P → P → P → α) (points : List P) (s e : P) (i : Nat) (h0 : 0 < i)
    (h1 : i + 1 < points.length) :
    (d s e points[i], i) ∈ interior d points s e := by
  unfold interior
  rw [List.mem_map]
  refine ⟨(points[i], i), ?_, rfl⟩
  rw [List.mem_iff_getElem]
  refine ⟨i - 1, by simp; omega, ?_⟩
  simp only [List.getElem_take, List.getElem_drop, List.getElem_zipIdx]
  have : 1 + (i - 1) = i := by omega
  simp [this]

/-- What one level of the recursion does: two points give the end point; otherwise the farthest
interior point (at position `i`) is found, and either it is near and only the end point is
produced, or the two halves are simplified. -/
theorem rdpRec_unfold (dist : P → P → P → Except Err α) (d : P → P → P → α) (thr : α)
    (points : List P) (hd : ∀ a ∈ points, ∀ b ∈ points, ∀ p ∈ points, dist a b p = .ok (d a b p))
    (h2 : 2 < points.length) :
    ∃ (i : Nat) (hi : i < points.length), 0 < i ∧ i + 1 < points.length ∧
      maxByLast (interior d points points[0] points[points.length - 1]) =
        some (d points[0] points[points.length - 1] points[i], i) ∧
      rdpRec dist thr points =
        if d points[0] points[points.length - 1] points[i] <=. thr
        then .ok [points[points.length - 1]]
        else match rdpRec dist thr (points.take (i + 1)) with
          | .error e => .error e
          | .ok l =>
            match rdpRec dist thr (points.drop i) with
            | .error e => .error e
            | .ok r => .ok (l ++ r) := by
  obtain ⟨x, hx, hmax⟩ := maxByLast_mem (interior d points points[0] points[points.length - 1])
    (interior_ne_nil d points _ _ h2)
  obtain ⟨hi, h0, h1, he⟩ := interior_mem d points _ _ x hx
  refine ⟨x.2, hi, h0, h1, by rw [hmax, ← he], ?_⟩
  rw [rdpRec, dif_neg (by omega)]
  have hm : ((points.zipIdx.drop 1).take (points.length - 2)).mapM
        (fun (p, i) => (dist points[0] points[points.length - 1] p).map (fun d => (d, i))) =
      .ok (interior d points points[0] points[points.length - 1]) := by
    unfold interior
    apply mapM_ok
    rintro ⟨p, i⟩ hp
    have hp' : p ∈ points := by
      have := List.mem_of_mem_drop (List.mem_of_mem_take hp)
      exact List.fst_mem_of_mem_zipIdx this
    simp only [hd _ (List.getElem_mem _) _ (List.getElem_mem _) p hp']
    rfl
  simp only [hm, hmax, Option.getD_some]
  rw [he]
  by_cases hc : d points[0] points[points.length - 1] points[x.2] <=. thr
  · simp only [hc, if_true]
  · simp only [hc, dif_pos (And.intro h0 h1)]
    rfl

theorem rdpRec_short (dist : P → P → P → Except Err α) (thr : α) (points : List P) (a : P)
    (h : points.getLast? = some a) (h2 : points.length ≤ 2) : rdpRec dist thr points = .ok [a] := by
  rw [rdpRec, dif_pos h2, h]

/-- Induction principle for the result of the recursion. -/
theorem rdpRec_induct (dist : P → P → P → Except Err α) (d : P → P → P → α) (thr : α)
    (C : List P → List P → Prop)
    (h1 : ∀ a, C [a] [a]) (h2 : ∀ a b, C [a, b] [b])
    (hnear : ∀ (points : List P) (i : Nat) (h2 : 2 < points.length) (hi : i < points.length),
      0 < i → i + 1 < points.length →
      maxByLast (interior d points points[0] points[points.length - 1]) =
        some (d points[0] points[points.length - 1] points[i], i) →
      (d points[0] points[points.length - 1] points[i] <=. thr) = true →
      C points [points[points.length - 1]])
    (hsplit : ∀ (points l r : List P) (i : Nat) (h2 : 2 < points.length) (hi : i < points.length),
      0 < i → i + 1 < points.length →
      maxByLast (interior d points points[0] points[points.length - 1]) =
        some (d points[0] points[points.length - 1] points[i], i) →
      (d points[0] points[points.length - 1] points[i] <=. thr) = false →
      C (points.take (i + 1)) l → C (points.drop i) r → C points (l ++ r))
    (points : List P) (hne : points ≠ [])
    (hd : ∀ a ∈ points, ∀ b ∈ points, ∀ p ∈ points, dist a b p = .ok (d a b p)) :
    ∃ out, rdpRec dist thr points = .ok out ∧ C points out := by
  induction hn : points.length using Nat.strong_induction_on generalizing points with
  | _ n ih =>
    subst hn
    by_cases hl : points.length ≤ 2
    · match points, hne, hl with
      | [a], _, _ => exact ⟨_, rdpRec_short _ _ _ _ rfl (by simp), h1 a⟩
      | [a, b], _, _ => exact ⟨_, rdpRec_short _ _ _ _ rfl (by simp), h2 a b⟩
    · have hl : 2 < points.length := by omega
      obtain ⟨i, hi, i0, i1, hmax, heq⟩ := rdpRec_unfold dist d thr points hd hl
      by_cases hc : d points[0] points[points.length - 1] points[i] <=. thr
      · rw [if_pos hc] at heq
        exact ⟨_, heq, hnear points i hl hi i0 i1 hmax hc⟩
      · rw [if_neg hc] at heq
        obtain ⟨l, hl1, hl2⟩ := ih (points.take (i + 1)).length (by simp; omega) (points.take (i + 1))
          (by apply List.ne_nil_of_length_pos; simp; omega)
          (fun a ha b hb p hp => hd a (List.mem_of_mem_take ha) b (List.mem_of_mem_take hb) p
            (List.mem_of_mem_take hp)) rfl
        obtain ⟨r, hr1, hr2⟩ := ih (points.drop i).length (by simp; omega) (points.drop i)
          (by apply List.ne_nil_of_length_pos; simp; omega)
          (fun a ha b hb p hp => hd a (List.mem_of_mem_drop ha) b (List.mem_of_mem_drop hb) p
            (List.mem_of_mem_drop hp)) rfl
        rw [hl1, hr1] at heq
        exact ⟨_, heq, hsplit points l r i hl hi i0 i1 hmax (by simpa using hc) hl2 hr2⟩

/-- gluing two simplifications at a common end point -/
theorem Simplification.append {ok : P → P → P → Prop} {A O : List P} (h : Simplification ok A O)
    {x : P} {L O2 : List P} (hx : A.getLast? = some x) (h2 : Simplification ok (x :: L) (x :: O2)) :
    Simplification ok (A ++ L) (O ++ O2) := by
  induction h with
  | single a =>
    simp only [List.getLast?_singleton, Option.some.injEq] at hx
    subst hx
    exact h2
  | step a b dropped rest out hok h ih =>
    have hx' : (b :: rest).getLast? = some x := by
      rw [← hx]
      rw [List.getLast?_cons, List.getLast?_cons, List.getLast?_append, List.getLast?_cons]
      simp
    have := ih hx'
    simpa using Simplification.step a b dropped (rest ++ L) (out ++ O2) hok (by simpa using this)

theorem Simplification.ends {ok : P → P → P → Prop} {A O : List P} (h : Simplification ok A O) :
    O.Sublist A ∧ O.head? = A.head? ∧ O.getLast? = A.getLast? := by
  induction h with
  | single a => simp
  | step a b dropped rest out hok h ih =>
    refine ⟨?_, rfl, ?_⟩
    · exact List.Sublist.cons_cons _ (ih.1.trans (List.sublist_append_right _ _))
    · have e : a :: (dropped ++ b :: rest) = (a :: dropped) ++ b :: rest := rfl
      have e2 : a :: b :: out = [a] ++ b :: out := rfl
      rw [e, e2, List.getLast?_append, List.getLast?_append, ih.2.2]
      simp [List.getLast?_cons]

theorem Simplification.mono {ok ok' : P → P → P → Prop} (hm : ∀ a b p, ok a b p → ok' a b p)
    {A O : List P} (h : Simplification ok A O) : Simplification ok' A O := by
  induction h with
  | single a => exact .single a
  | step a b dropped rest out hok h ih =>
    exact .step a b dropped rest out (fun p hp => hm _ _ _ (hok p hp)) ih

theorem list_ends (points : List P) (h : 2 ≤ points.length) :
    points = points[0] :: ((points.drop 1).take (points.length - 2) ++ [points[points.length - 1]]) := by
  match points, h with
  | a :: b :: rest, _ =>
    apply List.ext_getElem
    · simp
    · intro n h1 h2
      rcases n with - | n
      · simp
      · simp only [List.getElem_cons_succ, List.getElem_append, List.length_take]
        split
        · simp
        · simp only [List.length_drop, List.length_cons] at *
          have : n = rest.length := by simp at *; omega
          subst this
          simp

theorem head_of_take (points : List P) (i : Nat) (h : 0 < points.length) :
    (points.take (i + 1)).head? = some points[0] := by
  cases points with
  | nil => simp at h
  | cons a l => simp

/-- The recursion computes a simplification: `first :: result` is a simplification of the input,
with a condition on dropped points that only requires what is known about the farthest point. -/
theorem rdpRec_simplification (dist : P → P → P → Except Err α) (d : P → P → P → α) (thr : α)
    (ok : P → P → P → Prop)
    (hok : ∀ (points : List P) (i : Nat) (h2 : 2 < points.length) (hi : i < points.length),
      0 < i → i + 1 < points.length →
      maxByLast (interior d points points[0] points[points.length - 1]) =
        some (d points[0] points[points.length - 1] points[i], i) →
      (d points[0] points[points.length - 1] points[i] <=. thr) = true →
      ∀ p ∈ (points.drop 1).take (points.length - 2), ok points[0] points[points.length - 1] p)
    (a : P) (rest : List P) (hne : rest ≠ [])
    (hd : ∀ x ∈ a :: rest, ∀ y ∈ a :: rest, ∀ p ∈ a :: rest, dist x y p = .ok (d x y p)) :
    ∃ out, rdpRec dist thr (a :: rest) = .ok out ∧ Simplification ok (a :: rest) (a :: out) := by
  have := rdpRec_induct dist d thr
    (fun pts out => 2 ≤ pts.length → ∀ a, pts.head? = some a → Simplification ok pts (a :: out))
    (by intro a h; simp at h)
    (by
      intro a b _ c hc
      simp only [List.head?_cons, Option.some.injEq] at hc
      subst hc
      exact Simplification.step a b [] [] [] (by simp) (.single b))
    (by
      intro points i h2 hi i0 i1 hmax hle _ c hc
      have e := list_ends points (by omega)
      have hc' : points[0] = c := by
        rw [List.head?_eq_getElem?, List.getElem?_eq_getElem (by omega)] at hc
        simpa using hc
      have := Simplification.step points[0] points[points.length - 1]
        ((points.drop 1).take (points.length - 2)) [] [] (hok points i h2 hi i0 i1 hmax hle)
        (.single _)
      rw [← e] at this
      rwa [hc'] at this)
    (by
      intro points l r i h2 hi i0 i1 hmax hle ihl ihr _ c hc
      have hc' : points[0] = c := by
        rw [List.head?_eq_getElem?, List.getElem?_eq_getElem (by omega)] at hc
        simpa using hc
      have hL := ihl (by simp; omega) c (by rw [head_of_take _ _ (by omega), hc'])
      have hR := ihr (by simp; omega) points[i] (by
        rw [List.head?_drop, List.getElem?_eq_getElem hi])
      have hdrop : points.drop i = points[i] :: points.drop (i + 1) :=
        List.drop_eq_getElem_cons hi
      rw [hdrop] at hR
      have hlast : (points.take (i + 1)).getLast? = some points[i] := by
        rw [List.getLast?_eq_getElem?]
        simp only [List.length_take]
        have : min (i + 1) points.length - 1 = i := by omega
        rw [this, List.getElem?_take]
        simp [hi]
      have := Simplification.append hL hlast hR
      rwa [List.take_append_drop] at this)
    (a :: rest) (by simp) hd
  obtain ⟨out, h1, h2⟩ := this
  refine ⟨out, h1, h2 ?_ a rfl⟩
  cases rest with
  | nil => exact absurd rfl hne
  | cons b l => simp

theorem last_idx (l : List P) (e : P) (h : (l ++ [e]).length - 1 < (l ++ [e]).length) :
    (l ++ [e])[(l ++ [e]).length - 1] = e := by simp

section ordered
variable [LinearOrder α] [OrderedScalar α]

theorem maxStep_ordered (x y : α × Nat) : maxStep x y = if y.1 < x.1 then x else y := by
  unfold maxStep
  rw [pcmp_ordered, Option.getD_some]
  simp only [compare_gt_iff_gt]

theorem maxByLast_max (l : List (α × Nat)) (x : α × Nat) (h : maxByLast l = some x) :
    ∀ y ∈ l, y.1 ≤ x.1 := by
  cases l with
  | nil => simp
  | cons a l =>
    simp only [maxByLast, Option.some.injEq] at h
    have key : ∀ (l : List (α × Nat)) (a : α × Nat), ∀ y ∈ a :: l, y.1 ≤
        (l.foldl maxStep a).1 := by
      intro l
      induction l with
      | nil => intro a y hy; simp at hy; subst hy; exact le_rfl
      | cons b l ih =>
        intro a y hy
        simp only [List.foldl_cons, maxStep_ordered]
        have ha := ih a a (by simp)
        have hb := ih b b (by simp)
        rw [List.mem_cons, List.mem_cons] at hy
        split
        · next h =>
          rcases hy with rfl | rfl | hy
          · exact ha
          · exact h.le.trans ha
          · exact ih a y (by simp [hy])
        · next h =>
          push Not at h
          rcases hy with rfl | rfl | hy
          · exact h.trans hb
          · exact hb
          · exact ih b y (by simp [hy])
    rw [← h]; exact key l a

/-- an element that is at least all earlier ones and greater than all later ones is the result of
`maxByLast` -/
theorem maxByLast_unique (l r : List (α × Nat)) (x : α × Nat) (hl : ∀ y ∈ l, y.1 ≤ x.1)
    (hr : ∀ y ∈ r, y.1 < x.1) : maxByLast (l ++ x :: r) = some x := by
  have hr' : ∀ (r : List (α × Nat)), (∀ y ∈ r, y.1 < x.1) → r.foldl maxStep x = x := by
    intro r
    induction r with
    | nil => intro _; rfl
    | cons b r ih =>
      intro h
      simp only [List.foldl_cons, maxStep_ordered, if_pos (h b (by simp))]
      exact ih (fun y hy => h y (by simp [hy]))
  have hl' : ∀ (l : List (α × Nat)) (a : α × Nat), (∀ y ∈ a :: l, y.1 ≤ x.1) →
      (l ++ [x]).foldl maxStep a = x := by
    intro l
    induction l with
    | nil =>
      intro a h
      have := h a (by simp)
      simp only [List.nil_append, List.foldl_cons, List.foldl_nil, maxStep_ordered,
        if_neg (not_lt.2 this)]
    | cons b l ih =>
      intro a h
      simp only [List.cons_append, List.foldl_cons]
      apply ih
      intro y hy
      rcases List.mem_cons.1 hy with rfl | hy
      · rw [maxStep_ordered]
        split
        · exact h _ (by simp)
        · exact h _ (by simp)
      · exact h y (by simp [hy])
  cases l with
  | nil => simp only [List.nil_append, maxByLast, hr' r hr]
  | cons a l =>
    have e : l ++ x :: r = (l ++ [x]) ++ r := by simp
    simp only [List.cons_append, maxByLast]
    rw [e, List.foldl_append, hl' l a hl, hr' r hr]

/-- conversely the result of `maxByLast` is greater than everything after it -/
theorem maxByLast_last (l : List (α × Nat)) (x : α × Nat) (h : maxByLast l = some x) :
    ∃ l1 l2, l = l1 ++ x :: l2 ∧ (∀ y ∈ l1, y.1 ≤ x.1) ∧ ∀ y ∈ l2, y.1 < x.1 := by
  -- take the last element that is maximal
  have hmax := maxByLast_max l x h
  have hex : ∀ l : List (α × Nat), l ≠ [] → ∃ l1 z l2, l = l1 ++ z :: l2 ∧ (∀ y ∈ l1, y.1 ≤ z.1) ∧
      ∀ y ∈ l2, y.1 < z.1 := by
    intro l
    induction l with
    | nil => intro h; exact absurd rfl h
    | cons a l ih =>
      intro _
      by_cases hl : l = []
      · subst hl; exact ⟨[], a, [], rfl, by simp, by simp⟩
      · obtain ⟨l1, z, l2, rfl, h1, h2⟩ := ih hl
        by_cases hz : a.1 ≤ z.1
        · exact ⟨a :: l1, z, l2, rfl, by
            intro y hy; rcases List.mem_cons.1 hy with rfl | hy
            · exact hz
            · exact h1 y hy, h2⟩
        · push Not at hz
          refine ⟨[], a, l1 ++ z :: l2, rfl, by simp, ?_⟩
          intro y hy
          rcases List.mem_append.1 hy with hy | hy
          · exact (h1 y hy).trans_lt hz
          · rcases List.mem_cons.1 hy with rfl | hy
            · exact hz
            · exact (h2 y hy).trans hz
  have hne : l ≠ [] := by rintro rfl; simp [maxByLast] at h
  obtain ⟨l1, z, l2, e, h1, h2⟩ := hex l hne
  have := maxByLast_unique l1 l2 z h1 h2
  rw [← e, h] at this
  cases this
  exact ⟨l1, l2, e, h1, h2⟩

omit [Scalar α] [LinearOrder α] [OrderedScalar α] in
theorem interior_form (d : P → P → P → α) (s : P) (mid : List P) (e s' e' : P) :
    interior d (s :: (mid ++ [e])) s' e' = (mid.zipIdx 1).map (fun (p, i) => (d s' e' p, i)) := by
  unfold interior
  rw [List.zipIdx_cons, List.drop_one, List.tail_cons, List.zipIdx_append]
  rw [List.take_append_of_le_length (by simp)]
  rw [List.take_of_length_le (by simp)]

omit [Scalar α] [LinearOrder α] [OrderedScalar α] in
theorem interior_form3 (d : P → P → P → α) (s : P) (m1 : List P) (x : P) (m2 : List P) (e s' e' : P) :
    interior d (s :: (m1 ++ x :: m2 ++ [e])) s' e' =
      (m1.zipIdx 1).map (fun (p, i) => (d s' e' p, i)) ++ (d s' e' x, m1.length + 1) ::
        (m2.zipIdx (m1.length + 2)).map (fun (p, i) => (d s' e' p, i)) := by
  rw [interior_form, List.zipIdx_append, List.zipIdx_cons, List.map_append, List.map_cons]
  have h1 : 1 + m1.length = m1.length + 1 := by omega
  have h2 : m1.length + 1 + 1 = m1.length + 2 := by omega
  rw [h1, h2]

theorem farthest_form (d : P → P → P → α) (s : P) (m1 : List P) (x : P) (m2 : List P) (e : P) :
    maxByLast (interior d (s :: (m1 ++ x :: m2 ++ [e])) s e) = some (d s e x, m1.length + 1) ↔
      (∀ y ∈ m1, d s e y ≤ d s e x) ∧ ∀ y ∈ m2, d s e y < d s e x := by
  rw [interior_form3]
  constructor
  · intro h
    obtain ⟨k1, k2, he, h1, h2⟩ := maxByLast_last _ _ h
    have hlen : k1.length = m1.length := by
      have hg : ((m1.zipIdx 1).map (fun (p, i) => (d s e p, i)) ++ (d s e x, m1.length + 1) ::
        (m2.zipIdx (m1.length + 2)).map (fun (p, i) => (d s e p, i)))[k1.length]? =
          some (d s e x, m1.length + 1) := by rw [he]; simp
      rw [← interior_form3 d s m1 x m2 e s e, interior_form] at hg
      rw [List.getElem?_map, List.getElem?_zipIdx] at hg
      cases hq : (m1 ++ x :: m2)[k1.length]? with
      | none => rw [hq] at hg; simp at hg
      | some q =>
        rw [hq] at hg
        simp at hg
        omega
    obtain ⟨e1, e2⟩ := List.append_inj he (by simp [hlen])
    rw [List.cons.injEq] at e2
    obtain ⟨-, e2⟩ := e2
    subst e1 e2
    constructor
    · intro y hy
      obtain ⟨k, hk, rfl⟩ := List.getElem_of_mem hy
      exact h1 (d s e m1[k], 1 + k) (by
        rw [List.mem_map]
        exact ⟨(m1[k], 1 + k), List.mem_of_getElem? (i := k) (by simp [hk]), rfl⟩)
    · intro y hy
      obtain ⟨k, hk, rfl⟩ := List.getElem_of_mem hy
      exact h2 (d s e m2[k], m1.length + 2 + k) (by
        rw [List.mem_map]
        exact ⟨(m2[k], m1.length + 2 + k), List.mem_of_getElem? (i := k) (by simp [hk]), rfl⟩)
  · rintro ⟨h1, h2⟩
    apply maxByLast_unique
    · intro y hy
      rw [List.mem_map] at hy
      obtain ⟨⟨p, i⟩, hp, rfl⟩ := hy
      exact h1 p (List.fst_mem_of_mem_zipIdx hp)
    · intro y hy
      rw [List.mem_map] at hy
      obtain ⟨⟨p, i⟩, hp, rfl⟩ := hy
      exact h2 p (List.fst_mem_of_mem_zipIdx hp)

omit [Scalar α] [LinearOrder α] [OrderedScalar α] in
theorem split_form (points : List P) (i : Nat) (h0 : 0 < i) (h1 : i + 1 < points.length) :
    ∃ s m1 x m2 e, points = s :: (m1 ++ x :: m2 ++ [e]) ∧ i = m1.length + 1 ∧
      points.take (i + 1) = s :: (m1 ++ [x]) ∧ points.drop i = x :: (m2 ++ [e]) := by
  have h2 : 2 ≤ points.length := by omega
  match points, h2 with
  | s :: rest, h2 =>
    obtain ⟨j, rfl⟩ : ∃ j, i = j + 1 := ⟨i - 1, by omega⟩
    have hj : j < rest.length := by simp at h1; omega
    have er : rest = rest.take j ++ rest[j] :: rest.drop (j + 1) := by
      rw [List.getElem_cons_drop, List.take_append_drop]
    have hne : rest.drop (j + 1) ≠ [] := by
      apply List.ne_nil_of_length_pos; simp at h1 ⊢; omega
    have ed : rest.drop (j + 1) = (rest.drop (j + 1)).dropLast ++ [(rest.drop (j + 1)).getLast hne] :=
      (List.dropLast_append_getLast hne).symm
    refine ⟨s, rest.take j, rest[j], (rest.drop (j + 1)).dropLast, (rest.drop (j + 1)).getLast hne,
      ?_, ?_, ?_, ?_⟩
    · rw [List.append_assoc, List.cons_append, ← ed, ← er]
    · simp; omega
    · rw [List.take_succ_cons, List.take_succ_eq_append_getElem hj]
    · rw [List.drop_succ_cons, List.drop_eq_getElem_cons hj, ← ed]

/-- Idempotence of the recursion. -/
theorem rdpRec_idem (d : P → P → P → α) (thr : α) (points : List P) (hne : points ≠ []) :
    ∃ out, rdpRec (fun a b p => .ok (d a b p)) thr points = .ok out ∧
      (2 ≤ points.length → ∀ a, points.head? = some a →
        (a :: out).Sublist points ∧ out.getLast? = points.getLast? ∧
        rdpRec (fun a b p => .ok (d a b p)) thr (a :: out) = .ok out) := by
  apply rdpRec_induct (fun a b p => .ok (d a b p)) d thr
    (fun points out => 2 ≤ points.length → ∀ a, points.head? = some a →
        (a :: out).Sublist points ∧ out.getLast? = points.getLast? ∧
        rdpRec (fun a b p => .ok (d a b p)) thr (a :: out) = .ok out) _ _ _ _ points hne
    (by intros; rfl)
  · intro a h; simp at h
  · intro a b _ c hc
    simp only [List.head?_cons, Option.some.injEq] at hc
    subst hc
    exact ⟨List.Sublist.refl _, rfl, rdpRec_short _ _ _ _ rfl (by simp)⟩
  · intro points i h2 hi i0 i1 hmax hle _ c hc
    obtain ⟨s, m1, x, m2, e, he, -, -, -⟩ := split_form points i i0 i1
    subst he
    simp only [List.head?_cons, Option.some.injEq] at hc
    subst hc
    have : (s :: (m1 ++ x :: m2 ++ [e]))[(s :: (m1 ++ x :: m2 ++ [e])).length - 1] = e :=
      last_idx (s :: (m1 ++ x :: m2)) e (by simp)
    rw [this]
    refine ⟨?_, by simp [List.getLast?_cons], rdpRec_short _ _ _ _ (by simp) (by simp)⟩
    exact List.Sublist.cons_cons _ (List.sublist_append_right _ _)
  · intro points l r i h2 hi i0 i1 hmax hle ihl ihr _ c hc
    obtain ⟨s, m1, x, m2, e, he, hi2, ht, hdr⟩ := split_form points i i0 i1
    have hl := ihl (by rw [ht]; simp) s (by rw [ht]; rfl)
    have hr := ihr (by rw [hdr]; simp) x (by rw [hdr]; rfl)
    rw [ht] at hl
    rw [hdr] at hr
    have hcs : c = s := by rw [he] at hc; simpa using hc.symm
    subst hcs
    have hgi : points[i] = x := by
      subst he hi2; simp
    have hg0 : points[0] = c := by subst he; simp
    have hge : points[points.length - 1] = e := by
      subst he; exact last_idx (c :: (m1 ++ x :: m2)) e (by simp)
    rw [hgi, hg0, hge] at hmax hle
    obtain ⟨hl1, hl2, hl3⟩ := hl
    obtain ⟨hr1, hr2, hr3⟩ := hr
    obtain ⟨l1, rfl⟩ : ∃ l1, l = l1 ++ [x] := by
      have hl2' : l.getLast? = some x := by rw [hl2]; simp [List.getLast?_cons]
      exact ⟨_, (List.dropLast_append_getLast? x hl2').symm⟩
    obtain ⟨r1, rfl⟩ : ∃ r1, r = r1 ++ [e] := by
      have hr2' : r.getLast? = some e := by rw [hr2]; simp [List.getLast?_cons]
      exact ⟨_, (List.dropLast_append_getLast? e hr2').symm⟩
    rw [List.cons_sublist_cons, List.append_sublist_append_right] at hl1 hr1
    rw [he, hi2, farthest_form] at hmax
    have eout : c :: (l1 ++ [x] ++ (r1 ++ [e])) = c :: (l1 ++ x :: r1 ++ [e]) := by simp
    refine ⟨?_, ?_, ?_⟩
    · rw [he, eout, List.cons_sublist_cons, List.append_sublist_append_right]
      exact List.Sublist.append hl1 (List.Sublist.cons_cons _ hr1)
    · rw [he]; simp [List.getLast?_cons]
    · have hmax' := (farthest_form d c l1 x r1 e).2
        ⟨fun y hy => hmax.1 y (hl1.subset hy), fun y hy => hmax.2 y (hr1.subset hy)⟩
      obtain ⟨k, hk, k0, k1, hkm, hkeq⟩ := rdpRec_unfold (fun a b p => .ok (d a b p)) d thr
        (c :: (l1 ++ x :: r1 ++ [e])) (by intros; rfl) (by simp; omega)
      have e0 : (c :: (l1 ++ x :: r1 ++ [e]))[0] = c := rfl
      have e1 : (c :: (l1 ++ x :: r1 ++ [e]))[(c :: (l1 ++ x :: r1 ++ [e])).length - 1] = e :=
        last_idx (c :: (l1 ++ x :: r1)) e (by simp)
      rw [e0, e1] at hkm hkeq
      rw [hmax'] at hkm
      have hk2 : k = l1.length + 1 := by
        have := Option.some.inj hkm
        exact (Prod.mk.inj this).2.symm
      subst hk2
      have ex : (c :: (l1 ++ x :: r1 ++ [e]))[l1.length + 1] = x := by simp
      rw [ex, if_neg (by rw [hle]; simp)] at hkeq
      have t1 : (c :: (l1 ++ x :: r1 ++ [e])).take (l1.length + 1 + 1) = c :: (l1 ++ [x]) := by
        rw [List.take_succ_cons, List.append_assoc, List.take_append]
        simp
      have t2 : (c :: (l1 ++ x :: r1 ++ [e])).drop (l1.length + 1) = x :: (r1 ++ [e]) := by
        simp
      rw [t1, t2, hl3, hr3] at hkeq
      rw [eout, hkeq]

end ordered

/-- the recursion commutes with a map of the points -/
theorem rdpRec_map {Q : Type} (f : Q → P) (dist : P → P → P → Except Err α)
    (distQ : Q → Q → Q → Except Err α) (thr : α) (points : List Q)
    (h : ∀ a ∈ points, ∀ b ∈ points, ∀ p ∈ points, distQ a b p = dist (f a) (f b) (f p)) :
    rdpRec dist thr (points.map f) = (rdpRec distQ thr points).map (List.map f) := by
  induction hn : points.length using Nat.strong_induction_on generalizing points with
  | _ n ih =>
    subst hn
    rw [rdpRec, rdpRec]
    by_cases hl : points.length ≤ 2
    · rw [dif_pos (by simpa using hl), dif_pos hl, List.getLast?_map]
      cases points.getLast? <;> rfl
    · rw [dif_neg (by simpa using hl), dif_neg hl]
      have hl0 : 0 < (points.map f).length := by simp; omega
      have hl1 : (points.map f).length - 1 < (points.map f).length := by omega
      have hm : (((points.map f).zipIdx.drop 1).take ((points.map f).length - 2)).mapM
            (fun (p, i) => (dist (points.map f)[0] (points.map f)[(points.map f).length - 1] p).map
              (fun d => (d, i))) =
          ((points.zipIdx.drop 1).take (points.length - 2)).mapM
            (fun (p, i) => (distQ points[0] points[points.length - 1] p).map (fun d => (d, i))) := by
        have hz : (points.map f).zipIdx = points.zipIdx.map (fun (p, i) => (f p, i)) := by
          rw [List.zipIdx_map]; rfl
        have ht : ((points.map f).zipIdx.drop 1).take ((points.map f).length - 2) =
            (((points.zipIdx.drop 1).take (points.length - 2)).map (fun (p, i) => (f p, i))) := by
          rw [hz, List.length_map, ← List.map_drop, ← List.map_take]
        rw [ht]
        have gen : ∀ l : List (Q × Nat), (∀ x ∈ l, x.1 ∈ points) →
            (l.map (fun (p, i) => (f p, i))).mapM
            (fun (p, i) => (dist (points.map f)[0] (points.map f)[(points.map f).length - 1] p).map
              (fun d => (d, i))) =
            l.mapM (fun (p, i) => (distQ points[0] points[points.length - 1] p).map
              (fun d => (d, i))) := by
          intro l
          induction l with
          | nil => intro _; rfl
          | cons x l ihl =>
            intro hx
            rw [List.map_cons, List.mapM_cons, List.mapM_cons, ihl (fun y hy => hx y (by simp [hy]))]
            have := h points[0] (List.getElem_mem _) points[points.length - 1] (List.getElem_mem _) x.1
              (hx x (by simp))
            simp only [this, List.getElem_map, List.length_map]
        exact gen ((points.zipIdx.drop 1).take (points.length - 2)) (fun x hx =>
          List.fst_mem_of_mem_zipIdx (List.mem_of_mem_drop (List.mem_of_mem_take hx)))
      simp only [hm]
      cases hq : ((points.zipIdx.drop 1).take (points.length - 2)).mapM
            (fun (p, i) => (distQ points[0] points[points.length - 1] p).map (fun d => (d, i))) with
      | error e => rfl
      | ok ds =>
        simp only
        generalize (maxByLast ds).getD (Scalar.neg one, 0) = m
        obtain ⟨md, i⟩ := m
        simp only
        split
        · simp [Except.map]
        · by_cases hi : 0 < i ∧ i + 1 < points.length
          · rw [dif_pos (by simpa using hi), dif_pos hi, ← List.map_take, ← List.map_drop]
            rw [ih (points.take (i + 1)).length (by simp; omega) (points.take (i + 1))
              (fun a ha b hb p hp => h a (List.mem_of_mem_take ha) b (List.mem_of_mem_take hb) p
                (List.mem_of_mem_take hp)) rfl]
            rw [ih (points.drop i).length (by simp; omega) (points.drop i)
              (fun a ha b hb p hp => h a (List.mem_of_mem_drop ha) b (List.mem_of_mem_drop hb) p
                (List.mem_of_mem_drop hp)) rfl]
            cases rdpRec distQ thr (points.take (i + 1)) with
            | error e => rfl
            | ok l =>
              cases rdpRec distQ thr (points.drop i) with
              | error e => rfl
              | ok r => simp [Except.map]
          · rw [dif_neg (by simpa using hi), dif_neg hi]; rfl

end Verif.Proofs.Rdp
