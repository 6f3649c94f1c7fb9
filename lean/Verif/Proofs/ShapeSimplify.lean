import Verif.Proofs.ShapeUnique
import Verif.Props.ShapeUnique
import Mathlib.Logic.Relation
/-!
# Thinning the shapes of a division keeps the network connected
-/
namespace Verif.Proofs.ShapeSimplify
open Verif.Spec.Shape Verif.Proofs.ShapeUnique Relation

variable {ind : List Nat} {shapes outs : List (List Nat)}

/-- two vertices are consecutive in one of the lists -/
def Joined (outs : List (List Nat)) (u v : Nat) : Prop := ∃ o ∈ outs, (u, v) ∈ windows o ∨ (v, u) ∈ windows o

theorem joined_symm {u v : Nat} (h : Joined outs u v) : Joined outs v u := by
  obtain ⟨o, ho, h⟩ := h
  exact ⟨o, ho, h.symm⟩

/-- both edges of a vertex with two neighbours are in the shape it is in -/
theorem all_edges (hns : NoSelfEdge ind) (D : Divides ind shapes) {s : List Nat} (hs : s ∈ shapes) {x c : Nat} (hx : x ∈ s)
    (h2 : TwoNeighbours ind x) (hc : Edge ind x c) : (x, c) ∈ windows s ∨ (c, x) ∈ windows s := by
  have R := D.run hs
  obtain ⟨i, hi⟩ := List.mem_iff_getElem?.1 hx
  have hil : i < s.length := (List.getElem?_eq_some_iff.1 hi).1
  have two : ∀ {a b : Nat}, Edge ind x a → Edge ind x b → a ≠ b → c = a ∨ c = b := by
    intro a b ha hb hab
    by_contra hcon
    push Not at hcon
    exact hcon.2 (two_other h2 ha hc hb (Ne.symm hcon.1) hab)
  have get : ∀ k, k < s.length → ∃ y, s[k]? = some y := fun k hk => ⟨s[k], List.getElem?_eq_getElem hk⟩
  by_cases inner : 0 < i ∧ i + 1 < s.length
  · obtain ⟨a, ha⟩ := get (i - 1) (by omega)
    obtain ⟨b, hb⟩ := get (i + 1) inner.2
    obtain ⟨i, rfl⟩ : ∃ k, i = k + 1 := ⟨i - 1, by omega⟩
    simp only [Nat.add_sub_cancel] at ha
    rcases two (edge_symm (R.edge _ _ _ ha hi)) (R.edge _ _ _ hi hb) (R.turn _ _ _ _ ha hi hb) with rfl | rfl
    · exact Or.inr (mem_windows.2 ⟨i, ha, hi⟩)
    · exact Or.inl (mem_windows.2 ⟨i + 1, hi, hb⟩)
  · have hlong := R.long
    have h0 : s[0]? = some x ∧ s[s.length - 1]? = some x := by
      have : i = 0 ∨ i = s.length - 1 := by omega
      rcases R.ends with ⟨e1, e2⟩ | e
      · rcases this with rfl | rfl
        · exact absurd h2 (e1 x hi)
        · exact absurd h2 (e2 x hi)
      · rcases this with rfl | rfl
        · exact ⟨hi, e ▸ hi⟩
        · exact ⟨e ▸ hi, hi⟩
    obtain ⟨b, hb⟩ := get 1 (by omega)
    obtain ⟨a, ha⟩ := get (s.length - 2) (by omega)
    have ha' : s[s.length - 2 + 1]? = some x := by rw [show s.length - 2 + 1 = s.length - 1 by omega]; exact h0.2
    have hab : b ≠ a := by
      rintro rfl
      have := D.one_place hs (windows_get h0.1 hb) (windows_get ha ha') (Or.inr rfl)
      have e : s[1]? = some x := by rw [show (1 : Nat) = s.length - 1 by omega]; exact h0.2
      rw [e] at hb
      cases hb
      exact hns x (R.edge _ _ _ h0.1 e)
    rcases two (R.edge _ _ _ h0.1 hb) (edge_symm (R.edge _ _ _ ha ha')) hab with rfl | rfl
    · exact Or.inl (mem_windows.2 ⟨0, h0.1, hb⟩)
    · exact Or.inr (mem_windows.2 ⟨_, ha, ha'⟩)

/-- a vertex of a shape has an edge in it -/
theorem has_edge (D : Divides ind shapes) {s : List Nat} (hs : s ∈ shapes) {x : Nat} (hx : x ∈ s) :
    ∃ c, Edge ind x c ∧ ((x, c) ∈ windows s ∨ (c, x) ∈ windows s) := by
  have R := D.run hs
  have hlong := R.long
  obtain ⟨i, hi⟩ := List.mem_iff_getElem?.1 hx
  have hil : i < s.length := (List.getElem?_eq_some_iff.1 hi).1
  cases i with
  | zero =>
    have hb : s[1]? = some s[1] := List.getElem?_eq_getElem (by omega)
    exact ⟨_, R.edge _ _ _ hi hb, Or.inl (mem_windows.2 ⟨0, hi, hb⟩)⟩
  | succ i =>
    have hb : s[i]? = some s[i] := List.getElem?_eq_getElem (by omega)
    exact ⟨_, edge_symm (R.edge _ _ _ hb hi), Or.inr (mem_windows.2 ⟨i, hb, hi⟩)⟩

/-- a vertex with two neighbours is in one shape only -/
theorem two_in_one (hns : NoSelfEdge ind) (D : Divides ind shapes) {i j : Nat} {s t : List Nat} (hs : shapes[i]? = some s)
    (ht : shapes[j]? = some t) {x : Nat} (hxs : x ∈ s) (hxt : x ∈ t) (h2 : TwoNeighbours ind x) : i = j := by
  obtain ⟨c, hc, hct⟩ := has_edge D (List.mem_of_getElem? ht) hxt
  rcases all_edges hns D (List.mem_of_getElem? hs) hxs h2 hc with h | h <;> rcases hct with h' | h'
  · exact D.one_shape hs ht h h' (Or.inl rfl)
  · exact D.one_shape hs ht h h' (Or.inr rfl)
  · exact D.one_shape hs ht h h' (Or.inr rfl)
  · exact D.one_shape hs ht h h' (Or.inl rfl)

/-- a vertex without two neighbours is an end of each shape it is in -/
theorem end_of (D : Divides ind shapes) {s : List Nat} (hs : s ∈ shapes) {x : Nat} (hx : x ∈ s)
    (h2 : ¬ TwoNeighbours ind x) : s.head? = some x ∨ s.getLast? = some x := by
  obtain ⟨f, m, l, rfl, h1, -, -, -⟩ := D.split s hs
  rcases List.mem_cons.1 hx with rfl | hx
  · exact Or.inl rfl
  rcases List.mem_append.1 hx with hx | hx
  · exact absurd (h1 x hx) h2
  · right
    rw [List.mem_singleton.1 hx, ← List.cons_append, List.getLast?_concat]

/-- an edge is in one of the shapes -/
theorem edge_shape (D : Divides ind shapes) {u v : Nat} (h : Edge ind u v) : ∃ s ∈ shapes, u ∈ s ∧ v ∈ s := by
  have key : ∀ {s : List Nat} {a b : Nat}, (a, b) ∈ windows s → a ∈ s ∧ b ∈ s := by
    intro s a b h
    obtain ⟨i, h1, h2⟩ := mem_windows.1 h
    exact ⟨List.mem_of_getElem? h1, List.mem_of_getElem? h2⟩
  obtain ⟨s, hs, h | h⟩ := D.find h
  · exact ⟨s, hs, key h⟩
  · exact ⟨s, hs, (key h).symm⟩

/-- the elements of a list are connected in it -/
theorem along {R : Nat → Nat → Prop} (hsymm : ∀ a b, R a b → R b a) : ∀ {s : List Nat}, (∀ a b, (a, b) ∈ windows s → R a b) →
    ∀ {u v : Nat}, u ∈ s → v ∈ s → ReflTransGen R u v := by
  have first : ∀ {s : List Nat}, (∀ a b, (a, b) ∈ windows s → R a b) → ∀ {i : Nat} {u v : Nat}, s[0]? = some u → s[i]? = some v →
      ReflTransGen R u v := by
    intro s h i
    induction i with
    | zero =>
      intro u v hu hv
      rw [hu] at hv
      cases hv
      exact .refl
    | succ i ih =>
      intro u v hu hv
      have hl : i + 1 < s.length := (List.getElem?_eq_some_iff.1 hv).1
      have hb : s[i]? = some s[i] := List.getElem?_eq_getElem (by omega)
      exact (ih hu hb).tail (h _ _ (mem_windows.2 ⟨i, hb, hv⟩))
  intro s h u v hu hv
  obtain ⟨i, hi⟩ := List.mem_iff_getElem?.1 hu
  obtain ⟨j, hj⟩ := List.mem_iff_getElem?.1 hv
  have hl : i < s.length := (List.getElem?_eq_some_iff.1 hi).1
  have hb : s[0]? = some s[0] := List.getElem?_eq_getElem (by omega)
  have : Std.Symm R := ⟨hsymm⟩
  exact (Std.Symm.symm _ _ (first h hb hi)).trans (first h hb hj)

/-- `o` is `s` with some of the inner entries left out -/
structure Thin (s o : List Nat) : Prop where
  sub : o.Sublist s
  head : o.head? = s.head?
  last : o.getLast? = s.getLast?

theorem forall₂_get {A B : Type} {R : A → B → Prop} {l : List A} {m : List B} (h : List.Forall₂ R l m) :
    l.length = m.length ∧ ∀ (i : Nat) (a : A) (b : B), l[i]? = some a → m[i]? = some b → R a b := by
  induction h with
  | nil => simp
  | cons hab _ ih =>
    refine ⟨by simp [ih.1], ?_⟩
    intro i
    cases i with
    | zero => intro a b ha hb; cases ha; cases hb; exact hab
    | succ i => intro a b ha hb; exact ih.2 i a b ha hb

theorem thin_left (F : List.Forall₂ Thin shapes outs) {i : Nat} {s : List Nat} (hs : shapes[i]? = some s) :
    ∃ o, outs[i]? = some o ∧ Thin s o := by
  have hl : i < shapes.length := (List.getElem?_eq_some_iff.1 hs).1
  obtain ⟨h1, h2⟩ := forall₂_get F
  exact ⟨outs[i]'(h1 ▸ hl), List.getElem?_eq_getElem _, h2 _ _ _ hs (List.getElem?_eq_getElem _)⟩

theorem thin_right (F : List.Forall₂ Thin shapes outs) {i : Nat} {o : List Nat} (ho : outs[i]? = some o) :
    ∃ s, shapes[i]? = some s ∧ Thin s o := by
  have hl : i < outs.length := (List.getElem?_eq_some_iff.1 ho).1
  obtain ⟨h1, h2⟩ := forall₂_get F
  exact ⟨shapes[i]'(h1 ▸ hl), List.getElem?_eq_getElem _, h2 _ _ _ (List.getElem?_eq_getElem _) ho⟩

theorem end_mem {s o : List Nat} (T : Thin s o) {x : Nat} (h : s.head? = some x ∨ s.getLast? = some x) : x ∈ o := by
  rcases h with h | h
  · rw [← T.head] at h
    exact List.mem_of_head? h
  · rw [← T.last] at h
    exact List.mem_of_getLast? h

/-- a junction or dead end stays an end -/
theorem junction_kept (D : Divides ind shapes) (F : List.Forall₂ Thin shapes outs) {v u : Nat} (h : Edge ind v u)
    (h2 : ¬ TwoNeighbours ind v) : ∃ o ∈ outs, o.head? = some v ∨ o.getLast? = some v := by
  obtain ⟨s, hs, hv, -⟩ := edge_shape D h
  obtain ⟨i, hi⟩ := List.mem_iff_getElem?.1 hs
  obtain ⟨o, ho, T⟩ := thin_left F hi
  refine ⟨o, List.mem_of_getElem? ho, ?_⟩
  rw [T.head, T.last]
  exact end_of D hs hv h2

theorem meet_at_junctions (hns : NoSelfEdge ind) (D : Divides ind shapes) (F : List.Forall₂ Thin shapes outs) {i j : Nat} {o p : List Nat}
    (ho : outs[i]? = some o) (hp : outs[j]? = some p) (hij : i ≠ j) {x : Nat} (hxo : x ∈ o) (hxp : x ∈ p) :
    ¬ TwoNeighbours ind x := by
  intro h2
  obtain ⟨s, hs, T⟩ := thin_right F ho
  obtain ⟨t, ht, T'⟩ := thin_right F hp
  exact hij (two_in_one hns D hs ht (T.sub.subset hxo) (T'.sub.subset hxp) h2)

theorem connected_iff (hns : NoSelfEdge ind) (D : Divides ind shapes) (F : List.Forall₂ Thin shapes outs) {u v : Nat}
    (hu : ∃ o ∈ outs, u ∈ o) (hv : ∃ o ∈ outs, v ∈ o) :
    ReflTransGen (Joined outs) u v ↔ ReflTransGen (Edge ind) u v := by
  constructor
  · intro h
    clear hu hv
    induction h with
    | refl => exact .refl
    | @tail b c _ h ih =>
      refine ih.trans ?_
      obtain ⟨o, ho, h⟩ := h
      obtain ⟨i, hi⟩ := List.mem_iff_getElem?.1 ho
      obtain ⟨s, hs, T⟩ := thin_right F hi
      have mem : b ∈ o ∧ c ∈ o := by
        rcases h with h | h <;> obtain ⟨k, h1, h2⟩ := mem_windows.1 h
        · exact ⟨List.mem_of_getElem? h1, List.mem_of_getElem? h2⟩
        · exact ⟨List.mem_of_getElem? h2, List.mem_of_getElem? h1⟩
      exact along (fun a b h => edge_symm h) (fun a b h => D.edge s (List.mem_of_getElem? hs) _ h)
        (T.sub.subset mem.1) (T.sub.subset mem.2)
  · intro h
    have all : ∀ {o : List Nat}, o ∈ outs → ∀ {a b : Nat}, a ∈ o → b ∈ o → ReflTransGen (Joined outs) a b :=
      fun {o} ho {a b} ha hb => along (R := Joined outs) (fun a b h => joined_symm h) (fun a b h => ⟨o, ho, Or.inl h⟩) ha hb
    have claim : ∀ {x : Nat}, ReflTransGen (Edge ind) u x → ∀ (i : Nat) (s o : List Nat), shapes[i]? = some s → outs[i]? = some o →
        x ∈ s → ∀ k ∈ o, ReflTransGen (Joined outs) u k := by
      intro x hx
      induction hx with
      | refl =>
        intro i s o hs ho hus k hk
        obtain ⟨o', ho', huo⟩ := hu
        obtain ⟨j, hj⟩ := List.mem_iff_getElem?.1 ho'
        obtain ⟨t, ht, T'⟩ := thin_right F hj
        have T := (forall₂_get F).2 i s o hs ho
        by_cases hij : i = j
        · subst hij
          rw [hj] at ho
          cases ho
          exact all ho' huo hk
        · have n2 : ¬ TwoNeighbours ind u := fun h2 => hij (two_in_one hns D hs ht hus (T'.sub.subset huo) h2)
          exact all (List.mem_of_getElem? ho) (end_mem T (end_of D (List.mem_of_getElem? hs) hus n2)) hk
      | @tail b c _ e ih =>
        intro i s o hs ho hcs k hk
        obtain ⟨t, ht, hbt, hct⟩ := edge_shape D e
        obtain ⟨j, hj⟩ := List.mem_iff_getElem?.1 ht
        obtain ⟨p, hp, T'⟩ := thin_left F hj
        have T := (forall₂_get F).2 i s o hs ho
        have reach := ih j t p hj hp hbt
        by_cases hij : i = j
        · subst hij
          rw [ho] at hp
          cases hp
          exact reach k hk
        · have n2 : ¬ TwoNeighbours ind c := fun h2 => hij (two_in_one hns D hs hj hcs hct h2)
          exact (reach c (end_mem T' (end_of D ht hct n2))).trans
            (all (List.mem_of_getElem? ho) (end_mem T (end_of D (List.mem_of_getElem? hs) hcs n2)) hk)
    obtain ⟨o, ho, hvo⟩ := hv
    obtain ⟨i, hi⟩ := List.mem_iff_getElem?.1 ho
    obtain ⟨s, hs, T⟩ := thin_right F hi
    exact claim h i s o hs hi (T.sub.subset hvo) v hvo

end Verif.Proofs.ShapeSimplify
