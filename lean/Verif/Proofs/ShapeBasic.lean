import Verif.Model.Shape
import Verif.Spec.Shape
import Mathlib.Data.List.Basic
import Mathlib.Data.List.Nodup
import Mathlib.Tactic.Linarith
import Mathlib.Tactic.Tauto
/-! Helper lemmas for `divide_into_shapes`: bit sets and the adjacency map. -/
namespace Verif.Shape
open Verif Verif.Spec.Shape

namespace SetVob
def test (s : SetVob) (i : Nat) : Bool := s.vob.getD i false
structure WF (s : SetVob) (n : Nat) : Prop where
  len : s.vob.length = n
  cnt : s.numberOfSetBits = s.vob.count true

theorem fill_wf (n : Nat) : (fillWithFalse n).WF n :=
  ⟨by simp [fillWithFalse], by simp [fillWithFalse, List.count_replicate]⟩

theorem fill_test (n i : Nat) : (fillWithFalse n).test i = false := by
  simp [fillWithFalse, test, List.getD_eq_getElem?_getD, List.getElem?_replicate]
  split <;> simp

theorem get_ok {s : SetVob} {n i : Nat} (h : s.WF n) (hi : i < n) : s.get i = .ok (s.test i) := by
  have : i < s.vob.length := by rw [h.len]; exact hi
  simp [get, test, List.getElem?_eq_getElem this, List.getD_eq_getElem?_getD]

theorem test_lt {s : SetVob} {n i : Nat} (h : s.WF n) (ht : s.test i = true) : i < n := by
  by_contra hc
  have : s.vob.length ≤ i := by rw [h.len]; omega
  simp [test, List.getD_eq_getElem?_getD, List.getElem?_eq_none this] at ht

theorem count_set_true : ∀ (l : List Bool) (i : Nat), l[i]? = some false →
    (l.set i true).count true = l.count true + 1
  | [], i, h => by simp at h
  | b :: l, 0, h => by
    simp at h; subst h; simp
  | b :: l, i + 1, h => by
    simp at h
    have := count_set_true l i (by simpa using h)
    simp only [List.set_cons_succ, List.count_cons, this]; omega

theorem set_ok {s : SetVob} {n i : Nat} (h : s.WF n) (hi : i < n) :
    ∃ s', s.set i = .ok s' ∧ s'.WF n ∧ (∀ j, s'.test j = (s.test j || decide (j = i))) ∧
      (s.test i = false → s'.numberOfSetBits = s.numberOfSetBits + 1) ∧
      s.numberOfSetBits ≤ s'.numberOfSetBits := by
  have hl : i < s.vob.length := by rw [h.len]; exact hi
  unfold set
  rcases hb : s.vob[i]? with _ | b
  · rw [List.getElem?_eq_getElem hl] at hb; simp at hb
  · cases b
    · refine ⟨_, rfl, ⟨by simp [h.len], ?_⟩, ?_, fun _ => rfl, by simp⟩
      · simp only [h.cnt, count_set_true _ _ hb]
      · intro j
        by_cases hj : j = i
        · subst hj; simp [test, List.getD_eq_getElem?_getD, hl]
        · simp [test, List.getD_eq_getElem?_getD, Ne.symm hj, hj]
    · refine ⟨s, rfl, h, ?_, ?_, le_refl _⟩
      · intro j
        by_cases hj : j = i
        · subst hj; simp [test, List.getD_eq_getElem?_getD, hb]
        · simp [hj]
      · intro ht; simp [test, List.getD_eq_getElem?_getD, hb] at ht

/-- number of set bits via a predicate -/
theorem count_le {s : SetVob} {n : Nat} (h : s.WF n) : s.numberOfSetBits ≤ n := by
  rw [h.cnt, ← h.len]; exact List.count_le_length

end SetVob

/-- two disjoint bit sets: if some bit is in neither then the counts do not add up to `n`. -/
theorem count_add_count_le : ∀ (l m : List Bool), l.length = m.length →
    (∀ i, ¬ (l.getD i false = true ∧ m.getD i false = true)) →
    l.count true + m.count true ≤ l.length ∧
    ((l.count true + m.count true < l.length) ↔ ∃ i, i < l.length ∧ l.getD i false = false ∧ m.getD i false = false)
  | [], [], _, _ => by simp
  | a :: l, b :: m, hl, hd => by
    have hl' : l.length = m.length := by simpa using hl
    have hd' : ∀ i, ¬ (l.getD i false = true ∧ m.getD i false = true) := by
      intro i; simpa using hd (i + 1)
    have h0 : ¬ (a = true ∧ b = true) := by simpa using hd 0
    obtain ⟨h1, h2⟩ := count_add_count_le l m hl' hd'
    constructor
    · cases a <;> cases b <;> simp at * <;> omega
    · constructor
      · intro h
        by_cases hab : a = false ∧ b = false
        · exact ⟨0, by simp, by simpa using hab.1, by simpa using hab.2⟩
        · have : l.count true + m.count true < l.length := by
            cases a <;> cases b <;> simp at * <;> omega
          obtain ⟨i, hi, ha, hb⟩ := h2.1 this
          exact ⟨i + 1, by simpa using hi, by simpa using ha, by simpa using hb⟩
      · rintro ⟨i, hi, ha, hb⟩
        cases i with
        | zero =>
          simp at ha hb; subst ha hb; simp; omega
        | succ i =>
          have := h2.2 ⟨i, by simpa using hi, by simpa using ha, by simpa using hb⟩
          cases a <;> cases b <;> simp at * <;> omega
  | [], _ :: _, h, _ => by simp at h
  | _ :: _, [], h, _ => by simp at h

/-! ### pairs -/

theorem mem_chunks2 {β : Type} : ∀ (l : List β) (u v : β), (u, v) ∈ chunks2 l ↔
    ∃ i, l[2 * i]? = some u ∧ l[2 * i + 1]? = some v
  | [], u, v => by simp [chunks2]
  | [a], u, v => by
    simp only [chunks2, List.not_mem_nil, false_iff]
    rintro ⟨i, h1, h2⟩
    simp at h2
  | a :: b :: l, u, v => by
    simp only [chunks2, List.mem_cons, Prod.mk.injEq, mem_chunks2 l u v]
    constructor
    · rintro (⟨rfl, rfl⟩ | ⟨i, h1, h2⟩)
      · exact ⟨0, by simp, by simp⟩
      · refine ⟨i + 1, ?_, ?_⟩
        · rw [show 2 * (i + 1) = 2 * i + 1 + 1 by omega]; simpa using h1
        · rw [show 2 * (i + 1) + 1 = 2 * i + 1 + 1 + 1 by omega]; simpa using h2
    · rintro ⟨i, h1, h2⟩
      cases i with
      | zero => left; simp at h1 h2; exact ⟨h1.symm, h2.symm⟩
      | succ i =>
        right
        rw [show 2 * (i + 1) = 2 * i + 1 + 1 by omega] at h1
        rw [show 2 * (i + 1) + 1 = 2 * i + 1 + 1 + 1 by omega] at h2
        exact ⟨i, by simpa using h1, by simpa using h2⟩

theorem edge_iff (indices : List Nat) (u v : Nat) :
    Edge indices u v ↔ (u, v) ∈ chunks2 indices ∨ (v, u) ∈ chunks2 indices := by
  simp [Edge, Pair, mem_chunks2]

theorem edge_symm {indices : List Nat} {u v : Nat} (h : Edge indices u v) : Edge indices v u :=
  Or.symm h

/-! ### adjacency map -/

/-- the map lists exactly the `R`-neighbours -/
def AdjSpec (adj : AdjMap) (R : Nat → Nat → Prop) : Prop :=
  ∀ v, match adj v with
    | none => ∀ u, ¬ R v u
    | some ns => ns ≠ [] ∧ ns.Nodup ∧ ∀ u, u ∈ ns ↔ R v u

theorem addEntry_spec {adj : AdjMap} {R : Nat → Nat → Prop} (h : AdjSpec adj R) (a b : Nat) :
    AdjSpec (addEntry adj a b) (fun x y => R x y ∨ (x = a ∧ y = b)) := by
  intro v
  unfold addEntry
  by_cases hv : v = a
  · subst hv
    simp only [if_true, true_and]
    have := h v
    rcases hm : adj v with _ | ns
    · rw [hm] at this
      simp only [Option.getD_none, List.contains_nil, Bool.false_eq_true, if_false, List.nil_append]
      refine ⟨by simp, by simp, fun u => ?_⟩
      simp only [List.mem_singleton]
      constructor
      · exact Or.inr
      · rintro (h | h)
        · exact absurd h (this u)
        · exact h
    · rw [hm] at this
      simp only at this
      simp only [Option.getD_some]
      by_cases hc : b ∈ ns
      · have hc' : ns.contains b = true := by simpa using hc
        simp only [hc', if_true]
        refine ⟨this.1, this.2.1, fun u => ?_⟩
        rw [this.2.2 u]
        constructor
        · exact Or.inl
        · rintro (h | rfl)
          · exact h
          · exact (this.2.2 u).1 hc
      · have hc' : ns.contains b = false := by simpa using hc
        simp only [hc', Bool.false_eq_true, if_false]
        refine ⟨by simp, ?_, fun u => ?_⟩
        · rw [List.nodup_append]
          refine ⟨this.2.1, by simp, ?_⟩
          intro x hx y hy
          simp at hy; subst hy
          rintro rfl; exact hc hx
        · simp only [List.mem_append, List.mem_singleton, this.2.2 u]
  · simp only [if_neg hv]
    have := h v
    rcases hm : adj v with _ | ns
    · rw [hm] at this; simpa [hv] using this
    · rw [hm] at this; simpa [hv] using this

theorem adjacencyMap_aux (ps : List (Nat × Nat)) (m : Nat) (adj : AdjMap) (R : Nat → Nat → Prop)
    (h : AdjSpec adj R) (hm : ∀ u v, R u v → u ≤ m ∧ v ≤ m) :
    let r := ps.foldl (fun (acc : Nat × AdjMap) (c : Nat × Nat) =>
      (max (max acc.1 c.1) c.2, addEntry (addEntry acc.2 c.1 c.2) c.2 c.1)) (m, adj)
    AdjSpec r.2 (fun u v => R u v ∨ (u, v) ∈ ps ∨ (v, u) ∈ ps) ∧
    (∀ u v, (R u v ∨ (u, v) ∈ ps ∨ (v, u) ∈ ps) → u ≤ r.1 ∧ v ≤ r.1) := by
  induction ps generalizing m adj R with
  | nil => simpa using ⟨h, hm⟩
  | cons p ps ih =>
    obtain ⟨a, b⟩ := p
    have h1 := addEntry_spec (addEntry_spec h a b) b a
    have := ih (max (max m a) b) _ _ h1 (by
      rintro u v ((h | ⟨rfl, rfl⟩) | ⟨rfl, rfl⟩)
      · have := hm u v h; omega
      · omega
      · omega)
    simp only [List.foldl_cons]
    have e : (fun u v => R u v ∨ (u, v) ∈ (a, b) :: ps ∨ (v, u) ∈ (a, b) :: ps) =
        (fun u v => ((R u v ∨ (u = a ∧ v = b)) ∨ (u = b ∧ v = a)) ∨ (u, v) ∈ ps ∨ (v, u) ∈ ps) := by
      funext u v
      simp only [List.mem_cons, Prod.mk.injEq, eq_iff_iff]
      tauto
    refine ⟨?_, ?_⟩
    · rw [e]; exact this.1
    · intro u v huv
      apply this.2 u v
      have := congrFun (congrFun e u) v
      rw [← this]; exact huv

theorem adjacencyMap_spec (indices : List Nat) :
    AdjSpec (adjacencyMap indices).2 (Edge indices) ∧
    (∀ u v, Edge indices u v → u ≤ (adjacencyMap indices).1 ∧ v ≤ (adjacencyMap indices).1) := by
  have := adjacencyMap_aux (chunks2 indices) 0 (fun _ => none) (fun _ _ => False)
    (by intro v; simp) (by simp)
  simp only [false_or] at this
  have e : (fun u v => (u, v) ∈ chunks2 indices ∨ (v, u) ∈ chunks2 indices) = Edge indices := by
    funext u v; rw [edge_iff]
  rw [e] at this
  refine ⟨this.1, fun u v h => this.2 u v ?_⟩
  rwa [edge_iff] at h

end Verif.Shape
