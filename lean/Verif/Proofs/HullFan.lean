import Verif.Proofs.Gift
/-!
# Strictly convex loops: the fan of the first vertex
-/
set_option linter.unusedSectionVars false
set_option linter.unusedVariables false
namespace Verif.Hull
open Verif Verif.Spec
variable {K : Type} [Field K] [LinearOrder K] [IsStrictOrderedRing K]

theorem line_param {a b s : V2 K} (hab : a ≠ b) (h : orient a b s = 0) :
    ∃ t : K, s.x = a.x + t * (b.x - a.x) ∧ s.y = a.y + t * (b.y - a.y) := by
  have hpos := sqDist2_pos' hab
  obtain ⟨D, hD⟩ : ∃ D, D = sqDist2 a b := ⟨_, rfl⟩
  rw [← hD] at hpos
  simp only [sqDist2] at hD
  simp only [orient] at h
  refine ⟨((s.x - a.x) * (b.x - a.x) + (s.y - a.y) * (b.y - a.y)) / D, ?_, ?_⟩
  · have : D ≠ 0 := hpos.ne'
    field_simp
    rw [hD]
    linear_combination (a.y - b.y) * h
  · have : D ≠ 0 := hpos.ne'
    field_simp
    rw [hD]
    linear_combination (b.x - a.x) * h

theorem _root_.Verif.Spec.IsHullLoop.ne_of_index {pts hull : List (V2 K)} (h : IsHullLoop pts hull) {i j : Nat} {a b : V2 K}
    (hi : hull[i]? = some a) (hj : hull[j]? = some b) (hij : i < j) (hl : j + 1 < hull.length ∨ 0 < i) : a ≠ b := by
  rintro rfl
  have hne : hull ≠ [] := by rintro rfl; simp at hi
  obtain ⟨x, t, e⟩ := List.exists_cons_of_ne_nil hne
  have hnd := h.once
  rw [e, List.tail_cons] at hnd
  have hj' : j < hull.length := (List.getElem?_eq_some_iff.1 hj).1
  have hlen : hull.length = t.length + 1 := by rw [e]; simp
  by_cases h0 : i = 0
  · -- the first vertex is the last one
    subst h0
    have hlast : t[t.length - 1]? = some a := by
      have := h.closed
      rw [List.head?_eq_getElem?, hi, List.getLast?_eq_getElem?] at this
      rw [hlen] at this
      have h3 := h.len
      obtain ⟨m, hm⟩ : ∃ m, t.length = m + 1 := ⟨t.length - 1, by omega⟩
      rw [hm] at this
      simp only [Nat.add_sub_cancel] at this
      rw [hm, Nat.add_sub_cancel]
      rw [e, List.getElem?_cons_succ] at this
      exact this.symm
    obtain ⟨m, rfl⟩ : ∃ m, j = m + 1 := ⟨j - 1, by omega⟩
    rw [e, List.getElem?_cons_succ] at hj
    have h1 := (List.getElem?_inj (i := t.length - 1) (j := m) (by have := h.len; omega) hnd).1 (by rw [hlast, hj])
    rcases hl with hl | hl
    · omega
    · omega
  · obtain ⟨m, rfl⟩ : ∃ m, j = m + 1 := ⟨j - 1, by omega⟩
    obtain ⟨k, rfl⟩ : ∃ k, i = k + 1 := ⟨i - 1, by omega⟩
    rw [e, List.getElem?_cons_succ] at hj hi
    have h1 := (List.getElem?_inj (i := k) (j := m) (by omega) hnd).1 (by rw [hi, hj])
    omega

/-- every edge that does not touch the first vertex has it strictly on its left -/
theorem _root_.Verif.Spec.IsHullLoop.fan {pts hull : List (V2 K)} (h : IsHullLoop pts hull) {k : Nat} {s a b : V2 K}
    (hs : hull[0]? = some s) (ha : hull[k]? = some a) (hb : hull[k + 1]? = some b) (h1 : 0 < k)
    (h2 : k + 2 < hull.length) : 0 < orient s a b := by
  have hlen : 3 < hull.length := by omega
  have hmem : ∀ {i : Nat} {v : V2 K}, hull[i]? = some v → v ∈ pts := fun hv => h.vertices _ (List.mem_of_getElem? hv)
  rw [orient_rot]
  refine lt_of_le_of_ne (h.left k a b ha hb s (hmem hs)) (fun e => ?_)
  have hsa : s ≠ a := h.ne_of_index hs ha h1 (Or.inl (by omega))
  have hsb : s ≠ b := h.ne_of_index hs hb (by omega) (Or.inl (by omega))
  have hab : a ≠ b := h.ne_of_index ha hb (by omega) (Or.inr h1)
  obtain ⟨z, hz⟩ : ∃ z, hull[k - 1]? = some z := ⟨_, List.getElem?_eq_getElem (by omega)⟩
  obtain ⟨w, hw⟩ : ∃ w, hull[k + 2]? = some w := ⟨_, List.getElem?_eq_getElem (by omega)⟩
  obtain ⟨u, hu⟩ : ∃ u, hull[hull.length - 2]? = some u := ⟨_, List.getElem?_eq_getElem (by omega)⟩
  obtain ⟨v, hv⟩ : ∃ v, hull[1]? = some v := ⟨_, List.getElem?_eq_getElem (by omega)⟩
  have hzab : 0 < orient z a b := h.turn hlen (k - 1) z a b hz (by rw [Nat.sub_add_cancel h1]; exact ha)
    (by rw [show k - 1 + 2 = k + 1 by omega]; exact hb)
  have habw : 0 < orient a b w := h.turn hlen k a b w ha hb hw
  have husv : 0 < orient u s v := h.turnClosing hlen u s v hu hs hv
  have hzas := h.left (k - 1) z a hz (by rw [Nat.sub_add_cancel h1]; exact ha) s (hmem hs)
  have hbws := h.left (k + 1) b w hb hw s (hmem hs)
  have hsva := h.left 0 s v hs hv a (hmem ha)
  have hsvb := h.left 0 s v hs hv b (hmem hb)
  have hls : hull[hull.length - 2 + 1]? = some s := by
    have := h.closed
    rw [List.head?_eq_getElem?, hs, List.getLast?_eq_getElem?] at this
    rw [show hull.length - 2 + 1 = hull.length - 1 by omega]
    exact this.symm
  have husa := h.left _ u s hu hls a (hmem ha)
  have husb := h.left _ u s hu hls b (hmem hb)
  obtain ⟨t, ex, ey⟩ := line_param hab e.symm
  have ht0 : 0 ≤ t := by
    have : orient z a s = t * orient z a b := by simp only [orient]; rw [ex, ey]; ring
    rw [this] at hzas
    exact nonneg_of_mul_nonneg_left hzas hzab
  have ht1 : 0 ≤ 1 - t := by
    have : orient b w s = (1 - t) * orient a b w := by simp only [orient]; rw [ex, ey]; ring
    rw [this] at hbws
    exact nonneg_of_mul_nonneg_left hbws habw
  have htn0 : t ≠ 0 := by
    rintro rfl
    apply hsa
    cases s; cases a
    simp at ex ey
    rw [ex, ey]
  have htn1 : 1 - t ≠ 0 := by
    intro e1
    have : t = 1 := by linarith
    subst this
    apply hsb
    cases s; cases b
    simp at ex ey
    rw [ex, ey]
  have tp : 0 < t := lt_of_le_of_ne ht0 (Ne.symm htn0)
  have tq : 0 < 1 - t := lt_of_le_of_ne ht1 (Ne.symm htn1)
  have k1 : (1 - t) * orient s v a + t * orient s v b = 0 := by
    simp only [orient]
    linear_combination (v.y - s.y) * ex - (v.x - s.x) * ey
  have k2 : (1 - t) * orient u s a + t * orient u s b = 0 := by
    simp only [orient]
    linear_combination (s.y - u.y) * ex - (s.x - u.x) * ey
  have z1 : orient s v a = 0 := by
    have := mul_nonneg tq.le hsva
    have := mul_nonneg tp.le hsvb
    exact (mul_eq_zero.1 (by linarith : (1 - t) * orient s v a = 0)).resolve_left htn1
  have z2 : orient u s a = 0 := by
    have := mul_nonneg tq.le husa
    have := mul_nonneg tp.le husb
    exact (mul_eq_zero.1 (by linarith : (1 - t) * orient u s a = 0)).resolve_left htn1
  have hpos := sqDist2_pos' hsa
  have k3 : sqDist2 s a * orient u s v = 0 := by
    simp only [sqDist2]
    simp only [orient] at z1 z2 ⊢
    linear_combination (-((s.x - u.x) * (a.x - s.x) + (s.y - u.y) * (a.y - s.y))) * z1
      + ((v.x - s.x) * (a.x - s.x) + (v.y - s.y) * (a.y - s.y)) * z2
  exact absurd ((mul_eq_zero.1 k3).resolve_left hpos.ne') husv.ne'

end Verif.Hull
