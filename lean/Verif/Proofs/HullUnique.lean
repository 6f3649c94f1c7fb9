import Verif.Props.Contain
import Verif.Props.GiftWrap
/-!
# There is only one hull loop with a given start
-/
set_option linter.unusedSectionVars false
set_option linter.unusedVariables false
set_option linter.unusedSimpArgs false
namespace Verif.Hull
open Verif Verif.Spec

section
variable {K : Type} [Field K] [LinearOrder K] [IsStrictOrderedRing K]

theorem pt_ext {a b : V2 K} (hx : a.x = b.x) (hy : a.y = b.y) : a = b := by
  cases a; cases b; simp_all

/-- neighbours on the loop differ -/
theorem _root_.Verif.Spec.IsHullLoop.next_ne {pts hull : List (V2 K)} (h : IsHullLoop pts hull) {i : Nat} {a b : V2 K}
    (ha : hull[i]? = some a) (hb : hull[i + 1]? = some b) : a ≠ b := by
  rintro rfl
  have hl := h.len
  have h1 := (List.getElem?_eq_some_iff.1 hb).1
  have hn := h.once
  have get : ∀ j, hull.tail[j]? = hull[j + 1]? := fun j => by rw [List.getElem?_tail]
  have key : ∀ j k, j < k → k < hull.tail.length → hull.tail[j]? ≠ hull.tail[k]? := by
    intro j k hjk hk e
    rw [List.getElem?_eq_getElem (by omega), List.getElem?_eq_getElem hk, Option.some_inj] at e
    have := (List.Nodup.getElem_inj_iff hn).1 e
    omega
  have ht : hull.tail.length = hull.length - 1 := List.length_tail
  rcases i with _ | i
  · have hlast : hull[hull.length - 1]? = some a := by
      rw [← List.getLast?_eq_getElem?, ← h.closed, List.head?_eq_getElem?]; exact ha
    refine key 0 (hull.length - 2) (by omega) (by omega) ?_
    rw [get, get, hb, show hull.length - 2 + 1 = hull.length - 1 by omega, hlast]
  · refine key i (i + 1) (by omega) (by omega) ?_
    rw [get, get, ha, hb]

/-- a vertex that is not the last entry has a predecessor from which the loop turns strictly left -/
theorem _root_.Verif.Spec.IsHullLoop.pred {pts hull : List (V2 K)} (h : IsHullLoop pts hull) (hl : 3 < hull.length)
    {i : Nat} {a b : V2 K} (ha : hull[i]? = some a) (hb : hull[i + 1]? = some b) :
    ∃ (j : Nat) (p : V2 K), hull[j]? = some p ∧ hull[j + 1]? = some a ∧ 0 < orient p a b := by
  have h1 := (List.getElem?_eq_some_iff.1 hb).1
  rcases i with _ | i
  · have hlast : hull[hull.length - 2 + 1]? = some a := by
      rw [show hull.length - 2 + 1 = hull.length - 1 by omega, ← List.getLast?_eq_getElem?, ← h.closed, List.head?_eq_getElem?]; exact ha
    exact ⟨hull.length - 2, hull[hull.length - 2], List.getElem?_eq_getElem (by omega), hlast,
      h.turnClosing hl _ _ _ (List.getElem?_eq_getElem (by omega)) ha hb⟩
  · exact ⟨i, hull[i], List.getElem?_eq_getElem (by omega), ha,
      h.turn hl i _ _ _ (List.getElem?_eq_getElem (by omega)) ha hb⟩

/-- an entry that is not the first has a successor to which the loop turns strictly left -/
theorem _root_.Verif.Spec.IsHullLoop.succ {pts hull : List (V2 K)} (h : IsHullLoop pts hull) (hl : 3 < hull.length)
    {i : Nat} {a b : V2 K} (ha : hull[i]? = some a) (hb : hull[i + 1]? = some b) :
    ∃ (j : Nat) (c : V2 K), hull[j]? = some b ∧ hull[j + 1]? = some c ∧ 0 < orient a b c := by
  have h1 := (List.getElem?_eq_some_iff.1 hb).1
  by_cases e : i + 2 < hull.length
  · exact ⟨i + 1, hull[i + 2], hb, List.getElem?_eq_getElem (by omega),
      h.turn hl i _ _ _ ha hb (List.getElem?_eq_getElem (by omega))⟩
  · have hi : i = hull.length - 2 := by omega
    subst hi
    have h0 : hull[0]? = some b := by
      rw [← List.head?_eq_getElem?, h.closed, List.getLast?_eq_getElem?,
        show hull.length - 1 = hull.length - 2 + 1 by omega]; exact hb
    exact ⟨0, hull[1], h0, List.getElem?_eq_getElem (by omega),
      h.turnClosing hl _ _ _ ha h0 (List.getElem?_eq_getElem (by omega))⟩

/-- a long loop is not flat -/
theorem _root_.Verif.Spec.IsHullLoop.not_flat {pts hull : List (V2 K)} (h : IsHullLoop pts hull) (hl : 3 < hull.length) :
    ∃ a ∈ pts, ∃ b ∈ pts, ∃ c ∈ pts, 0 < orient a b c :=
  ⟨hull[0], h.vertices _ (List.getElem_mem _), hull[1], h.vertices _ (List.getElem_mem _), hull[2],
    h.vertices _ (List.getElem_mem _), h.turn hl 0 _ _ _ (List.getElem?_eq_getElem (by omega))
      (List.getElem?_eq_getElem (by omega)) (List.getElem?_eq_getElem (by omega))⟩

/-- a short loop is flat -/
theorem _root_.Verif.Spec.IsHullLoop.short {pts hull : List (V2 K)} (h : IsHullLoop pts hull) (hl : ¬ 3 < hull.length) :
    ∃ a b, hull = [a, b, a] := by
  have h3 := h.len
  have hc := h.closed
  clear h
  rcases hull with _ | ⟨a, _ | ⟨b, _ | ⟨c, _ | ⟨d, l⟩⟩⟩⟩
  · simp at h3
  · simp at h3
  · simp at h3
  · simp at hc; exact ⟨a, b, by rw [hc]⟩
  · simp at hl

theorem collinear_of_segment {a b x y z : V2 K} (hx : OnSegment2 a b x) (hy : OnSegment2 a b y) (hz : OnSegment2 a b z) :
    orient x y z = 0 := by
  obtain ⟨t, -, -, rfl⟩ := hx
  obtain ⟨u, -, -, rfl⟩ := hy
  obtain ⟨v, -, -, rfl⟩ := hz
  simp only [orient, lerp2]
  ring

/-- two loops around the same points that share a vertex share the next one -/
theorem hull_next_same {pts h1 h2 : List (V2 K)} (H1 : IsHullLoop pts h1) (H2 : IsHullLoop pts h2)
    (hl : 3 < h1.length) {i j : Nat} {a b c : V2 K} (ha1 : h1[i]? = some a) (hb1 : h1[i + 1]? = some b)
    (ha2 : h2[j]? = some a) (hc2 : h2[j + 1]? = some c) (hne : ∀ t : K, 0 ≤ t → t < 1 → c ≠ lerp2 a b t) : b = c := by
  have hbm := H1.vertices b (List.mem_of_getElem? hb1)
  have hcm := H2.vertices c (List.mem_of_getElem? hc2)
  have h1 := H1.left i a b ha1 hb1 c hcm
  have h2' := H2.left j a c ha2 hc2 b hbm
  have h0 : orient a b c = 0 := by
    have : orient a c b = - orient a b c := by simp only [orient]; ring
    rw [this] at h2'
    linarith
  have hab := H1.next_ne ha1 hb1
  -- c = lerp a b t
  obtain ⟨t, rfl⟩ : ∃ t : K, c = lerp2 a b t := by
    simp only [orient] at h0
    by_cases ex : b.x - a.x = 0
    · have ey : b.y - a.y ≠ 0 := by
        intro ey
        exact hab (pt_ext (by linarith) (by linarith))
      refine ⟨(c.y - a.y) / (b.y - a.y), pt_ext ?_ ?_⟩ <;> simp only [lerp2]
      · rw [ex] at h0 ⊢
        have : (b.y - a.y) * (c.x - a.x) = 0 := by linarith
        rcases mul_eq_zero.1 this with h | h
        · exact absurd h ey
        · linarith
      · field_simp; ring
    · refine ⟨(c.x - a.x) / (b.x - a.x), pt_ext ?_ ?_⟩ <;> simp only [lerp2]
      · field_simp; ring
      · field_simp
        linear_combination h0
  rcases lt_trichotomy t 1 with ht | ht | ht
  · by_cases h0t : 0 ≤ t
    · exact absurd rfl (hne t h0t ht)
    · push Not at h0t
      exfalso
      obtain ⟨k, p, hp, hpa, htn⟩ := H1.pred hl ha1 hb1
      have := H1.left k p a hp hpa _ hcm
      have e : orient p a (lerp2 a b t) = t * orient p a b := by simp only [orient, lerp2]; ring
      rw [e] at this
      have := mul_pos (neg_pos.2 h0t) htn
      linarith
  · subst ht
    exact pt_ext (by simp [lerp2]) (by simp [lerp2])
  · exfalso
    obtain ⟨k, d, hk, hk', htn⟩ := H1.succ hl ha1 hb1
    have := H1.left k b d hk hk' _ hcm
    have e : orient b d (lerp2 a b t) = - ((t - 1) * orient a b d) := by simp only [orient, lerp2]; ring
    rw [e] at this
    have := mul_pos (sub_pos.2 ht) htn
    linarith

theorem hull_next_eq {pts h1 h2 : List (V2 K)} (H1 : IsHullLoop pts h1) (H2 : IsHullLoop pts h2)
    (hl1 : 3 < h1.length) (hl2 : 3 < h2.length) {i j : Nat} {a b c : V2 K} (ha1 : h1[i]? = some a)
    (hb1 : h1[i + 1]? = some b) (ha2 : h2[j]? = some a) (hc2 : h2[j + 1]? = some c) : b = c := by
  by_cases hn : ∃ t : K, 0 ≤ t ∧ t < 1 ∧ c = lerp2 a b t
  · obtain ⟨t, h0, h1', e⟩ := hn
    refine (hull_next_same H2 H1 hl2 ha2 hc2 ha1 hb1 ?_).symm
    rintro u hu hu' rfl
    have hab := H1.next_ne ha1 hb1
    have hx := congrArg V2.x e
    have hy := congrArg V2.y e
    simp only [lerp2] at hx hy
    have h1 : (1 - t * u) * (c.x - a.x) = 0 := by linear_combination hx
    have h2 : (1 - t * u) * (c.y - a.y) = 0 := by linear_combination hy
    have h3 : 0 < 1 - t * u := by
      have : t * u ≤ t := by nlinarith
      linarith
    have e1 := (mul_eq_zero.1 h1).resolve_left h3.ne'
    have e2 := (mul_eq_zero.1 h2).resolve_left h3.ne'
    exact H2.next_ne ha2 hc2 (pt_ext (by linarith) (by linarith))
  · push Not at hn
    exact hull_next_same H1 H2 hl1 ha1 hb1 ha2 hc2 hn

/-- the loop is determined by the points and its start -/
theorem hull_unique {pts h1 h2 : List (V2 K)} (H1 : IsHullLoop pts h1) (H2 : IsHullLoop pts h2)
    (hs : h1.head? = h2.head?) : h1 = h2 := by
  by_cases hl1 : 3 < h1.length
  · by_cases hl2 : 3 < h2.length
    · have key : ∀ i : Nat, i < h1.length → i < h2.length → h1[i]? = h2[i]? := by
        intro i
        induction i with
        | zero => intro _ _; rw [← List.head?_eq_getElem?, ← List.head?_eq_getElem?, hs]
        | succ i ih =>
          intro g1 g2
          have e := ih (by omega) (by omega)
          have ga : h1[i]? = some h1[i] := List.getElem?_eq_getElem _
          rw [List.getElem?_eq_getElem g1, List.getElem?_eq_getElem g2,
            hull_next_eq H1 H2 hl1 hl2 ga (List.getElem?_eq_getElem g1) (by rw [← e, ga]) (List.getElem?_eq_getElem g2)]
      have notlt : ∀ {g1 g2 : List (V2 K)}, IsHullLoop pts g1 → IsHullLoop pts g2 → 3 < g1.length →
          (∀ i : Nat, i < g1.length → i < g2.length → g1[i]? = g2[i]?) → ¬ g1.length < g2.length := by
        intro g1 g2 G1 G2 hg key hlt
        have e1 := key (g1.length - 1) (by omega) (by omega)
        have e0 := key 0 (by omega) (by omega)
        have c1 := G1.closed
        have c2 := G2.closed
        rw [List.head?_eq_getElem?, List.getLast?_eq_getElem?] at c1 c2
        have e : g2.tail[g1.length - 2]? = g2.tail[g2.length - 2]? := by
          rw [List.getElem?_tail, List.getElem?_tail, show g1.length - 2 + 1 = g1.length - 1 by omega,
            show g2.length - 2 + 1 = g2.length - 1 by omega, ← c2, ← e0, ← e1, c1]
        have ht : g2.tail.length = g2.length - 1 := List.length_tail
        rw [List.getElem?_eq_getElem (by omega), List.getElem?_eq_getElem (by omega), Option.some_inj] at e
        have := (List.Nodup.getElem_inj_iff G2.once).1 e
        omega
      have hlen : h1.length = h2.length := by
        have a1 := notlt H1 H2 hl1 key
        have a2 := notlt H2 H1 hl2 (fun i hi hj => (key i hj hi).symm)
        omega
      refine List.ext_getElem? (fun i => ?_)
      by_cases hi : i < h1.length
      · exact key i hi (by omega)
      · rw [List.getElem?_eq_none (by omega), List.getElem?_eq_none (by omega)]
    · exfalso
      obtain ⟨a, b, e⟩ := H2.short hl2
      obtain ⟨x, hx, y, hy, z, hz, ho⟩ := H1.not_flat hl1
      have hf := H2.flat a b a e
      rw [collinear_of_segment (hf x hx) (hf y hy) (hf z hz)] at ho
      exact lt_irrefl _ ho
  · obtain ⟨a, b, e⟩ := H1.short hl1
    have hf := H1.flat a b a e
    by_cases hl2 : 3 < h2.length
    · exfalso
      obtain ⟨x, hx, y, hy, z, hz, ho⟩ := H2.not_flat hl2
      rw [collinear_of_segment (hf x hx) (hf y hy) (hf z hz)] at ho
      exact lt_irrefl _ ho
    · obtain ⟨c, d, e'⟩ := H2.short hl2
      have hf' := H2.flat c d c e'
      subst e e'
      have : a = c := by simpa using hs
      subst this
      obtain ⟨t, t0, t1, ht⟩ := hf d (H2.vertices d (by simp))
      obtain ⟨u, u0, u1, hu⟩ := hf' b (H1.vertices b (by simp))
      have hab : a ≠ b := H1.next_ne (i := 0) rfl rfl
      have htu : t * u = 1 := by
        have hx := congrArg V2.x hu
        have hy := congrArg V2.y hu
        rw [ht] at hx hy
        simp only [lerp2] at hx hy
        have h1 : (1 - t * u) * (b.x - a.x) = 0 := by linear_combination hx
        have h2 : (1 - t * u) * (b.y - a.y) = 0 := by linear_combination hy
        by_contra hne
        have h3 : 1 - t * u ≠ 0 := fun h => hne (by linarith)
        have e1 := (mul_eq_zero.1 h1).resolve_left h3
        have e2 := (mul_eq_zero.1 h2).resolve_left h3
        exact hab (pt_ext (by linarith) (by linarith))
      have ht1 : t = 1 := by
        refine le_antisymm t1 ?_
        rw [← htu]
        nlinarith
      subst ht1
      have : d = b := ht.trans (pt_ext (by simp [lerp2]) (by simp [lerp2]))
      rw [this]
end

end Verif.Hull
