import Verif.Props.Rdp
import Verif.Props.Simple
/-!
# C114: when simplify_rdp removes nothing, and when it removes everything
-/
set_option linter.unusedSectionVars false
namespace Verif.Props.RdpExtremes
open Verif Verif.Model Verif.Spec Verif.Hull Verif.Props

section generic
variable {P : Type} {far : P → P → P → Prop} {le lt : P → P → P → P → Prop}

theorem keeps_nothing {s e : P} {mid kept : List P} (h : RdpKeeps far le lt s mid e kept) :
    kept = [] ↔ ∀ p ∈ mid, ¬ far s e p := by
  induction h with
  | near s mid e h => exact ⟨fun _ => h, fun _ => rfl⟩
  | split s m1 x m2 e k1 k2 hfar =>
    constructor
    · intro h; simp at h
    · intro h; exact absurd hfar (h x (by simp))

theorem keeps_all {s e : P} {mid kept : List P} (h : RdpKeeps far le lt s mid e kept)
    (H : ∀ a p b, [a, p, b].Sublist (s :: (mid ++ [e])) → far a b p) : kept = mid := by
  induction h with
  | near s mid e h =>
    match mid with
    | [] => rfl
    | p :: rest =>
      exfalso
      refine h p (by simp) (H s p e ?_)
      refine List.Sublist.cons_cons s (List.Sublist.cons_cons p ?_)
      exact List.sublist_append_right _ _
  | split s m1 x m2 e k1 k2 hfar h1 h2 l r ihl ihr =>
    have hl : (s :: (m1 ++ [x])).Sublist (s :: (m1 ++ x :: m2 ++ [e])) := by
      refine List.Sublist.cons_cons s ?_
      rw [List.append_assoc]
      refine List.Sublist.append_left ?_ m1
      simp
    have hr : (x :: (m2 ++ [e])).Sublist (s :: (m1 ++ x :: m2 ++ [e])) := by
      refine List.Sublist.trans ?_ (List.sublist_cons_self s _)
      rw [List.append_assoc]
      exact List.sublist_append_right _ _
    rw [ihl (fun a p b h => H a p b (h.trans hl)), ihr (fun a p b h => H a p b (h.trans hr))]

theorem sublist3 {l : List P} {a p b : P} (h : [a, p, b].Sublist l) :
    ∃ i j k : Nat, i < j ∧ j < k ∧ getElem? l i = some a ∧ getElem? l j = some p ∧ getElem? l k = some b := by
  obtain ⟨f, hf⟩ := List.sublist_iff_exists_orderEmbedding_getElem?_eq.1 h
  refine ⟨f 0, f 1, f 2, f.lt_iff_lt.2 (by omega), f.lt_iff_lt.2 (by omega), ?_, ?_, ?_⟩
  · rw [← hf 0]; rfl
  · rw [← hf 1]; rfl
  · rw [← hf 2]; rfl
end generic

section field
variable {K : Type} [Field K] [LinearOrder K] [IsStrictOrderedRing K]

/-- a corner of a hull is not on the segment between two other corners -/
theorem corner_off {pts hull : List (V2 K)} (H : IsHullLoop pts hull) {i j k : Nat} {a p b : V2 K} (hij : i < j) (hjk : j < k)
    (ha : getElem? hull i = some a) (hp : getElem? hull j = some p) (hb : getElem? hull k = some b) : ¬ OnSegment2 a b p := by
  have hk := (List.getElem?_eq_some_iff.1 hb).1
  have nap : a ≠ p := H.ne_of_index ha hp hij (Or.inl (by omega))
  have npb : p ≠ b := H.ne_of_index hp hb hjk (Or.inr (by omega))
  rintro ⟨t, t0, t1, e⟩
  by_cases z0 : t = 0
  · subst z0; exact nap (by rw [e]; exact pt_ext (by simp [lerp2]) (by simp [lerp2]))
  by_cases z1 : t = 1
  · subst z1; exact npb (by rw [e]; exact pt_ext (by simp [lerp2]) (by simp [lerp2]))
  have p0 : 0 < t := lt_of_le_of_ne t0 (Ne.symm z0)
  have p1 : 0 < 1 - t := sub_pos.2 (lt_of_le_of_ne t1 z1)
  by_cases hl : 3 < hull.length
  · obtain ⟨q, hq⟩ : ∃ q, getElem? hull (j + 1) = some q := ⟨_, List.getElem?_eq_getElem (by omega)⟩
    have oa := H.left j p q hp hq a (H.vertices a (List.mem_of_getElem? ha))
    have ob := H.left j p q hp hq b (H.vertices b (List.mem_of_getElem? hb))
    have ho : (1 - t) * orient p q a + t * orient p q b = 0 := by
      have hx := congrArg V2.x e
      have hy := congrArg V2.y e
      simp only [lerp2] at hx hy
      simp only [orient]
      linear_combination (q.y - p.y) * hx - (q.x - p.x) * hy
    have m1 := mul_nonneg p1.le oa
    have m2 := mul_nonneg p0.le ob
    have za : orient p q a = 0 := (mul_eq_zero.1 (by linarith : (1 - t) * orient p q a = 0)).resolve_left p1.ne'
    have zb : orient p q b = 0 := (mul_eq_zero.1 (by linarith : t * orient p q b = 0)).resolve_left p0.ne'
    obtain ⟨a', ha'⟩ : ∃ q, getElem? hull (i + 1) = some q := ⟨_, List.getElem?_eq_getElem (by omega)⟩
    have ea := (Simple.corner_on_edge H hl hp hq ha ha' za).resolve_left nap
    obtain ⟨m, b', hm, hm', -⟩ : ∃ (m : Nat) (b' : V2 K), getElem? hull m = some b ∧ getElem? hull (m + 1) = some b' ∧ True := by
      by_cases h : k + 1 < hull.length
      · exact ⟨k, _, hb, List.getElem?_eq_getElem h, trivial⟩
      · have hc := H.closed
        rw [List.head?_eq_getElem?, List.getLast?_eq_getElem?, show hull.length - 1 = k by omega, hb] at hc
        exact ⟨0, _, hc, List.getElem?_eq_getElem (by omega), trivial⟩
    have eb := (Simple.corner_on_edge H hl hp hq hm hm' zb).resolve_left npb.symm
    subst ea
    subst eb
    exact nap (by rw [e]; exact pt_ext (by simp [lerp2]) (by simp [lerp2]))
  · have hc := H.closed
    rw [List.head?_eq_getElem?, List.getLast?_eq_getElem?] at hc
    have h3 := H.len
    rw [show hull.length - 1 = k by omega, hb, show (0 : Nat) = i by omega, ha, Option.some_inj] at hc
    subst hc
    exact nap (by rw [e]; exact pt_ext (by simp [lerp2]) (by simp [lerp2]))

theorem sqDist2_pos {p q : V2 K} (h : p ≠ q) : 0 < sqDist2 p q := by
  unfold sqDist2
  rcases lt_or_eq_of_le (add_nonneg (sq_nonneg (p.x - q.x)) (sq_nonneg (p.y - q.y))) with h' | h'
  · exact h'
  · exfalso
    have h1 := sq_nonneg (p.x - q.x)
    have h2 := sq_nonneg (p.y - q.y)
    have e1 : p.x - q.x = 0 := pow_eq_zero_iff (two_ne_zero) |>.1 (by linarith)
    have e2 : p.y - q.y = 0 := pow_eq_zero_iff (two_ne_zero) |>.1 (by linarith)
    exact h (pt_ext (by linarith) (by linarith))
end field

section exact
variable {K : Type} [Scalar K] [Field K] [LinearOrder K] [ExactScalar K]

/-- **C114**, 2D: only the end points are left iff all the others are within `|d|` of the segment between them. -/
theorem C114_rdp2_removes_everything (s : V2 K) (mid : List (V2 K)) (e : V2 K) (d : K) :
    simplifyRdp2 (s :: (mid ++ [e])) d = .ok [s, e] ↔ ∀ p ∈ mid, ∃ q, OnSegment2 s e q ∧ sqDist2 p q ≤ d ^ 2 := by
  obtain ⟨kept, h1, h2⟩ := Rdp.C54_rdp2_is_textbook s mid e d
  rw [h1]
  have := keeps_nothing h2
  constructor
  · intro h p hp
    have hk : kept = [] := by
      have := Except.ok.inj h
      simpa using this
    have := this.1 hk p hp
    push Not at this
    exact this
  · intro h
    rw [this.2 (fun p hp hf => by obtain ⟨q, hq, hl⟩ := h p hp; exact absurd hl (not_le.2 (hf q hq)))]
    rfl

/-- **C114**, 3D: the same with the distance from the line through the end points. -/
theorem C114_rdp3_removes_everything (s : V3 K) (mid : List (V3 K)) (e : V3 K) (d : K) :
    simplifyRdp3 (s :: (mid ++ [e])) d = .ok [s, e] ↔ ∀ p ∈ mid, ∃ q, OnLine3 s e q ∧ sqDist3 p q ≤ d ^ 2 := by
  obtain ⟨kept, h1, h2⟩ := Rdp.C54_rdp3_is_textbook s mid e d
  rw [h1]
  have := keeps_nothing h2
  constructor
  · intro h p hp
    have hk : kept = [] := by
      have := Except.ok.inj h
      simpa using this
    have := this.1 hk p hp
    push Not at this
    exact this
  · intro h
    rw [this.2 (fun p hp hf => by obtain ⟨q, hq, hl⟩ := h p hp; exact absurd hl (not_le.2 (hf q hq)))]
    rfl

/-- a line string has at most two points or two ends -/
theorem two_ends {P : Type} (l : List P) : l = [] ∨ (∃ p, l = [p]) ∨ ∃ s mid e, l = s :: (mid ++ [e]) := by
  match l with
  | [] => exact Or.inl rfl
  | [p] => exact Or.inr (Or.inl ⟨p, rfl⟩)
  | p :: q :: r =>
    refine Or.inr (Or.inr ⟨p, (q :: r).dropLast, (q :: r).getLast (by simp), ?_⟩)
    rw [List.dropLast_concat_getLast]

/-- **C114**, 2D: nothing is removed if every point is further than `|d|` from all segments between an earlier and a later point. -/
theorem C114_rdp2_removes_nothing (pl : List (V2 K)) (d : K)
    (h : ∀ (i j k : Nat) (a p b : V2 K), i < j → j < k → getElem? pl i = some a → getElem? pl j = some p → getElem? pl k = some b →
      ∀ q, OnSegment2 a b q → d ^ 2 < sqDist2 p q) : simplifyRdp2 pl d = .ok pl := by
  rcases two_ends pl with rfl | ⟨p, rfl⟩ | ⟨s, mid, e, rfl⟩
  · rfl
  · rfl
  · obtain ⟨kept, h1, h2⟩ := Rdp.C54_rdp2_is_textbook s mid e d
    rw [h1, keeps_all h2]
    intro a p b hs
    obtain ⟨i, j, k, hij, hjk, ha, hp, hb⟩ := sublist3 hs
    exact h i j k a p b hij hjk ha hp hb

/-- **C114**, 3D: the same with the distances from lines. -/
theorem C114_rdp3_removes_nothing (pl : List (V3 K)) (d : K)
    (h : ∀ (i j k : Nat) (a p b : V3 K), i < j → j < k → getElem? pl i = some a → getElem? pl j = some p → getElem? pl k = some b →
      ∀ q, OnLine3 a b q → d ^ 2 < sqDist3 p q) : simplifyRdp3 pl d = .ok pl := by
  rcases two_ends pl with rfl | ⟨p, rfl⟩ | ⟨s, mid, e, rfl⟩
  · rfl
  · rfl
  · obtain ⟨kept, h1, h2⟩ := Rdp.C54_rdp3_is_textbook s mid e d
    rw [h1, keeps_all h2]
    intro a p b hs
    obtain ⟨i, j, k, hij, hjk, ha, hp, hb⟩ := sublist3 hs
    exact h i j k a p b hij hjk ha hp hb

/-- **C114** with the tolerance 0 no corner of a convex hull is removed. -/
theorem C114_hull_keeps_its_corners (pts hull : List (V2 K)) (H : IsHullLoop pts hull) : simplifyRdp2 hull 0 = .ok hull := by
  have := ExactScalar.toIsStrictOrderedRing (K := K)
  refine C114_rdp2_removes_nothing hull 0 (fun i j k a p b hij hjk ha hp hb q hq => ?_)
  rw [zero_pow two_ne_zero]
  refine sqDist2_pos ?_
  rintro rfl
  exact corner_off H hij hjk ha hp hb hq

/-- **C114** with the tolerance 0 nothing is removed from a line string no three points of which are collinear. -/
theorem C114_no_three_points_collinear (pl : List (V2 K))
    (h : ∀ (i j k : Nat) (a p b : V2 K), i < j → j < k → getElem? pl i = some a → getElem? pl j = some p → getElem? pl k = some b →
      orient a b p ≠ 0) : simplifyRdp2 pl 0 = .ok pl := by
  have := ExactScalar.toIsStrictOrderedRing (K := K)
  refine C114_rdp2_removes_nothing pl 0 (fun i j k a p b hij hjk ha hp hb q hq => ?_)
  rw [zero_pow two_ne_zero]
  refine sqDist2_pos ?_
  rintro rfl
  refine h i j k a p b hij hjk ha hp hb ?_
  obtain ⟨t, -, -, e⟩ := hq
  rw [e]
  simp only [orient, lerp2]
  ring
/-- **C114**, 2D: only the end points are left if no point is further than `|d|` from the first point. -/
theorem C114_large_tolerance (s : V2 K) (mid : List (V2 K)) (e : V2 K) (d : K) (h : ∀ p ∈ mid, sqDist2 p s ≤ d ^ 2) :
    simplifyRdp2 (s :: (mid ++ [e])) d = .ok [s, e] :=
  (C114_rdp2_removes_everything s mid e d).2 (fun p hp => ⟨s, Verif.Proofs.Intersect.onSeg_start s e, h p hp⟩)

/-- **C114**, the indexed version in 2D: no index is removed iff `simplify_rdp` removes no point of the designated line string. -/
theorem C114_indexed2_removes_nothing (vertices : List (V2 K)) (indices : List Nat) (pl : List (V2 K)) (d : K)
    (hv : 2 < vertices.length) (h2 : 2 ≤ indices.length) (hi : indices.map (vertices[·]?) = pl.map some) :
    indexedSimplifyRdp2 vertices indices d = .ok indices ↔ simplifyRdp2 pl d = .ok pl := by
  have hl : indices.length = pl.length := by simpa using congrArg List.length hi
  obtain ⟨out, simp', e1, e2, e3, -, -, e4⟩ := Rdp.C11_indexed2_agrees vertices indices d pl hv h2 hi
  rw [e1, e2, Except.ok.injEq, Except.ok.injEq]
  constructor
  · rintro rfl
    rw [hi] at e4
    exact (List.map_injective_iff.2 (Option.some_injective _) e4).symm
  · rintro rfl
    have hlen : out.length = simp'.length := by simpa using congrArg List.length e4
    exact e3.eq_of_length (by omega)

/-- **C114**, the indexed version in 2D: just the first and the last index are left iff just the end points of the designated line string are. -/
theorem C114_indexed2_removes_everything (vertices : List (V2 K)) (i : Nat) (mid : List Nat) (j : Nat) (s e : V2 K)
    (pm : List (V2 K)) (d : K) (hv : 2 < vertices.length)
    (hi : (i :: (mid ++ [j])).map (vertices[·]?) = (s :: (pm ++ [e])).map some) :
    indexedSimplifyRdp2 vertices (i :: (mid ++ [j])) d = .ok [i, j] ↔ simplifyRdp2 (s :: (pm ++ [e])) d = .ok [s, e] := by
  obtain ⟨out, simp', e1, e2, e3, eh, el, e4⟩ :=
    Rdp.C11_indexed2_agrees vertices (i :: (mid ++ [j])) d (s :: (pm ++ [e])) hv (by simp) hi
  have hs : vertices[i]? = some s := by
    have := congrArg List.head? hi
    simpa using this
  have he : vertices[j]? = some e := by
    have := congrArg List.getLast? hi
    simpa [List.getLast?_cons, List.getLast?_append] using this
  rw [e1, e2, Except.ok.injEq, Except.ok.injEq]
  constructor
  · rintro rfl
    have h3 : simp'.map some = [s, e].map some := by rw [← e4]; simp [hs, he]
    exact List.map_injective_iff.2 (Option.some_injective _) h3
  · rintro rfl
    have hlen : out.length = 2 := by simpa using congrArg List.length e4
    match out, hlen with
    | [a, b], _ =>
      simp only [List.head?_cons, Option.some_inj] at eh
      simp [List.getLast?_cons, List.getLast?_append] at el
      rw [eh, el]

/-- **C114**, the indexed version in 3D: no index is removed iff `simplify_rdp` removes no point of the designated line string. -/
theorem C114_indexed3_removes_nothing (vertices : List (V3 K)) (indices : List Nat) (pl : List (V3 K)) (d : K)
    (hv : 2 < vertices.length) (h2 : 2 ≤ indices.length) (hi : indices.map (vertices[·]?) = pl.map some) :
    indexedSimplifyRdp3 vertices indices d = .ok indices ↔ simplifyRdp3 pl d = .ok pl := by
  have hl : indices.length = pl.length := by simpa using congrArg List.length hi
  obtain ⟨out, simp', e1, e2, e3, -, -, e4⟩ := Rdp.C11_indexed3_agrees vertices indices d pl hv h2 hi
  rw [e1, e2, Except.ok.injEq, Except.ok.injEq]
  constructor
  · rintro rfl
    rw [hi] at e4
    exact (List.map_injective_iff.2 (Option.some_injective _) e4).symm
  · rintro rfl
    have hlen : out.length = simp'.length := by simpa using congrArg List.length e4
    exact e3.eq_of_length (by omega)

/-- **C114**, the indexed version in 3D: just the first and the last index are left iff just the end points of the designated line string are. -/
theorem C114_indexed3_removes_everything (vertices : List (V3 K)) (i : Nat) (mid : List Nat) (j : Nat) (s e : V3 K)
    (pm : List (V3 K)) (d : K) (hv : 2 < vertices.length)
    (hi : (i :: (mid ++ [j])).map (vertices[·]?) = (s :: (pm ++ [e])).map some) :
    indexedSimplifyRdp3 vertices (i :: (mid ++ [j])) d = .ok [i, j] ↔ simplifyRdp3 (s :: (pm ++ [e])) d = .ok [s, e] := by
  obtain ⟨out, simp', e1, e2, e3, eh, el, e4⟩ :=
    Rdp.C11_indexed3_agrees vertices (i :: (mid ++ [j])) d (s :: (pm ++ [e])) hv (by simp) hi
  have hs : vertices[i]? = some s := by
    have := congrArg List.head? hi
    simpa using this
  have he : vertices[j]? = some e := by
    have := congrArg List.getLast? hi
    simpa [List.getLast?_cons, List.getLast?_append] using this
  rw [e1, e2, Except.ok.injEq, Except.ok.injEq]
  constructor
  · rintro rfl
    have h3 : simp'.map some = [s, e].map some := by rw [← e4]; simp [hs, he]
    exact List.map_injective_iff.2 (Option.some_injective _) h3
  · rintro rfl
    have hlen : out.length = 2 := by simpa using congrArg List.length e4
    match out, hlen with
    | [a, b], _ =>
      simp only [List.head?_cons, Option.some_inj] at eh
      simp [List.getLast?_cons, List.getLast?_append] at el
      rw [eh, el]

/-- **C114** with the tolerance 0 no index of a corner is removed from the indices of a convex hull. -/
theorem C114_indexed_hull_keeps_its_corners (vertices : List (V2 K)) (indices : List Nat) (hull pts : List (V2 K))
    (hv : 2 < vertices.length) (hi : indices.map (vertices[·]?) = hull.map some) (H : IsHullLoop pts hull) :
    indexedSimplifyRdp2 vertices indices 0 = .ok indices := by
  have hl : indices.length = hull.length := by simpa using congrArg List.length hi
  obtain ⟨out, simp', h1, h2, h3, -, -, h4⟩ := Rdp.C11_indexed2_agrees vertices indices 0 hull hv (by have := H.len; omega) hi
  rw [C114_hull_keeps_its_corners pts hull H, Except.ok.injEq] at h2
  subst h2
  have hlen : out.length = hull.length := by simpa using congrArg List.length h4
  rw [h1, h3.eq_of_length (by omega)]
end exact

end Verif.Props.RdpExtremes
