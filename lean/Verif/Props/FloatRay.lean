import Verif.Proofs.FloatRay
import Verif.Props.FloatIntersect
import Verif.Props.FloatDist
import Verif.Props.FloatTiny
/-!
# `closest_ray_intersection` in floating point
-/
namespace Verif.Props
open Verif Verif.Model Verif.Spec Scalar Verif.Proofs.FloatHull Verif.Proofs.FloatIntersect Verif.Proofs.FloatRay Fl
open Verif.Props.Intersect Flt
set_option linter.unusedSectionVars false
set_option linter.unusedVariables false
section
variable {f : Fmt} [Libm f]

/-- the accumulator of the float run against the one of the exact run -/
def AccClose (B k1 k2 m1 m2 : ℤ) (x : Option (Flt f)) (y : Option ℚ) : Prop :=
  TClose B k1 k2 m1 m2 x y ∧ ∀ T, y = some T → 0 < T

theorem nearestStep_close {B k1 k2 m1 m2 : ℤ} {x x' : Option (Flt f)} {y y' : Option ℚ}
    (h : AccClose B k1 k2 m1 m2 x y) (h' : TClose B k1 k2 m1 m2 x' y') :
    AccClose B k1 k2 m1 m2 (nearestStep x x') (nearestStep y y') := by
  obtain ⟨h, hpos⟩ := h
  match x', y', h' with
  | none, none, _ => exact ⟨h, hpos⟩
  | none, some _, h' => exact h'.elim
  | some _, none, h' => exact h'.elim
  | some t, some T, ⟨β, i1, i2, i3, i4, i5, i6⟩ =>
    have g1 : Scalar.gt t Scalar.zero = decide (0 < T) := by
      have : Scalar.gt t Scalar.zero = decide (0 < β) := is_lt is_zeroQ i1
      rw [this]; exact decide_eq_decide.2 i2
    match x, y, h, hpos with
    | none, none, _, _ =>
      simp only [nearestStep, exact_simp]
      rw [g1]
      by_cases hT : 0 < T
      · rw [decide_eq_true hT, if_pos rfl, if_pos hT]
        exact ⟨⟨β, i1, i2, i3, i4, i5, i6⟩, fun T' e => by cases e; exact hT⟩
      · rw [decide_eq_false hT, if_neg (by simp), if_neg hT]
        exact ⟨trivial, fun T' e => by cases e⟩
    | none, some _, h, _ => exact h.elim
    | some _, none, h, _ => exact h.elim
    | some nt, some N, ⟨ν, j1, j2, j3, j4, j5, j6⟩, hpos =>
      have hN : 0 < N := hpos N rfl
      simp only [nearestStep, exact_simp]
      have g2 : Scalar.lt t nt = decide (β < ν) := is_lt i1 j1
      rw [g1, g2]
      by_cases hT : 0 < T
      swap
      · rw [decide_eq_false hT, if_neg (fun h => Bool.false_ne_true h.1), if_neg (fun h => hT h.1)]
        exact ⟨⟨ν, j1, j2, j3, j4, j5, j6⟩, hpos⟩
      · have key : TClose B k1 k2 m1 m2 (some (if decide (β < ν) = true then t else nt)) (some (min T N)) := by
          refine ⟨min β ν, ?_, ?_, min_err i3 j3, min_err i4 j4, min_box i5 j5, min_box i6 j6⟩
          · by_cases hc : β < ν
            · rw [decide_eq_true hc, if_pos rfl, min_eq_left hc.le]; exact i1
            · rw [decide_eq_false hc, if_neg Bool.false_ne_true, min_eq_right (not_lt.1 hc)]; exact j1
          · rw [lt_min_iff, lt_min_iff, i2, j2]
        have e1 : (if decide (0 < T) = true ∧ decide (β < ν) = true then some t else some nt) =
            some (if decide (β < ν) = true then t else nt) := by
          by_cases hc : decide (β < ν) = true
          · rw [if_pos hc, if_pos ⟨decide_eq_true hT, hc⟩]
          · rw [if_neg hc, if_neg (fun h => hc h.2)]
        have e2 : (if 0 < T ∧ T < N then some T else some N) = some (min T N) := by
          by_cases hc : T < N
          · rw [if_pos ⟨hT, hc⟩, min_eq_left hc.le]
          · rw [if_neg (fun h => hc h.2), min_eq_right (not_lt.1 hc)]
        rw [e1, e2]
        exact ⟨key, fun T' e => by cases e; exact lt_min hT hN⟩

theorem exact_Vq {s : ℤ} {p : V2 (Flt f)} {k l : ℤ} (h : IsV s p k l) : exact p = Vq s k l := by
  unfold exact Vq; rw [h.1.2, h.2.2]

/-- the fold over the edges of the line -/
theorem fold_close {s B : ℤ} (G : GoodGrid f s B) (hB : 1 ≤ B) {o r : V2 (Flt f)} {k1 k2 m1 m2 : ℤ}
    (ho : IsV s o k1 k2) (hr : IsV s r m1 m2) (bk1 : |k1| ≤ B) (bk2 : |k2| ≤ B) (bm1 : |m1| ≤ B) (bm2 : |m2| ≤ B)
    (hD : 0 < m1 * m1 + m2 * m2) (ws : List (V2 (Flt f) × V2 (Flt f)))
    (hws : ∀ v ∈ ws, OnGrid s B v.1 ∧ OnGrid s B v.2) (x : Option (Flt f)) (y : Option ℚ)
    (h : AccClose B k1 k2 m1 m2 x y) :
    AccClose B k1 k2 m1 m2 (ws.foldl (fun n v => nearestStep n (rayEdgeIntersection o r v.1 v.2)) x)
      ((ws.map (fun v => (exact v.1, exact v.2))).foldl
        (fun n v => nearestStep n (rayEdgeIntersection (exact o) (exact r) v.1 v.2)) y) := by
  induction ws generalizing x y with
  | nil => exact h
  | cons v ws ih =>
    rw [List.map_cons, List.foldl_cons, List.foldl_cons]
    apply ih (fun w hw => hws w (List.mem_cons_of_mem _ hw))
    obtain ⟨ga, gb⟩ := hws v List.mem_cons_self
    obtain ⟨a1, a2, ha1, ha2, ba1, ba2⟩ := OnGrid.coords ga
    obtain ⟨b1, b2, hb1, hb2, bb1, bb2⟩ := OnGrid.coords gb
    apply nearestStep_close h
    have := ray_close G hB ho hr ⟨ha1, ha2⟩ ⟨hb1, hb2⟩ bk1 bk2 bm1 bm2 ba1 ba2 bb1 bb2 hD
    rwa [← exact_Vq ho, ← exact_Vq hr, ← exact_Vq ⟨ha1, ha2⟩, ← exact_Vq ⟨hb1, hb2⟩] at this

theorem windows2_map {A C : Type} (g : A → C) (l : List A) :
    windows2 (l.map g) = (windows2 l).map (fun v => (g v.1, g v.2)) := by
  induction l with
  | nil => rfl
  | cons a l ih =>
    cases l with
    | nil => rfl
    | cons b l =>
      show (g a, g b) :: windows2 ((b :: l).map g) = _
      rw [ih]; rfl

theorem mem_windows2 {A : Type} {l : List A} {v : A × A} (h : v ∈ windows2 l) : v.1 ∈ l ∧ v.2 ∈ l := by
  obtain ⟨a, b⟩ := v
  obtain ⟨i, hi⟩ := List.mem_iff_getElem?.1 h
  obtain ⟨ha, hb⟩ := (windows2_get l i a b).1 hi
  exact ⟨List.mem_of_getElem? ha, List.mem_of_getElem? hb⟩

/-- the float result against the exact result -/
theorem ray_result {s B : ℤ} (G : GoodGrid f s B) (line : List (V2 (Flt f))) (r o : V2 (Flt f))
    (hl : ∀ v ∈ line, OnGrid s B v) (ho : OnGrid s B o) (hr : OnGrid s B r) (hr0 : exact r ≠ ⟨0, 0⟩) :
    match closestRayIntersection line r o, closestRayIntersection (line.map exact) (exact r) (exact o) with
    | none, none => True
    | some p, some q => CloseV (delta f s B) p q
    | _, _ => False := by
  obtain ⟨k1, k2, ho1, ho2, bk1, bk2⟩ := OnGrid.coords ho
  obtain ⟨m1, m2, hr1, hr2, bm1, bm2⟩ := OnGrid.coords hr
  have hm : m1 ≠ 0 ∨ m2 ≠ 0 := by
    by_contra hc
    push Not at hc
    apply hr0
    unfold exact
    rw [hr1.2, hr2.2, hc.1, hc.2]; simp
  have hB : 1 ≤ B := by
    rcases hm with h | h
    · exact (Int.one_le_abs h).trans bm1
    · exact (Int.one_le_abs h).trans bm2
  have hD : 0 < m1 * m1 + m2 * m2 := by
    rcases hm with h | h
    · have := mul_self_pos.2 h; have := mul_self_nonneg m2; omega
    · have := mul_self_pos.2 h; have := mul_self_nonneg m1; omega
  have key := fold_close G hB ⟨ho1, ho2⟩ ⟨hr1, hr2⟩ bk1 bk2 bm1 bm2 hD (windows2 line)
    (fun v hv => ⟨hl _ (mem_windows2 hv).1, hl _ (mem_windows2 hv).2⟩) none none ⟨trivial, fun T e => by cases e⟩
  rw [← windows2_map] at key
  unfold closestRayIntersection
  rw [List.length_map]
  by_cases hlen : line.length ≤ 1
  · rw [if_pos hlen, if_pos hlen]; trivial
  · rw [if_neg hlen, if_neg hlen]
    generalize (windows2 line).foldl (fun n v => nearestStep n (rayEdgeIntersection o r v.1 v.2)) none = x at key ⊢
    generalize (windows2 (line.map exact)).foldl
      (fun n v => nearestStep n (rayEdgeIntersection (exact o) (exact r) v.1 v.2)) none = y at key ⊢
    obtain ⟨key, hpos⟩ := key
    match x, y, key with
    | none, none, _ => trivial
    | none, some _, h => exact h.elim
    | some _, none, h => exact h.elim
    | some t, some T, ⟨β, i1, i2, i3, i4, i5, i6⟩ =>
      show CloseV (delta f s B) (o.add (r.smul t)) ((exact o).add ((exact r).smul T))
      have kq1 : |(k1 : ℚ)| ≤ B := by exact_mod_cast bk1
      have kq2 : |(k2 : ℚ)| ≤ B := by exact_mod_cast bk2
      obtain ⟨x1, ix, -, ex⟩ := axpy_far G hB ho1 hr1 i1 (by rw [abs_le] at *; constructor <;> linarith) i5 i3 (by norm_num)
      obtain ⟨y1, iy, -, ey⟩ := axpy_far G hB ho2 hr2 i1 (by rw [abs_le] at *; constructor <;> linarith) i6 i4 (by norm_num)
      have nx := near_of ix hB (by norm_num) ex
      have ny := near_of iy hB (by norm_num) ey
      have e1 : ((exact o).add ((exact r).smul T)).x = ((k1 : ℚ) + m1 * T) * pow2 s := by
        simp only [exact_simp, exact]; rw [ho1.2, hr1.2]; ring
      have e2 : ((exact o).add ((exact r).smul T)).y = ((k2 : ℚ) + m2 * T) * pow2 s := by
        simp only [exact_simp, exact]; rw [ho2.2, hr2.2]; ring
      refine ⟨?_, ?_⟩
      · rw [e1]; exact nx
      · rw [e2]; exact ny

/-- C89: on a good grid a returned point is finite and, up to the error of a computed intersection, the nearest
visible hit of the exact ray with the exact line string. -/
theorem C89_nearest_hit_on_floats {s B : ℤ} (G : GoodGrid f s B) (line : List (V2 (Flt f))) (r o p : V2 (Flt f))
    (hl : ∀ v ∈ line, OnGrid s B v) (ho : OnGrid s B o) (hr : OnGrid s B r) (hr0 : exact r ≠ ⟨0, 0⟩)
    (h : closestRayIntersection line r o = some p) :
    ∃ t : ℚ, 0 < t ∧ Within (gridError f s B) p (castV (rayPoint (exact o) (exact r) t)) ∧
      OnPolyline (line.map exact) (rayPoint (exact o) (exact r) t) ∧
      ∀ i a b t', getElem? line i = some a → getElem? line (i + 1) = some b → 0 < t' →
        VisibleHit (exact o) (exact r) (exact a) (exact b) t' → t ≤ t' := by
  have key := ray_result G line r o hl ho hr hr0
  rw [h] at key
  cases hq : closestRayIntersection (line.map exact) (exact r) (exact o) with
  | none => rw [hq] at key; exact key.elim
  | some q =>
    rw [hq] at key
    obtain ⟨t, h1, h2, h3, h4⟩ := C22_closest_ray_hit (line.map exact) (exact r) (exact o) q hr0 hq
    subst h2
    refine ⟨t, h1, within_of_close key, h3, fun i a b t' ha hb ht hv => ?_⟩
    exact h4 i (exact a) (exact b) t' (by rw [List.getElem?_map, ha]; rfl) (by rw [List.getElem?_map, hb]; rfl) ht hv

/-- C89: on a good grid a visible hit is never missed. -/
theorem C89_none_on_floats {s B : ℤ} (G : GoodGrid f s B) (line : List (V2 (Flt f))) (r o : V2 (Flt f))
    (hl : ∀ v ∈ line, OnGrid s B v) (ho : OnGrid s B o) (hr : OnGrid s B r) (hr0 : exact r ≠ ⟨0, 0⟩)
    (h : closestRayIntersection line r o = none) (i : Nat) (a b : V2 (Flt f)) (t : ℚ)
    (ha : getElem? line i = some a) (hb : getElem? line (i + 1) = some b) (ht : 0 < t) :
    ¬ VisibleHit (exact o) (exact r) (exact a) (exact b) t := by
  have key := ray_result G line r o hl ho hr hr0
  rw [h] at key
  cases hq : closestRayIntersection (line.map exact) (exact r) (exact o) with
  | some q => rw [hq] at key; exact key.elim
  | none =>
    exact C22_none (line.map exact) (exact r) (exact o) hr0 hq i (exact a) (exact b) t
      (by rw [List.getElem?_map, ha]; rfl) (by rw [List.getElem?_map, hb]; rfl) ht

/-- the hypotheses of C89 are met: a slanted ray in `f32`; the exact hit (5/2, 15/4) … -/
example : (let _ := noAtan b32
    closestRayIntersection [ipt b32 0 5, ipt b32 4 3, ipt b32 9 9] (ipt b32 2 3) (ipt b32 0 0)) =
      some ⟨Flt.ofQ false (5 / 2), Flt.ofQ false (15 / 4)⟩ := by decide +kernel

example [Libm b32] (p : V2 F32)
    (h : closestRayIntersection [ipt b32 0 5, ipt b32 4 3, ipt b32 9 9] (ipt b32 2 3) (ipt b32 0 0) = some p) :
    ∃ t : ℚ, 0 < t ∧ Within (gridError b32 0 511) p (castV (rayPoint ⟨0, 0⟩ ⟨2, 3⟩ t)) := by
  have g : ∀ k l : ℤ, |k| ≤ 511 → |l| ≤ 511 → OnGrid 0 511 (ipt b32 k l) ∧ exact (ipt b32 k l) = ⟨k, l⟩ :=
    fun k l hk hl => onGrid_ipt goodGrid32 hk hl
  obtain ⟨t, h1, h2, -, -⟩ := C89_nearest_hit_on_floats goodGrid32 _ _ _ p
    (by
      intro v hv
      simp only [List.mem_cons, List.not_mem_nil, or_false] at hv
      rcases hv with rfl | rfl | rfl
      · exact (g 0 5 (by norm_num) (by norm_num)).1
      · exact (g 4 3 (by norm_num) (by norm_num)).1
      · exact (g 9 9 (by norm_num) (by norm_num)).1)
    (g 0 0 (by norm_num) (by norm_num)).1 (g 2 3 (by norm_num) (by norm_num)).1
    (by rw [(g 2 3 (by norm_num) (by norm_num)).2]; simp) h
  rw [(g 2 3 (by norm_num) (by norm_num)).2, (g 0 0 (by norm_num) (by norm_num)).2] at h2
  exact ⟨t, h1, by simpa using h2⟩

/-- … and one that is not a float: the exact hit is (20/7, 15/7) -/
example : (let _ := noAtan b32
    closestRayIntersection [ipt b32 0 5, ipt b32 4 1, ipt b32 9 9] (ipt b32 4 3) (ipt b32 0 0)).isSome = true ∧
    closestRayIntersection [(⟨0, 5⟩ : V2 ℚ), ⟨4, 1⟩, ⟨9, 9⟩] ⟨4, 3⟩ ⟨0, 0⟩ = some ⟨20 / 7, 15 / 7⟩ := by
  constructor <;> decide +kernel

theorem zeroNan_ulps {x : Flt f} (h : ZeroNan x) (hu : Scalar.ulpsEq x Scalar.zero = false) : x = .nan := by
  rcases h with h | ⟨t, rfl⟩
  · exact h
  · have h0 : Is (Flt.zero t : Flt f) 0 := ⟨rfl, rfl⟩
    have : Flt.ulpsEq (Flt.zero t : Flt f) Scalar.zero = true := tiny_ulps h0 (by rw [abs_zero]; exact (pow2_pos _).le)
    exact absurd (hu.symm.trans this) (by simp)

/-- C89: a ray without direction (both components zero, of either sign) hits nothing, whatever the numbers are. -/
theorem C89_zero_direction (line : List (V2 (Flt f))) (r o : V2 (Flt f))
    (hr : ∃ t u, r = ⟨.zero t, .zero u⟩) : closestRayIntersection line r o = none := by
  obtain ⟨t, u, rfl⟩ := hr
  have edge : ∀ a b : V2 (Flt f), rayEdgeIntersection o ⟨.zero t, .zero u⟩ a b = none ∨
      rayEdgeIntersection o ⟨.zero t, .zero u⟩ a b = some .nan := by
    intro a b
    have z1 : ZeroNan (V2.perpDot (⟨.zero t, .zero u⟩ : V2 (Flt f)) (b.sub a)) := (mul_zero_left _ _).sub (mul_zero_left _ _)
    have z2 : ZeroNan (V2.dot (⟨.zero t, .zero u⟩ : V2 (Flt f)) ⟨.zero t, .zero u⟩) := (mul_zero_left _ _).add (mul_zero_left _ _)
    have z3 : ZeroNan (V2.dot (a.sub o) (⟨.zero t, .zero u⟩ : V2 (Flt f))) := (zeroNan_mul _ _).add (zeroNan_mul _ _)
    unfold rayEdgeIntersection
    by_cases h1 : Scalar.ulpsEq (V2.perpDot (⟨.zero t, .zero u⟩ : V2 (Flt f)) (b.sub a)) Scalar.zero = true
    · simp only [h1, if_true]
      split
      · right
        have e : V2.dot (a.sub o) (⟨.zero t, .zero u⟩ : V2 (Flt f)) /. V2.dot (⟨.zero t, .zero u⟩ : V2 (Flt f)) ⟨.zero t, .zero u⟩ = .nan := z3.div z2
        rw [e]
        rfl
      · exact Or.inl rfl
    · left
      simp only [Bool.not_eq_true] at h1
      have e := zeroNan_ulps z1 h1
      simp only [h1]
      rw [e]
      have e2 : ∀ x : Flt f, x /. (.nan : Flt f) = .nan := by intro x; cases x <;> rfl
      rw [e2]
      rfl
  unfold closestRayIntersection
  split
  · rfl
  · have : ∀ ws : List (V2 (Flt f) × V2 (Flt f)),
        ws.foldl (fun n v => nearestStep n (rayEdgeIntersection o ⟨.zero t, .zero u⟩ v.1 v.2)) none = none := by
      intro ws
      induction ws with
      | nil => rfl
      | cons v ws ih =>
        rw [List.foldl_cons]
        rcases edge v.1 v.2 with h | h <;> rw [h]
        · exact ih
        · exact ih
    rw [this]
    rfl

/-- C89 (finding): without a grid a ray can slip through a vertex: the line (-2.6,0.2), (-2.2,0.1), (-1,1.2) in `f32`
and a ray from (0.5,-0.8) towards its middle point.  The exact ray of these floats meets the line, the computed one
passes it. -/
def slipLine : List (V2 F32) := [⟨Flt.ofQ false (-26 / 10), Flt.ofQ false (2 / 10)⟩,
  ⟨Flt.ofQ false (-22 / 10), Flt.ofQ false (1 / 10)⟩, ⟨Flt.ofQ false (-1), Flt.ofQ false (12 / 10)⟩]
def slipRay : V2 F32 := ⟨Flt.ofQ false (-189 / 100), Flt.ofQ false (63 / 100)⟩
def slipOrigin : V2 F32 := ⟨Flt.ofQ false (1 / 2), Flt.ofQ false (-8 / 10)⟩

theorem C89_a_ray_slips_through_a_vertex :
    (let _ := noAtan b32
     closestRayIntersection slipLine slipRay slipOrigin) = none ∧
    (closestRayIntersection (slipLine.map exact) (exact slipRay) (exact slipOrigin)).isSome = true := by
  constructor <;> decide +kernel

end
end Verif.Props
