import Verif.Spec.Box
import Verif.Spec.Laws
/-!
# Helper lemmas about boxes
-/
namespace Verif.Proofs.Aabb
open Verif Verif.Model Verif.Spec Scalar
set_option linter.unusedSectionVars false

section ordered
variable {K : Type} [Scalar K] [LinearOrder K] [OrderedScalar K]

theorem range_single (x : K) : IsRange x x [x] := by simp [IsRange]

theorem range_step {lo hi x : K} {xs : List K} (h : IsRange lo hi xs) :
    IsRange (min lo x) (max hi x) (xs ++ [x]) := by
  obtain ⟨h1, h2, h3⟩ := h
  refine ⟨?_, ?_, ?_⟩
  · rcases min_choice lo x with e | e <;> rw [e] <;> simp [h1]
  · rcases max_choice hi x with e | e <;> rw [e] <;> simp [h2]
  · intro y hy
    rw [List.mem_append, List.mem_singleton] at hy
    rcases hy with hy | rfl
    · exact ⟨(min_le_left _ _).trans (h3 y hy).1, (h3 y hy).2.trans (le_max_left _ _)⟩
    · exact ⟨min_le_right _ _, le_max_right _ _⟩

theorem range_congr {lo hi : K} {xs ys : List K} (h : IsRange lo hi xs) (e : ∀ x, x ∈ xs ↔ x ∈ ys) :
    IsRange lo hi ys :=
  ⟨(e _).1 h.1, (e _).1 h.2.1, fun x hx => h.2.2 x ((e x).2 hx)⟩

theorem range_merge {lo hi lo2 hi2 : K} {xs ys : List K} (h : IsRange lo hi xs)
    (g : IsRange lo2 hi2 ys) :
    IsRange (min (min lo lo2) hi2) (max (max hi lo2) hi2) (xs ++ ys) := by
  have hle : lo2 ≤ hi2 := (g.2.2 _ g.1).2
  rw [min_assoc, min_eq_left hle, max_assoc, max_eq_right hle]
  refine ⟨?_, ?_, ?_⟩
  · rcases min_choice lo lo2 with e | e <;> rw [e] <;> simp [h.1, g.1]
  · rcases max_choice hi hi2 with e | e <;> rw [e] <;> simp [h.2.1, g.2.1]
  · intro y hy
    rw [List.mem_append] at hy
    rcases hy with hy | hy
    · exact ⟨(min_le_left _ _).trans (h.2.2 y hy).1, (h.2.2 y hy).2.trans (le_max_left _ _)⟩
    · exact ⟨(min_le_right _ _).trans (g.2.2 y hy).1, (g.2.2 y hy).2.trans (le_max_right _ _)⟩

theorem range_unique {lo hi lo2 hi2 : K} {xs ys : List K} (h : IsRange lo hi xs)
    (g : IsRange lo2 hi2 ys) (e : ∀ x, x ∈ xs ↔ x ∈ ys) : lo = lo2 ∧ hi = hi2 :=
  ⟨le_antisymm (h.2.2 _ ((e _).2 g.1)).1 (g.2.2 _ ((e _).1 h.1)).1,
   le_antisymm (g.2.2 _ ((e _).1 h.2.1)).2 (h.2.2 _ ((e _).2 g.2.1)).2⟩

/-! 2D -/

theorem step2_eq (b : V2 K × V2 K) (p : V2 K) : Aabb2.step b p =
    (⟨min b.1.x p.x, min b.1.y p.y⟩, ⟨max b.2.x p.x, max b.2.y p.y⟩) := by
  simp only [Aabb2.step, OrderedScalar.fmin_eq, OrderedScalar.fmax_eq]

theorem box2_point {b : Aabb2 K} {pts : List (V2 K)} (h : IsBoundingBox2 b pts) (p : V2 K) :
    IsBoundingBox2 (b.updateWithPoint p) (pts ++ [p]) := by
  obtain ⟨mm⟩ := b
  cases mm with
  | none =>
    simp only [IsBoundingBox2] at h
    subst h
    exact ⟨range_single _, range_single _⟩
  | some mm =>
    obtain ⟨lo, hi⟩ := mm
    simp only [IsBoundingBox2] at h
    simp only [IsBoundingBox2, Aabb2.updateWithPoint, step2_eq, List.map_append, List.map_cons, List.map_nil]
    exact ⟨range_step h.1, range_step h.2⟩

theorem box2_congr {b : Aabb2 K} {pts qts : List (V2 K)} (h : IsBoundingBox2 b pts)
    (e : ∀ p, p ∈ pts ↔ p ∈ qts) : IsBoundingBox2 b qts := by
  obtain ⟨mm⟩ := b
  cases mm with
  | none =>
    simp only [IsBoundingBox2] at h ⊢
    subst h
    exact List.eq_nil_iff_forall_not_mem.2 (fun p hp => by simpa using (e p).2 hp)
  | some mm =>
    simp only [IsBoundingBox2] at h ⊢
    refine ⟨range_congr h.1 ?_, range_congr h.2 ?_⟩ <;> intro x <;> simp only [List.mem_map, e]

theorem box2_foldl {lo hi : V2 K} {pts : List (V2 K)} (ps : List (V2 K))
    (h : IsBoundingBox2 ⟨some (lo, hi)⟩ pts) :
    IsBoundingBox2 ⟨some (ps.foldl Aabb2.step (lo, hi))⟩ (pts ++ ps) := by
  induction ps generalizing lo hi pts with
  | nil => simpa using h
  | cons p ps ih =>
    have := box2_point h p
    rw [show pts ++ p :: ps = (pts ++ [p]) ++ ps by simp]
    exact ih this

theorem box2_points {b : Aabb2 K} {pts : List (V2 K)} (h : IsBoundingBox2 b pts) (ps : List (V2 K)) :
    IsBoundingBox2 (b.updateWithPoints ps) (pts ++ ps) := by
  cases ps with
  | nil => simpa [Aabb2.updateWithPoints] using h
  | cons p ps =>
    obtain ⟨mm⟩ := b
    cases mm with
    | none =>
      simp only [IsBoundingBox2] at h
      subst h
      simp only [Aabb2.updateWithPoints, Aabb2.updateWithPoint, Option.isNone_none, if_true]
      have h0 : IsBoundingBox2 (⟨some (p, p)⟩ : Aabb2 K) [p] := ⟨range_single _, range_single _⟩
      exact box2_congr (box2_foldl (p :: ps) h0) (by simp)
    | some mm =>
      simp only [Aabb2.updateWithPoints, Option.isNone_some]
      exact box2_foldl (p :: ps) h

theorem box2_aabb {b o : Aabb2 K} {pts qts : List (V2 K)} (h : IsBoundingBox2 b pts)
    (g : IsBoundingBox2 o qts) : IsBoundingBox2 (b.updateWithAabb o) (pts ++ qts) := by
  obtain ⟨mm⟩ := b
  obtain ⟨om⟩ := o
  cases om with
  | none =>
    simp only [IsBoundingBox2] at g
    subst g
    simpa [Aabb2.updateWithAabb] using h
  | some om =>
    obtain ⟨lo2, hi2⟩ := om
    cases mm with
    | none =>
      simp only [IsBoundingBox2] at h g
      subst h
      simp only [Aabb2.updateWithAabb, Aabb2.updateWithPoint, IsBoundingBox2, step2_eq, List.nil_append]
      have hx : lo2.x ≤ hi2.x := (g.1.2.2 _ g.1.1).2
      have hy : lo2.y ≤ hi2.y := (g.2.2.2 _ g.2.1).2
      rw [min_eq_left hx, min_eq_left hy, max_eq_right hx, max_eq_right hy]
      exact g
    | some mm =>
      obtain ⟨lo, hi⟩ := mm
      simp only [IsBoundingBox2] at h g
      simp only [Aabb2.updateWithAabb, Aabb2.updateWithPoint, IsBoundingBox2, step2_eq, List.map_append]
      exact ⟨range_merge h.1 g.1, range_merge h.2 g.2⟩

theorem box2_iter {b : Aabb2 K} {pts : List (V2 K)} (h : IsBoundingBox2 b pts) (ps : List (V2 K)) :
    IsBoundingBox2 (ps.foldl Aabb2.updateWithPoint b) (pts ++ ps) := by
  induction ps generalizing b pts with
  | nil => simpa using h
  | cons p ps ih =>
    rw [show pts ++ p :: ps = (pts ++ [p]) ++ ps by simp]
    exact ih (box2_point h p)

theorem hist2_box (h : Hist2 K) : IsBoundingBox2 h.run h.fed := by
  induction h with
  | default => rfl
  | new p => exact ⟨range_single _, range_single _⟩
  | withPoints ps =>
    simp only [Hist2.run, Hist2.fed, Aabb2.withPoints]
    split
    · next h => simpa [IsBoundingBox2] using h
    · exact box2_points (b := ⟨none⟩) (pts := []) rfl ps
  | fromIter ps => exact box2_iter (b := ⟨none⟩) (pts := []) rfl ps
  | point h p ih => exact box2_point ih p
  | points h ps ih => exact box2_points ih ps
  | aabb h o ih1 ih2 => exact box2_aabb ih1 ih2

/-! 3D -/

theorem step3_eq (b : V3 K × V3 K) (p : V3 K) : Aabb3.step b p =
    (⟨min b.1.x p.x, min b.1.y p.y, min b.1.z p.z⟩, ⟨max b.2.x p.x, max b.2.y p.y, max b.2.z p.z⟩) := by
  simp only [Aabb3.step, OrderedScalar.fmin_eq, OrderedScalar.fmax_eq]

theorem if_min (a b : K) : (if b < a then b else a) = min a b := by
  split
  · next h => rw [min_eq_right h.le]
  · next h => rw [min_eq_left (not_lt.1 h)]

theorem if_max (a b : K) : (if a < b then b else a) = max a b := by
  split
  · next h => rw [max_eq_right h.le]
  · next h => rw [max_eq_left (not_lt.1 h)]

theorem stepIf_eq (b : V3 K × V3 K) (p : V3 K) : Aabb3.stepIf b p = Aabb3.step b p := by
  rw [step3_eq]
  simp only [Aabb3.stepIf, lt_decide, gt_decide, decide_eq_true_eq, if_min, if_max]

theorem box3_point {b : Aabb3 K} {pts : List (V3 K)} (h : IsBoundingBox3 b pts) (p : V3 K) :
    IsBoundingBox3 (b.updateWithPoint p) (pts ++ [p]) := by
  obtain ⟨mm⟩ := b
  cases mm with
  | none =>
    simp only [IsBoundingBox3] at h
    subst h
    exact ⟨range_single _, range_single _, range_single _⟩
  | some mm =>
    obtain ⟨lo, hi⟩ := mm
    simp only [IsBoundingBox3] at h
    simp only [IsBoundingBox3, Aabb3.updateWithPoint, stepIf_eq, step3_eq, List.map_append, List.map_cons,
      List.map_nil]
    exact ⟨range_step h.1, range_step h.2.1, range_step h.2.2⟩

theorem box3_congr {b : Aabb3 K} {pts qts : List (V3 K)} (h : IsBoundingBox3 b pts)
    (e : ∀ p, p ∈ pts ↔ p ∈ qts) : IsBoundingBox3 b qts := by
  obtain ⟨mm⟩ := b
  cases mm with
  | none =>
    simp only [IsBoundingBox3] at h ⊢
    subst h
    exact List.eq_nil_iff_forall_not_mem.2 (fun p hp => by simpa using (e p).2 hp)
  | some mm =>
    simp only [IsBoundingBox3] at h ⊢
    refine ⟨range_congr h.1 ?_, range_congr h.2.1 ?_, range_congr h.2.2 ?_⟩ <;> intro x <;>
      simp only [List.mem_map, e]

theorem box3_foldl {lo hi : V3 K} {pts : List (V3 K)} (ps : List (V3 K))
    (h : IsBoundingBox3 ⟨some (lo, hi)⟩ pts) :
    IsBoundingBox3 ⟨some (ps.foldl Aabb3.step (lo, hi))⟩ (pts ++ ps) := by
  induction ps generalizing lo hi pts with
  | nil => simpa using h
  | cons p ps ih =>
    have := box3_point h p
    simp only [Aabb3.updateWithPoint, stepIf_eq] at this
    rw [show pts ++ p :: ps = (pts ++ [p]) ++ ps by simp]
    exact ih this

theorem box3_points {b : Aabb3 K} {pts : List (V3 K)} (h : IsBoundingBox3 b pts) (ps : List (V3 K)) :
    IsBoundingBox3 (b.updateWithPoints ps) (pts ++ ps) := by
  cases ps with
  | nil => simpa [Aabb3.updateWithPoints] using h
  | cons p ps =>
    obtain ⟨mm⟩ := b
    cases mm with
    | none =>
      simp only [IsBoundingBox3] at h
      subst h
      simp only [Aabb3.updateWithPoints, Aabb3.updateWithPoint, Option.isNone_none, if_true]
      have h0 : IsBoundingBox3 (⟨some (p, p)⟩ : Aabb3 K) [p] :=
        ⟨range_single _, range_single _, range_single _⟩
      exact box3_congr (box3_foldl (p :: ps) h0) (by simp)
    | some mm =>
      simp only [Aabb3.updateWithPoints, Option.isNone_some]
      exact box3_foldl (p :: ps) h

theorem box3_aabb {b o : Aabb3 K} {pts qts : List (V3 K)} (h : IsBoundingBox3 b pts)
    (g : IsBoundingBox3 o qts) : IsBoundingBox3 (b.updateWithAabb o) (pts ++ qts) := by
  obtain ⟨mm⟩ := b
  obtain ⟨om⟩ := o
  cases om with
  | none =>
    simp only [IsBoundingBox3] at g
    subst g
    simpa [Aabb3.updateWithAabb] using h
  | some om =>
    obtain ⟨lo2, hi2⟩ := om
    cases mm with
    | none =>
      simp only [IsBoundingBox3] at h g
      subst h
      simp only [Aabb3.updateWithAabb, Aabb3.updateWithPoint, IsBoundingBox3, stepIf_eq, step3_eq,
        List.nil_append]
      have hx : lo2.x ≤ hi2.x := (g.1.2.2 _ g.1.1).2
      have hy : lo2.y ≤ hi2.y := (g.2.1.2.2 _ g.2.1.1).2
      have hz : lo2.z ≤ hi2.z := (g.2.2.2.2 _ g.2.2.1).2
      rw [min_eq_left hx, min_eq_left hy, min_eq_left hz, max_eq_right hx, max_eq_right hy, max_eq_right hz]
      exact g
    | some mm =>
      obtain ⟨lo, hi⟩ := mm
      simp only [IsBoundingBox3] at h g
      simp only [Aabb3.updateWithAabb, Aabb3.updateWithPoint, IsBoundingBox3, stepIf_eq, step3_eq,
        List.map_append]
      exact ⟨range_merge h.1 g.1, range_merge h.2.1 g.2.1, range_merge h.2.2 g.2.2⟩

theorem hist3_box (h : Hist3 K) : IsBoundingBox3 h.run h.fed := by
  induction h with
  | default => rfl
  | withPoints ps =>
    simp only [Hist3.run, Hist3.fed, Aabb3.withPoints]
    split
    · next h => simpa [IsBoundingBox3] using h
    · exact box3_points (b := ⟨none⟩) (pts := []) rfl ps
  | point h p ih => exact box3_point ih p
  | points h ps ih => exact box3_points ih ps
  | aabb h o ih1 ih2 => exact box3_aabb ih1 ih2

end ordered

section exact
variable {K : Type} [Scalar K] [Field K] [LinearOrder K] [ExactScalar K]

theorem lt_or_ulps (a b : K) : (Scalar.lt a b || Scalar.ulpsEq a b) = true ↔ a ≤ b := by
  simp only [exact_simp, Bool.or_eq_true, decide_eq_true_eq, le_iff_lt_or_eq]

theorem gt_or_ulps (a b : K) : (Scalar.gt a b || Scalar.ulpsEq a b) = true ↔ b ≤ a := by
  simp only [exact_simp, Bool.or_eq_true, decide_eq_true_eq, le_iff_lt_or_eq]
  rw [eq_comm (a := a)]

theorem cp2_iff (b : V2 K × V2 K) (p : V2 K) : Aabb2.containsPoint_ b p = true ↔
    b.1.x ≤ p.x ∧ p.x ≤ b.2.x ∧ b.1.y ≤ p.y ∧ p.y ≤ b.2.y := by
  unfold Aabb2.containsPoint_
  rw [Bool.and_eq_true, Bool.and_eq_true, Bool.and_eq_true, lt_or_ulps, lt_or_ulps, gt_or_ulps, gt_or_ulps]
  tauto

theorem cp3_iff (b : V3 K × V3 K) (p : V3 K) : Aabb3.containsPoint_ b p = true ↔
    b.1.x ≤ p.x ∧ p.x ≤ b.2.x ∧ b.1.y ≤ p.y ∧ p.y ≤ b.2.y ∧ b.1.z ≤ p.z ∧ p.z ≤ b.2.z := by
  unfold Aabb3.containsPoint_
  rw [Bool.and_eq_true, Bool.and_eq_true, Bool.and_eq_true, Bool.and_eq_true, Bool.and_eq_true,
    lt_or_ulps, lt_or_ulps, lt_or_ulps, gt_or_ulps, gt_or_ulps, gt_or_ulps]
  tauto

theorem lerp_between {a b lo hi t : K} (ha : lo ≤ a ∧ a ≤ hi) (hb : lo ≤ b ∧ b ≤ hi) (h0 : 0 ≤ t)
    (h1 : t ≤ 1) : lo ≤ a + t * (b - a) ∧ a + t * (b - a) ≤ hi := by
  have e : a + t * (b - a) = (1 - t) * a + t * b := by ring
  rw [e]
  have h1' : 0 ≤ 1 - t := by linarith
  constructor
  · have := mul_le_mul_of_nonneg_left ha.1 h1'
    have := mul_le_mul_of_nonneg_left hb.1 h0
    nlinarith
  · have := mul_le_mul_of_nonneg_left ha.2 h1'
    have := mul_le_mul_of_nonneg_left hb.2 h0
    nlinarith

end exact

end Verif.Proofs.Aabb
