import Verif.Proofs.RdpRefine
import Verif.Props.Discretize
/-!
# C105: inserting points into the segments of a line does not change what `simplify_rdp` returns
-/
namespace Verif.Props.Rdp
open Verif Verif.Model Verif.Spec Verif.Proofs.RdpRefine Verif.Proofs.SimplifyCurve Verif.Props.Discretize

section exact
variable {K : Type} [Scalar K] [Field K] [LinearOrder K] [ExactScalar K]

/-- `p` is a point of the segment `ab` other than the ends (if `a = b` it is that point) -/
def Inside2 (a b p : V2 K) : Prop := ∃ t : K, 0 < t ∧ t < 1 ∧ p = lerp2 a b t
/-- `p` is a point of the segment `ab` other than the ends (if `a = b` it is that point) -/
def Inside3 (a b p : V3 K) : Prop := ∃ t : K, 0 < t ∧ t < 1 ∧ p = lerp3 a b t

/-- a line with points inserted has the same ends -/
theorem refine_ends {P : Type} {ok : P → P → P → Prop} {l o : List P} (h : Simplification ok l o) :
    (l = o ∧ ∃ a, o = [a]) ∨ ∃ s mid mid' e, l = s :: (mid' ++ [e]) ∧ o = s :: (mid ++ [e]) := by
  induction h with
  | single a => exact Or.inl ⟨rfl, a, rfl⟩
  | step a b dropped rest out hok h ih =>
    right
    rcases ih with ⟨h1, c, h2⟩ | ⟨s, mid, mid', e, h1, h2⟩
    · cases h2
      cases h1
      exact ⟨a, [], dropped, b, rfl, rfl⟩
    · rw [h1, h2]
      exact ⟨a, s :: mid, dropped ++ s :: mid', e, by simp, by simp⟩

theorem rdpTop_fine {P : Type} (dist : P → P → P → K) (d : K) {on : P → P → P → Prop}
    (hconv : ∀ s e a b p, on a b p → ∃ t : K, 0 < t ∧ t < 1 ∧ dist s e p ≤ (1 - t) * dist s e a + t * dist s e b)
    (hs : ∀ s e, dist s e s ≤ 0) (he : ∀ s e, dist s e e ≤ 0) {fine coarse : List P} (h : Simplification on fine coarse) :
    rdpTop (fun a b p => .ok (dist a b p)) d fine = rdpTop (fun a b p => .ok (dist a b p)) d coarse := by
  have := ExactScalar.toIsStrictOrderedRing (K := K)
  have h0 : (0 : K) ≤ Scalar.mul d d := by rw [ExactScalar.mul_eq]; exact mul_self_nonneg d
  rcases refine_ends h with ⟨rfl, -⟩ | ⟨s, mid, mid', e, rfl, rfl⟩
  · rfl
  obtain ⟨k, h1, k1⟩ := rdpTop_textbook dist d s mid e
  obtain ⟨k', h2, k2⟩ := rdpTop_textbook dist d s mid' e
  have k3 := keeps_fine (on := on) (by
      intro s e a b p hp m ha hb
      obtain ⟨t, t0, t1, hc⟩ := hconv s e a b p hp
      exact hc.trans (between t0.le t1.le ha hb)) (by
      intro s e a b p hp m ha hb
      obtain ⟨t, t0, t1, hc⟩ := hconv s e a b p hp
      have a1 := mul_le_mul_of_nonneg_left ha (show 0 ≤ 1 - t by linarith)
      have b1 := mul_lt_mul_of_pos_left hb t0
      have : (1 - t) * m + t * m = m := by ring
      linarith) (fun s e => (hs s e).trans h0) (fun s e => (he s e).trans h0) k1 mid' h
  rw [h1, h2, keeps_unique k2 k3]

theorem dist2_inside (s e a b p : V2 K) (h : Inside2 a b p) :
    ∃ t : K, 0 < t ∧ t < 1 ∧ distToLineSqSafe2 s e p ≤ (1 - t) * distToLineSqSafe2 s e a + t * distToLineSqSafe2 s e b := by
  have := ExactScalar.toIsStrictOrderedRing (K := K)
  have hm := fun a b p : V2 K => Props.Dist.C16_dist2_safe_is_min a b p
  obtain ⟨t, t0, t1, rfl⟩ := h
  refine ⟨t, t0, t1, ?_⟩
  obtain ⟨⟨qa, ⟨x, x0, x1, rfl⟩, ea⟩, -⟩ := hm s e a
  obtain ⟨⟨qb, ⟨y, y0, y1, rfl⟩, eb⟩, -⟩ := hm s e b
  rw [ea, eb]
  refine le_trans ((hm s e (lerp2 a b t)).2 _ ?_) (dist_convex2 a b _ _ t0.le t1.le)
  exact ⟨(1 - t) * x + t * y, add_nonneg (mul_nonneg (by linarith) x0) (mul_nonneg t0.le y0), between t0.le t1.le x1 y1,
    by unfold lerp2; congr 1 <;> ring⟩

theorem dist2_ends (s e : V2 K) : distToLineSqSafe2 s e s ≤ 0 ∧ distToLineSqSafe2 s e e ≤ 0 := by
  have := ExactScalar.toIsStrictOrderedRing (K := K)
  have hm := fun a b p : V2 K => Props.Dist.C16_dist2_safe_is_min a b p
  constructor
  · exact ((hm s e s).2 s ⟨0, le_refl _, zero_le_one, by unfold lerp2; simp⟩).trans (by unfold sqDist2; simp)
  · exact ((hm s e e).2 e ⟨1, zero_le_one, le_refl _, by unfold lerp2; simp⟩).trans (by unfold sqDist2; simp)

theorem dist3_inside (s e a b p : V3 K) (h : Inside3 a b p) :
    ∃ t : K, 0 < t ∧ t < 1 ∧ distToLineSqSafe3 s e p ≤ (1 - t) * distToLineSqSafe3 s e a + t * distToLineSqSafe3 s e b := by
  have := ExactScalar.toIsStrictOrderedRing (K := K)
  have hm := fun a b p : V3 K => Props.Dist.C17_dist3_safe_is_min a b p
  obtain ⟨t, t0, t1, rfl⟩ := h
  refine ⟨t, t0, t1, ?_⟩
  obtain ⟨⟨qa, ⟨x, rfl⟩, ea⟩, -⟩ := hm s e a
  obtain ⟨⟨qb, ⟨y, rfl⟩, eb⟩, -⟩ := hm s e b
  rw [ea, eb]
  exact le_trans ((hm s e (lerp3 a b t)).2 _ ⟨(1 - t) * x + t * y, lerp_lerp _ _ _ _ _⟩) (dist_convex a b _ _ t0.le t1.le)

theorem dist3_ends (s e : V3 K) : distToLineSqSafe3 s e s ≤ 0 ∧ distToLineSqSafe3 s e e ≤ 0 := by
  have hm := fun a b p : V3 K => Props.Dist.C17_dist3_safe_is_min a b p
  constructor
  · exact ((hm s e s).2 s ⟨0, by unfold lerp3; simp⟩).trans (by unfold sqDist3; simp)
  · exact ((hm s e e).2 e ⟨1, by unfold lerp3; simp⟩).trans (by unfold sqDist3; simp)

/-- **C105** 2D: if `fine` is `coarse` with points of its segments inserted, any number and in any order, both are simplified to the
same line. -/
theorem C105_rdp2_inserted_points (fine coarse : List (V2 K)) (d : K) (h : Simplification Inside2 fine coarse) :
    simplifyRdp2 fine d = simplifyRdp2 coarse d :=
  rdpTop_fine distToLineSqSafe2 d (on := Inside2) dist2_inside (fun s e => (dist2_ends s e).1) (fun s e => (dist2_ends s e).2) h

/-- **C105** 3D -/
theorem C105_rdp3_inserted_points (fine coarse : List (V3 K)) (d : K) (h : Simplification Inside3 fine coarse) :
    simplifyRdp3 fine d = simplifyRdp3 coarse d :=
  rdpTop_fine distToLineSqSafe3 d (on := Inside3) dist3_inside (fun s e => (dist3_ends s e).1) (fun s e => (dist3_ends s e).2) h

theorem divided_refines {P : Type} {lerp : P → P → K → P} {count : P → P → Nat → Prop} (h0 : ∀ a b, lerp a b 0 = a)
    (hc : ∀ a b n, count a b n → 1 ≤ n) {pts out : List P} (h : Divided lerp count pts out) :
    Simplification (fun a b p => ∃ t : K, 0 < t ∧ t < 1 ∧ p = lerp a b t) out pts := by
  have := ExactScalar.toIsStrictOrderedRing (K := K)
  induction h with
  | last p => exact .single p
  | seg a b rest out n hn h ih =>
    obtain ⟨k, rfl⟩ : ∃ k, n = k + 1 := ⟨n - 1, by have := hc a b n hn; omega⟩
    obtain ⟨out', rfl⟩ : ∃ out', out = b :: out' := by
      have := (divided_sublist h0 hc h).2.1
      cases out with
      | nil => simp at this
      | cons c out' => simp at this; exact ⟨out', by rw [this]⟩
    rw [List.range_succ_eq_map]
    simp only [List.map_cons, Nat.cast_zero, zero_div, h0, List.cons_append]
    refine .step a b _ _ _ ?_ ih
    intro p hp
    obtain ⟨i, hi, rfl⟩ := List.mem_map.1 hp
    obtain ⟨j, hj, rfl⟩ := List.mem_map.1 hi
    have hj := List.mem_range.1 hj
    have pos : (0 : K) < ((k + 1 : Nat) : K) := by exact_mod_cast Nat.succ_pos k
    refine ⟨_, div_pos (by exact_mod_cast Nat.succ_pos j) pos, (div_lt_one pos).2 (by exact_mod_cast Nat.succ_lt_succ hj), rfl⟩

/-- **C105** 2D: a discretized line is simplified to the same points as the line itself: `discretize` can be undone, up to what
`simplify_rdp` drops anyway. -/
theorem C105_rdp2_discretize [ExactSqrt K] (pts out : List (V2 K)) (step d : K) (hstep : 0 < step)
    (h : Collects (discNext ops2) (discNew ops2 pts step) out) : simplifyRdp2 out d = simplifyRdp2 pts d := by
  by_cases hne : pts = []
  · subst hne
    obtain ⟨out', h1, -, h2⟩ := C26_always_ends (o := ops2) ([] : List (V2 K)) step
    rw [collects_unique h h1, h2 (by simp)]
  · exact C105_rdp2_inserted_points out pts d (divided_refines lerp2_zero (fun a b n hn => hn.1) (C27_divided2 pts out step hstep hne h))

/-- **C105** 3D -/
theorem C105_rdp3_discretize [ExactSqrt K] (pts out : List (V3 K)) (step d : K) (hstep : 0 < step)
    (h : Collects (discNext ops3) (discNew ops3 pts step) out) : simplifyRdp3 out d = simplifyRdp3 pts d := by
  by_cases hne : pts = []
  · subst hne
    obtain ⟨out', h1, -, h2⟩ := C26_always_ends (o := ops3) ([] : List (V3 K)) step
    rw [collects_unique h h1, h2 (by simp)]
  · exact C105_rdp3_inserted_points out pts d (divided_refines lerp3_zero (fun a b n hn => hn.1) (C27_divided3 pts out step hstep hne h))

end exact

/-- C105 is about something: a line with four points inserted, two of them in the wrong order, and what both are simplified to. -/
theorem C105_example :
    Simplification Inside2 [(⟨0, 0⟩ : V2 ℚ), ⟨3, 0⟩, ⟨1, 0⟩, ⟨4, 0⟩, ⟨4, 1⟩, ⟨4, 2⟩, ⟨0, 4⟩] [⟨0, 0⟩, ⟨4, 0⟩, ⟨4, 2⟩, ⟨0, 4⟩] ∧
    simplifyRdp2 [(⟨0, 0⟩ : V2 ℚ), ⟨3, 0⟩, ⟨1, 0⟩, ⟨4, 0⟩, ⟨4, 1⟩, ⟨4, 2⟩, ⟨0, 4⟩] 1 = .ok [⟨0, 0⟩, ⟨4, 0⟩, ⟨4, 2⟩, ⟨0, 4⟩] ∧
    simplifyRdp2 [(⟨0, 0⟩ : V2 ℚ), ⟨3, 0⟩, ⟨1, 0⟩, ⟨4, 0⟩, ⟨4, 1⟩, ⟨4, 2⟩, ⟨0, 4⟩] 2 = .ok [⟨0, 0⟩, ⟨4, 2⟩, ⟨0, 4⟩] := by
  refine ⟨?_, by decide +kernel, by decide +kernel⟩
  refine Simplification.step (⟨0, 0⟩ : V2 ℚ) ⟨4, 0⟩ [⟨3, 0⟩, ⟨1, 0⟩] [⟨4, 1⟩, ⟨4, 2⟩, ⟨0, 4⟩] [⟨4, 2⟩, ⟨0, 4⟩] ?_
    (Simplification.step (⟨4, 0⟩ : V2 ℚ) ⟨4, 2⟩ [⟨4, 1⟩] [⟨0, 4⟩] [⟨0, 4⟩] ?_
      (Simplification.step (⟨4, 2⟩ : V2 ℚ) ⟨0, 4⟩ [] [] [] (by simp) (.single _)))
  · intro p hp
    simp only [List.mem_cons, List.not_mem_nil, or_false] at hp
    rcases hp with rfl | rfl
    · exact ⟨3 / 4, by norm_num, by norm_num, by unfold lerp2; norm_num⟩
    · exact ⟨1 / 4, by norm_num, by norm_num, by unfold lerp2; norm_num⟩
  · intro p hp
    simp only [List.mem_cons, List.not_mem_nil, or_false] at hp
    subst hp
    exact ⟨1 / 2, by norm_num, by norm_num, by unfold lerp2; norm_num⟩

end Verif.Props.Rdp
