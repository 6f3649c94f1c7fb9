import Verif.Props.RdpExtremes
import Verif.Props.FloatRdp
/-!
# C114 in floating point
-/
set_option linter.unusedSectionVars false
namespace Verif.Props.RdpExtremes
open Verif Verif.Model Verif.Spec Verif.Hull Verif.Props Fl Flt Verif.Proofs.FloatSimplify

section
variable {ε S m D T c : ℚ}

theorem beyond (hε : 0 < ε) (h32 : ε ≤ 1 / 32) (hc : c ≤ 5) (hS : 0 ≤ S) (hm : 0 ≤ m) (hD : |D - m| ≤ c * ε * m)
    (hT : |T - S| ≤ ε * S) (h : (1 + 8 * ε) * S < m) : T < D := by
  have h1 := (abs_le.1 hD).1
  have h2 := (abs_le.1 hT).2
  have k : c * ε * m ≤ 5 * ε * m := by
    have := mul_nonneg hε.le hm
    nlinarith
  have k2 : (1 - 5 * ε) * ((1 + 8 * ε) * S) < (1 - 5 * ε) * m := mul_lt_mul_of_pos_left h (by linarith)
  have k3 : (1 + ε) * S ≤ (1 - 5 * ε) * (1 + 8 * ε) * S := by
    apply mul_le_mul_of_nonneg_right _ hS
    nlinarith
  nlinarith

theorem within (hε : 0 < ε) (h32 : ε ≤ 1 / 32) (hc : c ≤ 5) (hm : 0 ≤ m) (hD : |D - m| ≤ c * ε * m)
    (hT : |T - S| ≤ ε * S) (h : (1 + 8 * ε) * m ≤ S) : ¬ T < D := by
  rw [not_lt]
  have h1 := (abs_le.1 hD).2
  have h2 := (abs_le.1 hT).1
  have k : c * ε * m ≤ 5 * ε * m := by
    have := mul_nonneg hε.le hm
    nlinarith
  have k2 : (1 - ε) * ((1 + 8 * ε) * m) ≤ (1 - ε) * S := mul_le_mul_of_nonneg_left h (by linarith)
  have k3 : (1 + 5 * ε) * m ≤ (1 - ε) * (1 + 8 * ε) * m := by
    apply mul_le_mul_of_nonneg_right _ hm
    nlinarith
  nlinarith
end

section
variable {f : Fmt} [Libm f]

theorem min_nonneg2 {p : V2 ℚ} {A : V2 ℚ → Prop} {m : ℚ} (h : IsMinSqDist sqDist2 p A m) : 0 ≤ m := by
  obtain ⟨⟨q, -, e⟩, -⟩ := h
  rw [e]; unfold sqDist2; positivity

/-- **C114** in f32 and f64, points on a grid: nothing is removed if every point is further than `|d|` from all segments between an earlier
and a later point, by a relative margin of a few units in the last place. -/
theorem C114_rdp2_removes_nothing_on_floats {s B : ℤ} (G : SquareGrid f s B) (hB : 1 ≤ B) (pl : List (V2 (Flt f)))
    (hg : ∀ p ∈ pl, OnGrid s B p) (d : Flt f) (hd : d.isFin = true)
    (h : ∀ (i j k : Nat) (a p b : V2 (Flt f)), i < j → j < k → getElem? pl i = some a → getElem? pl j = some p →
      getElem? pl k = some b → ∀ q, OnSegment2 (exact a) (exact b) q →
      (1 + 8 * (2 : ℚ) ^ (-f.prec : ℤ)) * d.val ^ 2 < sqDist2 (exact p) q) : simplifyRdp2 pl d = .ok pl := by
  rcases two_ends pl with rfl | ⟨p, rfl⟩ | ⟨a, mid, e, rfl⟩
  · rfl
  · rfl
  · obtain ⟨D, T, kept, hD, hT, h1, h2⟩ := C80_rdp2_is_textbook G hB a mid e hg d hd
    rw [h1, keeps_all h2]
    intro a p b hs
    have g := fun x hx => hg x (hs.subset hx)
    obtain ⟨m, hm, hDm⟩ := hD a b p (g a (by simp)) (g b (by simp)) (g p (by simp))
    obtain ⟨i, j, k, hij, hjk, ha, hp, hb⟩ := sublist3 hs
    obtain ⟨q, hq, eq⟩ := hm.1
    have := h i j k a p b hij hjk ha hp hb q hq
    rw [← eq] at this
    have hε := eps_small f
    rw [pow2_eq] at hε
    exact beyond (by positivity) hε (by norm_num) (by positivity) (min_nonneg2 hm) hDm hT this

/-- **C114** in f32 and f64, points on a grid: if only the end points are left, all the others are within `|d|` of the segment between
them, up to rounding; and the other way round. -/
theorem C114_rdp2_removes_everything_on_floats {s B : ℤ} (G : SquareGrid f s B) (hB : 1 ≤ B) (a : V2 (Flt f)) (mid : List (V2 (Flt f)))
    (e : V2 (Flt f)) (hg : ∀ p ∈ a :: (mid ++ [e]), OnGrid s B p) (d : Flt f) (hd : d.isFin = true) :
    (simplifyRdp2 (a :: (mid ++ [e])) d = .ok [a, e] → ∀ p ∈ mid, ∃ q, OnSegment2 (exact a) (exact e) q ∧
      sqDist2 (exact p) q ≤ (1 + 8 * (2 : ℚ) ^ (-f.prec : ℤ)) * d.val ^ 2) ∧
    ((∀ p ∈ mid, ∃ q, OnSegment2 (exact a) (exact e) q ∧
      (1 + 8 * (2 : ℚ) ^ (-f.prec : ℤ)) * sqDist2 (exact p) q ≤ d.val ^ 2) → simplifyRdp2 (a :: (mid ++ [e])) d = .ok [a, e]) := by
  obtain ⟨D, T, kept, hD, hT, h1, h2⟩ := C80_rdp2_is_textbook G hB a mid e hg d hd
  rw [h1]
  have hε := eps_small f
  rw [pow2_eq] at hε
  have hε0 : (0 : ℚ) < (2 : ℚ) ^ (-f.prec : ℤ) := by positivity
  have hk := keeps_nothing h2
  constructor
  · intro h p hp
    have e0 : kept = [] := by
      have := Except.ok.inj h
      simpa using this
    have hn := hk.1 e0 p hp
    obtain ⟨m, hm, hDm⟩ := hD a e p (hg a (by simp)) (hg e (by simp)) (hg p (by simp [hp]))
    obtain ⟨q, hq, eq⟩ := hm.1
    refine ⟨q, hq, ?_⟩
    rw [← eq]
    by_contra hlt
    exact hn (beyond hε0 hε (by norm_num) (by positivity) (min_nonneg2 hm) hDm hT (not_le.1 hlt))
  · intro h
    rw [hk.2 (fun p hp => ?_)]
    · rfl
    · obtain ⟨m, hm, hDm⟩ := hD a e p (hg a (by simp)) (hg e (by simp)) (hg p (by simp [hp]))
      obtain ⟨q, hq, hl⟩ := h p hp
      have := hm.2 q hq
      exact within hε0 hε (by norm_num) (min_nonneg2 hm) hDm hT
        ((mul_le_mul_of_nonneg_left this (by linarith)).trans hl)

theorem min_nonneg3 {p : V3 ℚ} {A : V3 ℚ → Prop} {m : ℚ} (h : IsMinSqDist sqDist3 p A m) : 0 ≤ m := by
  obtain ⟨⟨q, -, e⟩, -⟩ := h
  rw [e]; unfold sqDist3; positivity

/-- **C114** in f32 and f64, points on a grid in space: nothing is removed if every point is further than `|d|` from all lines through an earlier
and a later point, by a relative margin of a few units in the last place. -/
theorem C114_rdp3_removes_nothing_on_floats {s B : ℤ} (G : SquareGrid f s B) (hB : 1 ≤ B) (pl : List (V3 (Flt f)))
    (hg : ∀ p ∈ pl, OnGrid3 s B p) (d : Flt f) (hd : d.isFin = true)
    (h : ∀ (i j k : Nat) (a p b : V3 (Flt f)), i < j → j < k → getElem? pl i = some a → getElem? pl j = some p →
      getElem? pl k = some b → ∀ q, OnLine3 (exact3 a) (exact3 b) q →
      (1 + 8 * (2 : ℚ) ^ (-f.prec : ℤ)) * d.val ^ 2 < sqDist3 (exact3 p) q) : simplifyRdp3 pl d = .ok pl := by
  rcases two_ends pl with rfl | ⟨p, rfl⟩ | ⟨a, mid, e, rfl⟩
  · rfl
  · rfl
  · obtain ⟨D, T, kept, hD, hT, h1, h2⟩ := C80_rdp3_is_textbook G hB a mid e hg d hd
    rw [h1, keeps_all h2]
    intro a p b hs
    have g := fun x hx => hg x (hs.subset hx)
    obtain ⟨m, hm, hDm⟩ := hD a b p (g a (by simp)) (g b (by simp)) (g p (by simp))
    obtain ⟨i, j, k, hij, hjk, ha, hp, hb⟩ := sublist3 hs
    obtain ⟨q, hq, eq⟩ := hm.1
    have := h i j k a p b hij hjk ha hp hb q hq
    rw [← eq] at this
    have hε := eps_small f
    rw [pow2_eq] at hε
    exact beyond (by positivity) hε (by norm_num) (by positivity) (min_nonneg3 hm) hDm hT this

/-- **C114** in f32 and f64, points on a grid in space: if only the end points are left, all the others are within `|d|` of the line through
them, up to rounding; and the other way round. -/
theorem C114_rdp3_removes_everything_on_floats {s B : ℤ} (G : SquareGrid f s B) (hB : 1 ≤ B) (a : V3 (Flt f)) (mid : List (V3 (Flt f)))
    (e : V3 (Flt f)) (hg : ∀ p ∈ a :: (mid ++ [e]), OnGrid3 s B p) (d : Flt f) (hd : d.isFin = true) :
    (simplifyRdp3 (a :: (mid ++ [e])) d = .ok [a, e] → ∀ p ∈ mid, ∃ q, OnLine3 (exact3 a) (exact3 e) q ∧
      sqDist3 (exact3 p) q ≤ (1 + 8 * (2 : ℚ) ^ (-f.prec : ℤ)) * d.val ^ 2) ∧
    ((∀ p ∈ mid, ∃ q, OnLine3 (exact3 a) (exact3 e) q ∧
      (1 + 8 * (2 : ℚ) ^ (-f.prec : ℤ)) * sqDist3 (exact3 p) q ≤ d.val ^ 2) → simplifyRdp3 (a :: (mid ++ [e])) d = .ok [a, e]) := by
  obtain ⟨D, T, kept, hD, hT, h1, h2⟩ := C80_rdp3_is_textbook G hB a mid e hg d hd
  rw [h1]
  have hε := eps_small f
  rw [pow2_eq] at hε
  have hε0 : (0 : ℚ) < (2 : ℚ) ^ (-f.prec : ℤ) := by positivity
  have hk := keeps_nothing h2
  constructor
  · intro h p hp
    have e0 : kept = [] := by
      have := Except.ok.inj h
      simpa using this
    have hn := hk.1 e0 p hp
    obtain ⟨m, hm, hDm⟩ := hD a e p (hg a (by simp)) (hg e (by simp)) (hg p (by simp [hp]))
    obtain ⟨q, hq, eq⟩ := hm.1
    refine ⟨q, hq, ?_⟩
    rw [← eq]
    by_contra hlt
    exact hn (beyond hε0 hε (by norm_num) (by positivity) (min_nonneg3 hm) hDm hT (not_le.1 hlt))
  · intro h
    rw [hk.2 (fun p hp => ?_)]
    · rfl
    · obtain ⟨m, hm, hDm⟩ := hD a e p (hg a (by simp)) (hg e (by simp)) (hg p (by simp [hp]))
      obtain ⟨q, hq, hl⟩ := h p hp
      have := hm.2 q hq
      exact within hε0 hε (by norm_num) (min_nonneg3 hm) hDm hT
        ((mul_le_mul_of_nonneg_left this (by linarith)).trans hl)

/-- **C114** in f32 and f64: with the tolerance 0 no corner of a convex hull is removed. -/
theorem C114_hull_keeps_its_corners_on_floats {s B : ℤ} (G : SquareGrid f s B) (hB : 1 ≤ B) (pts : List (V2 ℚ)) (hull : List (V2 (Flt f)))
    (hg : ∀ p ∈ hull, OnGrid s B p) (H : IsHullLoop pts (hull.map exact)) (d : Flt f) (hd : d.isFin = true) (h0 : d.val = 0) :
    simplifyRdp2 hull d = .ok hull := by
  refine C114_rdp2_removes_nothing_on_floats G hB hull hg d hd (fun i j k a p b hij hjk ha hp hb q hq => ?_)
  rw [h0, zero_pow two_ne_zero, mul_zero]
  refine sqDist2_pos ?_
  have e : ∀ {k : Nat} {v : V2 (Flt f)}, getElem? hull k = some v → getElem? (hull.map exact) k = some (exact v) := by
    intro k v hv; rw [List.getElem?_map, hv]; rfl
  intro hpq
  rw [← hpq] at hq
  exact corner_off H hij hjk (e ha) (e hp) (e hb) hq
end

end Verif.Props.RdpExtremes
