import Verif.Props.FloatGraham
import Verif.Props.HullPar
/-!
# Containment in floating point, and float points to try the theorems on
-/
namespace Verif.Props
open Verif Verif.Model Verif.Spec Scalar Verif.Proofs.Transfer Verif.Proofs.FloatHull
set_option linter.unusedSectionVars false
section
variable {f : Fmt} [Libm f]

/-- C75: `contains_point_inclusive` (both the function and the method) on floats. -/
theorem C75_contains_inclusive_on_floats {s B : ℤ} (G : GoodGrid f s B) {pts : List (V2 ℚ)} {hull : List (V2 (Flt f))}
    (hh : ∀ v ∈ hull, OnGrid s B v) (h : IsHullLoop pts (hull.map exact)) (hl : 3 < hull.length)
    (p : V2 (Flt f)) (hp : OnGrid s B p) :
    ∃ r, containsPointInclusive hull p = .ok r ∧ lineContainsInclusive hull p = .ok r ∧
      (r = true ↔ InLoop (hull.map exact) (exact p)) := by
  obtain ⟨r, h1, h2⟩ := C42_inclusive_iff_left_of_every_edge h (by simpa using hl) (exact p)
  have h3 := C42_line_inclusive h (by simpa using hl) (exact p)
  rw [containsInclusive_eq (agreeQ G).toTurns hull hp hh] at h1 h3
  refine ⟨r, h1, ?_, h2⟩
  have h4 := isConnected2_eq (agreeQ G).toTurns hh
  unfold lineContainsInclusive at h3 ⊢
  rw [h4, containsInclusive_eq (agreeQ G).toTurns hull hp hh] at h3
  rw [h3, h1]

/-- C75: `contains_point_exclusive` on floats: `true` is right, and a point inside that is not on a
diagonal from the second vertex is found. -/
theorem C75_contains_exclusive_on_floats {s B : ℤ} (G : GoodGrid f s B) {pts : List (V2 ℚ)} {hull : List (V2 (Flt f))}
    (hh : ∀ v ∈ hull, OnGrid s B v) (h : IsHullLoop pts (hull.map exact)) (hl : 3 < hull.length)
    (p : V2 (Flt f)) (hp : OnGrid s B p) :
    ∃ r, containsPointExclusive hull p = .ok r ∧ lineContainsExclusive hull p = .ok r ∧
      (r = true → InsideLoop (hull.map exact) (exact p)) ∧
      (∀ base, (hull.map exact)[1]? = some base → InsideLoop (hull.map exact) (exact p) →
        (∀ v ∈ hull, exact v ≠ base → orient base (exact v) (exact p) ≠ 0) → r = true) := by
  obtain ⟨r, h1, h2⟩ := C43_exclusive_sound h (by simpa using hl) (exact p)
  have h3 := C43_line_exclusive h (by simpa using hl) (exact p)
  have h5 := fun base => C43_exclusive_complete h (by simpa using hl) (exact p) base
  rw [containsExclusive_eq (agreeQ G).toTurns hull hp hh] at h1 h3 h5
  refine ⟨r, h1, ?_, h2, ?_⟩
  · have h4 := isConnected2_eq (agreeQ G).toTurns hh
    unfold lineContainsExclusive at h3 ⊢
    rw [h4, containsExclusive_eq (agreeQ G).toTurns hull hp hh] at h3
    rw [h3, h1]
  · intro base hb hin hoff
    have := h5 base hb hin (by
      intro v hv
      obtain ⟨w, hw, rfl⟩ := List.mem_map.1 hv
      exact hoff w hw)
    rw [h1] at this
    simpa using this

/-- C75: `contains_convex_hull` on floats. -/
theorem C75_contains_convex_hull_on_floats {s B : ℤ} (G : GoodGrid f s B) {pts : List (V2 ℚ)} {hull : List (V2 (Flt f))}
    (hh : ∀ v ∈ hull, OnGrid s B v) (h : IsHullLoop pts (hull.map exact)) (hl : 3 < hull.length)
    (b : List (V2 (Flt f))) (hb : ∀ q ∈ b, OnGrid s B q) :
    ∃ r, containsConvexHull hull b = .ok r ∧
      (∀ order : List (V2 (Flt f)) → List (V2 (Flt f)), (∀ l, (order l).Perm l) →
        containsConvexHullPar order hull b = .ok r) ∧
      (r = true ↔ ∀ q ∈ b, InLoop (hull.map exact) (exact q)) := by
  classical
  obtain ⟨r, h1, h2, h3⟩ := C44_contains_hull_iff h (by simpa using hl) (b.map exact)
  rw [containsConvexHull_eq (agreeQ G).toTurns hull b hh hb] at h1
  refine ⟨r, h1, ?_, by simpa using h3⟩
  intro order ho
  have := h2 (fun l => if l = b.map exact then (order b).map exact else l) (by
    intro l
    show (if l = b.map exact then (order b).map exact else l).Perm l
    split
    · rename_i e; rw [e]; exact (ho b).map _
    · exact List.Perm.refl _)
  rw [containsConvexHullPar_eq (agreeQ G).toTurns order (fun l => if l = b.map exact then (order b).map exact else l) hull b hh
    (fun q hq => hb q ((ho b).mem_iff.1 hq)) (if_pos rfl)] at this
  exact this

end

/-! ### The hypotheses can be met: integer points in `f64` -/

/-- the float point with integer coordinates -/
def ipt (f : Fmt) (k l : ℤ) : V2 (Flt f) := ⟨Flt.ofQ false k, Flt.ofQ false l⟩

theorem is_int {f : Fmt} {k : ℤ} (h : |k| ≤ 2 ^ f.prec) : Flt.Is (Flt.ofQ false (k : ℚ) : Flt f) k :=
  Flt.is_ofQ_repr false (Fl.repr_int f k h)

theorem onGrid_ipt {f : Fmt} {B : ℤ} (G : GoodGrid f 0 B) {k l : ℤ} (hk : |k| ≤ B) (hl : |l| ≤ B) :
    OnGrid 0 B (ipt f k l) ∧ exact (ipt f k l) = ⟨k, l⟩ := by
  have hB : 0 ≤ B := (abs_nonneg k).trans hk
  have hP : B ≤ 2 ^ f.prec := by
    have h1 := G.small
    have h2 := pow_split f
    have h3 : (0 : ℤ) < 2 ^ (f.prec - 3) := by positivity
    nlinarith
  have h1 := is_int (f := f) (hk.trans hP)
  have h2 := is_int (f := f) (hl.trans hP)
  refine ⟨⟨h1.1, h2.1, k, l, ?_, ?_, hk, hl⟩, ?_⟩
  · rw [zpow_zero, mul_one]; exact h1.2
  · rw [zpow_zero, mul_one]; exact h2.2
  · show (⟨_, _⟩ : V2 ℚ) = _
    exact congrArg₂ V2.mk h1.2 h2.2

/-- a square with a point inside and one on an edge, as floats -/
def sample : List (ℤ × ℤ) := [(0, 0), (1, 1), (200, 0), (200, 200), (0, 200), (100, 0)]

theorem sample_floats (f : Fmt) {B : ℤ} (G : GoodGrid f 0 B) (hB : 200 ≤ B) :
    (∀ p ∈ sample.map (fun q => ipt f q.1 q.2), OnGrid 0 B p) ∧
      (sample.map (fun q => ipt f q.1 q.2)).map exact = [⟨0, 0⟩, ⟨1, 1⟩, ⟨200, 0⟩, ⟨200, 200⟩, ⟨0, 200⟩, ⟨100, 0⟩] := by
  have h : ∀ q ∈ sample, |q.1| ≤ B ∧ |q.2| ≤ B := by
    have : ∀ q ∈ sample, |q.1| ≤ 200 ∧ |q.2| ≤ 200 := by decide
    exact fun q hq => ⟨(this q hq).1.trans hB, (this q hq).2.trans hB⟩
  constructor
  · intro p hp
    obtain ⟨q, hq, rfl⟩ := List.mem_map.1 hp
    exact (onGrid_ipt G (h q hq).1 (h q hq).2).1
  · rw [List.map_map]
    have : sample.map (exact ∘ fun q => ipt f q.1 q.2) = sample.map (fun q => (⟨q.1, q.2⟩ : V2 ℚ)) := by
      apply List.map_congr_left
      intro q hq
      exact (onGrid_ipt G (h q hq).1 (h q hq).2).2
    rw [this]
    simp [sample]

/-- the hypotheses of the theorems of C72, C73 and C74 are met by the sample, in `f64` (with a libm whose
`atan2` is the true angle rounded down) -/
example : (let _ := floorAtan b64
    ∃ hull, giftWrap 100 (sample.map (fun q => ipt b64 q.1 q.2)) = .ok hull ∧
      IsHullLoop [⟨0, 0⟩, ⟨1, 1⟩, ⟨200, 0⟩, ⟨200, 200⟩, ⟨0, 200⟩, ⟨100, 0⟩] (hull.map exact)) := by
  let _ := floorAtan b64
  obtain ⟨h1, h2⟩ := sample_floats b64 goodGrid64 (by norm_num)
  obtain ⟨hull, h3, -, h4, -⟩ := C72_gift_wrap_on_floats goodGrid64 _ h1 (by simp [sample]) (by rw [h2]; simp)
    (by rw [h2]; decide) (by rw [h2]; decide) 100 (by simp [sample])
  exact ⟨hull, h3, h2 ▸ h4⟩

example : (let _ := floorAtan b64
    ∃ srt hull, grahamScanWoAtan2 srt (sample.map (fun q => ipt b64 q.1 q.2)) = .ok hull ∧
      IsHullLoop [⟨0, 0⟩, ⟨1, 1⟩, ⟨200, 0⟩, ⟨200, 200⟩, ⟨0, 200⟩, ⟨100, 0⟩] (hull.map exact)) := by
  let _ := floorAtan b64
  obtain ⟨h1, h2⟩ := sample_floats b64 goodGrid64 (by norm_num)
  obtain ⟨srt, hs⟩ := C73_sort_exists goodGrid64
  obtain ⟨hull, h3, h4, -⟩ := C73_graham_scan_wo_atan2_on_floats goodGrid64 srt hs _ h1 (by simp [sample]) (by rw [h2]; simp)
    (by
      have : (⟨0, 0⟩ : V2 ℚ) ∈ (sample.map (fun q => ipt b64 q.1 q.2)).map exact := by rw [h2]; simp
      have t : (⟨1, 1⟩ : V2 ℚ) ∈ (sample.map (fun q => ipt b64 q.1 q.2)).map exact := by rw [h2]; simp
      obtain ⟨a, ha, e⟩ := List.mem_map.1 this
      obtain ⟨b, hb, e'⟩ := List.mem_map.1 t
      exact ⟨a, ha, b, hb, by rw [e, e']; decide⟩)
  exact ⟨srt, hull, h3, h2 ▸ h4⟩

example : (let _ := floorAtan b64
    ∃ srt hull, grahamScan srt (sample.map (fun q => ipt b64 q.1 q.2)) = .ok hull ∧
      IsHullLoop [⟨0, 0⟩, ⟨1, 1⟩, ⟨200, 0⟩, ⟨200, 200⟩, ⟨0, 200⟩, ⟨100, 0⟩] (hull.map exact)) := by
  let _ := floorAtan b64
  obtain ⟨h1, h2⟩ := sample_floats b64 goodGrid64 (by norm_num)
  obtain ⟨srt, hs⟩ := C74_sort_exists (f := b64) (V2 (Flt b64))
  obtain ⟨hull, h3, -, h4, -⟩ := C74_graham_scan_on_floats goodGrid64
    (C74_accurate_atan2_is_good goodGrid64 (C74_good_atan2_exists b64)) srt hs _ h1 (by simp [sample]) (by rw [h2]; simp)
    (by
      have : (⟨0, 0⟩ : V2 ℚ) ∈ (sample.map (fun q => ipt b64 q.1 q.2)).map exact := by rw [h2]; simp
      have t : (⟨1, 1⟩ : V2 ℚ) ∈ (sample.map (fun q => ipt b64 q.1 q.2)).map exact := by rw [h2]; simp
      obtain ⟨a, ha, e⟩ := List.mem_map.1 this
      obtain ⟨b, hb, e'⟩ := List.mem_map.1 t
      exact ⟨a, ha, b, hb, by rw [e, e']; decide⟩)
  exact ⟨srt, hull, h3, h2 ▸ h4⟩

end Verif.Props
