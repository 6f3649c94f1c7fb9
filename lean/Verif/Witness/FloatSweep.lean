import Verif.Props.FloatShared
import Verif.Props.FloatLineString
import Verif.Props.FloatRay
/-!
# The hypotheses of the theorems about intersections in floating point are met

Every theorem is applied to two lines of doubles that cross in (2,2), to the same lines given as edges, or to a line
string of eleven points.
-/
namespace Verif.Witness
open Verif Verif.Model Verif.Spec Scalar Verif.Props Verif.Proofs.FloatHull Verif.Proofs.FloatIntersect Verif.Proofs.FloatLinePoint Fl Flt
open Verif.SweepRaw

/-- two crossing lines and the corners as vertices -/
def fVertices : List (V2 F64) := [ipt b64 0 0, ipt b64 4 4, ipt b64 0 4, ipt b64 4 0]
def fLines : List (Line2 F64) := [⟨ipt b64 0 0, ipt b64 4 4⟩, ⟨ipt b64 0 4, ipt b64 4 0⟩]
def fEdges : List (Nat × Nat) := [(0, 1), (2, 3)]
/-- a line string of eleven points; the last segment crosses the first one -/
def fLong : List (V2 F64) := [ipt b64 0 0, ipt b64 9 1, ipt b64 9 3, ipt b64 8 4, ipt b64 7 5, ipt b64 6 6, ipt b64 5 7, ipt b64 4 8,
  ipt b64 3 9, ipt b64 2 8, ipt b64 1 (-1)]

theorem fOrder : ∀ n l, ((fun (_ : Nat) (l : List Nat) => l) n l).Perm l := fun _ _ => .refl _
theorem fEdges_in : ∀ e ∈ fEdges, e.1 < fVertices.length ∧ e.2 < fVertices.length := by simp [fEdges, fVertices]
theorem fLines_eq : edgeLines fVertices fEdges = fLines := by decide +kernel
theorem grid (k l : ℤ) (hk : |k| ≤ 9) (hl : |l| ≤ 9) : OnGrid 0 (2 ^ 23) (ipt b64 k l) :=
  (onGrid_ipt goodGrid64 (hk.trans (by norm_num)) (hl.trans (by norm_num))).1
theorem fLines_grid : ∀ l ∈ fLines, OnGrid 0 (2 ^ 23) l.start ∧ OnGrid 0 (2 ^ 23) l.end := by
  intro l hl
  simp only [fLines, List.mem_cons, List.not_mem_nil, or_false] at hl
  rcases hl with rfl | rfl <;> exact ⟨grid _ _ (by norm_num) (by norm_num), grid _ _ (by norm_num) (by norm_num)⟩
theorem fLong_grid : ∀ p ∈ fLong, OnGrid 0 (2 ^ 23) p := by
  intro p hp
  simp only [fLong, List.mem_cons, List.not_mem_nil, or_false] at hp
  rcases hp with rfl | rfl | rfl | rfl | rfl | rfl | rfl | rfl | rfl | rfl | rfl <;> exact grid _ _ (by norm_num) (by norm_num)
theorem fin_of_grid {p : V2 F64} (h : OnGrid 0 (2 ^ 23) p) [Libm b64] : FiniteV2 p := by
  exact ⟨h.1, h.2.1⟩
theorem fLines_proper : ProperOrSmall b64 0 (2 ^ 23) fLines := Or.inl (by decide +kernel)
theorem fLong_proper : ProperOrSmall b64 0 (2 ^ 23) (windowIter2 fLong) := Or.inl (by decide +kernel)

section
variable [Libm b64]
local instance : TreeShape F64 := TreeShape.oneNode F64

theorem fLines_finite : ∀ l ∈ fLines, FiniteV2 l.start ∧ FiniteV2 l.end :=
  fun l hl => ⟨fin_of_grid (fLines_grid l hl).1, fin_of_grid (fLines_grid l hl).2⟩
theorem fLong_finite : ∀ p ∈ fLong, FiniteV2 p := fun p hp => fin_of_grid (fLong_grid p hp)

example := C79_sweep_on_any_floats fLines fLines_finite fOrder false false 100
example := C79_sweep_stops_on_any_floats fLines fLines_finite (C79_small_trees_are_dependable fLines) fOrder false false 1000000 (by decide)
example := C79_indexed_sweep_on_any_floats fVertices fEdges fEdges_in (fLines_eq ▸ fLines_finite) fOrder false false 100
example := C79_indexed_sweep_stops_on_any_floats fVertices fEdges fEdges_in (fLines_eq ▸ fLines_finite)
  (C79_small_trees_are_dependable _) fOrder false false 1000000 (by decide)
example := C79_sweep_on_a_grid goodGrid64 (by norm_num) fLines fLines_grid fLines_proper fOrder false false 100
example := C79_sweep_stops_on_a_grid goodGrid64 (by norm_num) fLines fLines_grid fLines_proper
  (C79_small_trees_are_dependable fLines) fOrder false false 1000000 (by decide)
example := C79_indexed_sweep_on_a_grid goodGrid64 (by norm_num) fVertices fEdges fEdges_in (fLines_eq ▸ fLines_grid)
  (fLines_eq ▸ fLines_proper) fOrder false false 100
example := C79_indexed_sweep_stops_on_a_grid goodGrid64 (by norm_num) fVertices fEdges fEdges_in (fLines_eq ▸ fLines_grid)
  (fLines_eq ▸ fLines_proper) (C79_small_trees_are_dependable _) fOrder false false 1000000 (by decide)
example := C79_self_intersecting_stops_on_any_floats fLong fLong_finite (C79_small_trees_are_dependable _) fOrder (enough 10 + 1)
  (Nat.lt_succ_self _)
example := C79_self_intersecting_on_a_grid goodGrid64 (by norm_num) fLong fLong_grid fLong_proper fOrder 100
example := C79_self_intersecting_stops_on_a_grid goodGrid64 (by norm_num) fLong fLong_grid fLong_proper
  (C79_small_trees_are_dependable _) fOrder (enough 10 + 1) (Nat.lt_succ_self _)

example := C91_shared_end_points_on_a_grid goodGrid64 (by norm_num) (windowIter2 fLong) (by
    intro l hl
    have h := window_ends fLong l hl
    exact ⟨fLong_grid _ h.1, fLong_grid _ h.2⟩) (C79_small_trees_are_dependable _) fOrder (enough 10 + 1) (by
      have : (windowIter2 fLong).length = 10 := by decide +kernel
      rw [this]; exact Nat.lt_succ_self _)
example := C91_indexed_shared_end_points_on_a_grid goodGrid64 (by norm_num) fVertices [(0, 1), (1, 2)] (by simp [fVertices]) (by
    have : edgeLines fVertices [(0, 1), (1, 2)] = [⟨ipt b64 0 0, ipt b64 4 4⟩, ⟨ipt b64 4 4, ipt b64 0 4⟩] := by decide +kernel
    rw [this]
    intro l hl
    simp only [List.mem_cons, List.not_mem_nil, or_false] at hl
    rcases hl with rfl | rfl <;> exact ⟨grid _ _ (by norm_num) (by norm_num), grid _ _ (by norm_num) (by norm_num)⟩)
  (C79_small_trees_are_dependable _) fOrder 1000000 (by decide)
example := C91_inner_vertices_are_reported goodGrid64 (by norm_num) fLong fLong_grid (C79_small_trees_are_dependable _) fOrder
  (enough 10 + 1) (Nat.lt_succ_self _)

example := C45_error_iff_not_finite (flt_comparable (f := b64)) false false fLines
example := C45_accepts_and_records (flt_comparable (f := b64)) false false fLines fLines_finite
example := C45_indexed (flt_comparable (f := b64)) false false fVertices fEdges fEdges_in
end

section
local instance libmSweep : Libm b64 := noAtan b64
local instance : TreeShape F64 := TreeShape.middle F64

/-- the positions the sweep line works with are the four ends and (2, 2) -/
theorem fLines_points (p : V2 F64) (h : SweepPoint fLines p) :
    p ∈ [ipt b64 0 0, ipt b64 4 4, ipt b64 0 4, ipt b64 4 0, ipt b64 2 2] := by
  have key : ∀ l ∈ fLines, l.start ∈ [ipt b64 0 0, ipt b64 4 4, ipt b64 0 4, ipt b64 4 0, ipt b64 2 2] ∧
      l.end ∈ [ipt b64 0 0, ipt b64 4 4, ipt b64 0 4, ipt b64 4 0, ipt b64 2 2] ∧
      ∀ m ∈ fLines, ∀ l' ∈ [l, ⟨l.end, l.start⟩], ∀ m' ∈ [m, ⟨m.end, m.start⟩],
        ((l'.intersectionPoint m').map (·.single)).all
          (fun q => q ∈ [ipt b64 0 0, ipt b64 4 4, ipt b64 0 4, ipt b64 4 0, ipt b64 2 2]) = true := by decide +kernel
  obtain ⟨-, l, hl, rfl | rfl | ⟨m, hm, l', m', h1, h2, i, hi, rfl⟩⟩ := h
  · exact (key l hl).1
  · exact (key l hl).2.1
  · have := (key l hl).2.2 m hm l' (by rcases h1 with rfl | rfl <;> simp) m' (by rcases h2 with rfl | rfl <;> simp)
    rw [hi] at this
    simpa using this
/-- they are far apart, so trees of any shape can be relied on -/
theorem fLines_dependable : Dependable fLines := C79_separate_points_are_dependable fLines (by
  intro p q hp hq
  have key : ∀ p ∈ [ipt b64 0 0, ipt b64 4 4, ipt b64 0 4, ipt b64 4 0, ipt b64 2 2],
      ∀ q ∈ [ipt b64 0 0, ipt b64 4 4, ipt b64 0 4, ipt b64 4 0, ipt b64 2 2],
      (Flt.ulpsEq p.x q.x = true → p.x.val = q.x.val) ∧ (Flt.ulpsEq p.y q.y = true → p.y.val = q.y.val) := by decide +kernel
  exact key p (fLines_points p hp) q (fLines_points q hq))
example := C79_sweep_stops_on_a_grid goodGrid64 (by norm_num) fLines fLines_grid fLines_proper fLines_dependable fOrder false false
  1000000 (by decide)
/-- an example for `C79_separate_points_are_dependable` -/
example := C79_separate_points_are_dependable fLines (by
  intro p q hp hq
  have key : ∀ p ∈ [ipt b64 0 0, ipt b64 4 4, ipt b64 0 4, ipt b64 4 0, ipt b64 2 2],
      ∀ q ∈ [ipt b64 0 0, ipt b64 4 4, ipt b64 0 4, ipt b64 4 0, ipt b64 2 2],
      (Flt.ulpsEq p.x q.x = true → p.x.val = q.x.val) ∧ (Flt.ulpsEq p.y q.y = true → p.y.val = q.y.val) := by decide +kernel
  exact key p (fLines_points p hp) q (fLines_points q hq))
end

theorem fTwo : SmallOrProper 0 (2 ^ 23) [ipt b64 0 0, ipt b64 4 4, ipt b64 9 0] (ipt b64 0 4) (ipt b64 4 0) := by
  have h : ∀ e ∈ windows2 [ipt b64 0 0, ipt b64 4 4, ipt b64 9 0], exact e.1 ≠ exact e.2 := by decide +kernel
  have h2 : exact (ipt b64 0 4) ≠ exact (ipt b64 4 0) := by decide +kernel
  exact Or.inr ⟨h2, fun i a b ha hb => h (a, b) (List.mem_of_getElem? ((Intersect.windows2_get _ i a b).2 ⟨ha, hb⟩))⟩
theorem fTwo_grid : ∀ p ∈ [ipt b64 0 0, ipt b64 4 4, ipt b64 9 0], OnGrid 0 (2 ^ 23) p := by
  intro p hp
  simp only [List.mem_cons, List.not_mem_nil, or_false] at hp
  rcases hp with rfl | rfl | rfl <;> exact grid _ _ (by norm_num) (by norm_num)
section
variable [Libm b64]
example := C82_intersection_none_iff goodGrid64 fTwo_grid (grid 0 4 (by norm_num) (by norm_num)) (grid 4 0 (by norm_num) (by norm_num)) fTwo
example := C82_find_all goodGrid64 fTwo_grid (grid 0 4 (by norm_num) (by norm_num)) (grid 4 0 (by norm_num) (by norm_num)) fTwo
example : ∃ (line : List (V2 (Flt b64))) (c d : V2 (Flt b64)), GoodGrid b64 0 (2 ^ 23) ∧ (∀ p ∈ line, OnGrid 0 (2 ^ 23) p) ∧
    OnGrid 0 (2 ^ 23) c ∧ OnGrid 0 (2 ^ 23) d ∧ SmallOrProper 0 (2 ^ 23) line c d :=
  ⟨_, _, _, goodGrid64, fTwo_grid, grid 0 4 (by norm_num) (by norm_num), grid 4 0 (by norm_num) (by norm_num), fTwo⟩
end
section
local instance libmSweepTwo : Libm b64 := noAtan b64
example := C82_intersection_is_first goodGrid64 fTwo_grid (grid 0 4 (by norm_num) (by norm_num)) (grid 4 0 (by norm_num) (by norm_num))
  fTwo (r := .point (ipt b64 2 2)) (by decide +kernel)
/-- the ray from (0,4) to the upper right misses the line string -/
example := C89_none_on_floats goodGrid64 [ipt b64 0 0, ipt b64 4 4, ipt b64 9 0] (ipt b64 1 1) (ipt b64 0 4) fTwo_grid
  (grid 0 4 (by norm_num) (by norm_num)) (grid 1 1 (by norm_num) (by norm_num)) (by decide +kernel) (by decide +kernel)
  0 (ipt b64 0 0) (ipt b64 4 4) 2 rfl rfl (by norm_num)
example := C89_zero_direction [ipt b64 0 0, ipt b64 4 4, ipt b64 9 0] ⟨.zero true, .zero false⟩ (ipt b64 2 2) ⟨true, false, rfl⟩

local instance : TreeShape F64 := TreeShape.middle F64
/-- a line string with coordinates near the largest double: the computed intersection of the first and the last segment is
infinite -/
def fHuge : List (V2 F64) :=
  let big (n : ℤ) (e : ℤ) : F64 := Flt.ofQ false (n * pow2 e)
  let mx := big (2 ^ 53 - 1) 971
  [⟨big 3 970, big (-1) 0⟩, ⟨mx, big 0 0⟩, ⟨mx, big (-1) (-1)⟩, ⟨mx, big 1 (-1)⟩]
example := C79_self_intersecting_on_any_floats fHuge
  (by
    have : ∀ p ∈ fHuge, p.x.isFin = true ∧ p.y.isFin = true := by decide +kernel
    exact this) fOrder 1000000 (by decide +kernel)
end

end Verif.Witness
