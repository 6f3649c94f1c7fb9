import Verif.Props.Simple
import Verif.Props.FloatSelf
import Verif.Props.FloatBoxHull
/-!
# C113 in floating point
-/
set_option linter.unusedSectionVars false
namespace Verif.Props.Simple
open Verif Verif.Model Verif.Spec Verif.Hull Verif.Props

/-- a rational point in the real plane -/
noncomputable def castV (p : V2 ℚ) : V2 ℝ := ⟨p.x, p.y⟩

theorem castV_inj : Function.Injective castV := by
  intro p q h
  have h1 := congrArg V2.x h
  have h2 := congrArg V2.y h
  simp only [castV] at h1 h2
  exact pt_ext (Rat.cast_injective h1) (Rat.cast_injective h2)

theorem orient_cast (a b c : V2 ℚ) : orient (castV a) (castV b) (castV c) = (orient a b c : ℚ) := by
  simp only [orient, castV]; push_cast; ring

theorem get_cast {l : List (V2 ℚ)} {i : Nat} {a : V2 ℝ} (h : getElem? (l.map castV) i = some a) :
    ∃ a', getElem? l i = some a' ∧ castV a' = a := by
  rwa [List.getElem?_map, Option.map_eq_some_iff] at h

theorem hull_cast {pts hull : List (V2 ℚ)} (H : IsHullLoop pts hull) : IsHullLoop (pts.map castV) (hull.map castV) := by
  refine ⟨by rw [List.length_map]; exact H.len, by rw [List.head?_map, List.getLast?_map, H.closed], ?_, ?_, ?_, ?_, ?_, ?_⟩
  · intro v hv
    obtain ⟨v, gv, rfl⟩ := List.mem_map.1 hv
    exact List.mem_map.2 ⟨v, H.vertices v gv, rfl⟩
  · rw [← List.map_tail]
    exact H.once.map castV_inj
  · intro i a b ha hb p hp
    obtain ⟨a, ga, rfl⟩ := get_cast ha
    obtain ⟨b, gb, rfl⟩ := get_cast hb
    obtain ⟨p, gp, rfl⟩ := List.mem_map.1 hp
    rw [orient_cast]
    exact_mod_cast H.left i a b ga gb p gp
  · intro hl i a b c ha hb hc
    rw [List.length_map] at hl
    obtain ⟨a, ga, rfl⟩ := get_cast ha
    obtain ⟨b, gb, rfl⟩ := get_cast hb
    obtain ⟨c, gc, rfl⟩ := get_cast hc
    rw [orient_cast]
    exact_mod_cast H.turn hl i a b c ga gb gc
  · intro hl a b c ha hb hc
    rw [List.length_map] at hl ha
    obtain ⟨a, ga, rfl⟩ := get_cast ha
    obtain ⟨b, gb, rfl⟩ := get_cast hb
    obtain ⟨c, gc, rfl⟩ := get_cast hc
    rw [orient_cast]
    exact_mod_cast H.turnClosing hl a b c ga gb gc
  · intro a b c h p hp
    obtain ⟨p, gp, rfl⟩ := List.mem_map.1 hp
    match hull, h with
    | [a', b', c'], h =>
      simp only [List.map_cons, List.map_nil, List.cons.injEq, and_true] at h
      obtain ⟨rfl, rfl, rfl⟩ := h
      obtain ⟨t, t0, t1, rfl⟩ := H.flat a' b' c' rfl p gp
      refine ⟨(t : ℝ), by exact_mod_cast t0, by exact_mod_cast t1, ?_⟩
      simp only [castV, lerp2]
      push_cast
      rfl

theorem ahead_cast {d : V2 ℚ} {pl : List (V2 ℚ)} (h : MovesAhead d pl) : MovesAhead (castV d) (pl.map castV) := by
  intro i p q hp hq
  obtain ⟨p, gp, rfl⟩ := get_cast hp
  obtain ⟨q, gq, rfl⟩ := get_cast hq
  simp only [castV]
  exact_mod_cast h i p q gp gq

section
variable {f : Fmt} [Libm f]

theorem exactR_cast (l : List (V2 (Flt f))) : l.map exactR = (l.map exact).map castV := by
  rw [List.map_map]; rfl

/-- **C113** in f32 and f64, points on a small grid without negative zeros: if different segments (of the exact points) have only end points
in common, `is_self_intersecting` of fewer than ten points is true iff the three point test finds an overlap at a vertex. -/
theorem C113_short_line_strings_on_floats {s B : ℤ} (G : GoodGrid f s B) (hs : 0 ≤ s) (hsm : 1024 * B ^ 4 ≤ 2 ^ f.prec)
    {pl : List (V2 (Flt f))} (hg : ∀ v ∈ pl, OnGrid s B v) (hz : ∀ v ∈ pl, v.y ≠ .zero true) (h : pl.length < 10)
    (he : EndsOnly (pl.map exactR)) :
    isSelfIntersectingShort pl = some true ↔
      ∃ (i : Nat) (a b c : V2 (Flt f)), getElem? pl i = some a ∧ getElem? pl (i + 1) = some b ∧ getElem? pl (i + 2) = some c ∧
        ThreePointFloat (exact a) (exact b) (exact c) := by
  have m : ∀ {k : Nat} {v : V2 (Flt f)}, getElem? pl k = some v → v ∈ pl := fun h => List.mem_of_getElem? h
  have e : ∀ {k : Nat} {v : V2 (Flt f)}, getElem? pl k = some v → getElem? (pl.map exactR) k = some (exactR v) := by
    intro k v hv; rw [List.getElem?_map, hv]; rfl
  constructor
  · intro ht
    rcases C83_true_has_reason G hs hsm hg hz ht with h | ⟨i, j, a, b, c, d, x, hij, ha, hb, hc, hd, h1, h2, hn⟩
    · exact h
    · exact absurd (he i j _ _ _ _ x (by omega) (e ha) (e hb) (e hc) (e hd) h1 h2) hn
  · rintro ⟨i, a, b, c, ha, hb, hc, ht⟩
    have h3 : 2 < pl.length := by
      have := (List.getElem?_eq_some_iff.1 hc).1
      omega
    rw [Intersect.selfShort_iff pl h3 h]
    exact Or.inl ⟨i, a, b, c, ha, hb, hc, (C83_three_point_test G (hg _ (m ha)) (hg _ (m hb)) (hg _ (m hc)) (hz _ (m hb))).2 ht⟩

/-- **C113** the same for line strings that always move ahead in some direction. -/
theorem C113_short_line_strings_that_move_ahead_on_floats {s B : ℤ} (G : GoodGrid f s B) (hs : 0 ≤ s) (hsm : 1024 * B ^ 4 ≤ 2 ^ f.prec)
    {pl : List (V2 (Flt f))} (hg : ∀ v ∈ pl, OnGrid s B v) (hz : ∀ v ∈ pl, v.y ≠ .zero true) (h : pl.length < 10)
    (d : V2 ℚ) (hd : MovesAhead d (pl.map exact)) :
    isSelfIntersectingShort pl = some true ↔
      ∃ (i : Nat) (a b c : V2 (Flt f)), getElem? pl i = some a ∧ getElem? pl (i + 1) = some b ∧ getElem? pl (i + 2) = some c ∧
        ThreePointFloat (exact a) (exact b) (exact c) :=
  C113_short_line_strings_on_floats G hs hsm hg hz h (by rw [exactR_cast]; exact (ahead_cast hd).endsOnly)

/-- **C113** the same for hulls with three to eight corners. -/
theorem C113_short_hulls_on_floats {s B : ℤ} (G : GoodGrid f s B) (hs : 0 ≤ s) (hsm : 1024 * B ^ 4 ≤ 2 ^ f.prec)
    {hull : List (V2 (Flt f))} (hg : ∀ v ∈ hull, OnGrid s B v) (hz : ∀ v ∈ hull, v.y ≠ .zero true) (h : hull.length < 10)
    (pts : List (V2 ℚ)) (H : IsHullLoop pts (hull.map exact)) (hl : 3 < hull.length) :
    isSelfIntersectingShort hull = some true ↔
      ∃ (i : Nat) (a b c : V2 (Flt f)), getElem? hull i = some a ∧ getElem? hull (i + 1) = some b ∧ getElem? hull (i + 2) = some c ∧
        ThreePointFloat (exact a) (exact b) (exact c) :=
  C113_short_line_strings_on_floats G hs hsm hg hz h (by
    rw [exactR_cast]
    exact hull_endsOnly (hull_cast H) (by rw [List.length_map, List.length_map]; exact hl))

/-- **C113** the loop around a box with width and height, in f32 and f64. -/
theorem C113_box_on_floats {s B : ℤ} (G : GoodGrid f s B) (hs : 0 ≤ s) (hsm : 1024 * B ^ 4 ≤ 2 ^ f.prec)
    (b : Aabb2 (Flt f)) (lo hi : V2 (Flt f)) (hb : b.minMax = some (lo, hi)) (hl : OnGrid s B lo) (hh : OnGrid s B hi)
    (hx : lo.x.val < hi.x.val) (hy : lo.y.val < hi.y.val) (z1 : lo.y ≠ .zero true) (z2 : hi.y ≠ .zero true) :
    ∃ hull, b.convexHull = some hull ∧ isSelfIntersectingShort hull = some false := by
  obtain ⟨h1, h2⟩ := BoxHull.rect_loop (exact lo) (exact hi) hx hy
  obtain ⟨hull, eh⟩ : ∃ hull : List (V2 (Flt f)),
    hull = [⟨lo.x, lo.y⟩, ⟨hi.x, lo.y⟩, ⟨hi.x, hi.y⟩, ⟨lo.x, hi.y⟩, ⟨lo.x, lo.y⟩] := ⟨_, rfl⟩
  have em : hull.map exact = BoxHull.rect (exact lo) (exact hi) := by rw [eh]; rfl
  have hg : ∀ v ∈ hull, OnGrid s B v := by rw [eh]; exact BoxHull.rect_grid hl hh
  have hlen : hull.length = 5 := by simp [eh]
  have hz : ∀ v ∈ hull, v.y ≠ .zero true := by
    rw [eh]
    intro v hv
    simp only [List.mem_cons, List.not_mem_nil, or_false] at hv
    rcases hv with rfl | rfl | rfl | rfl | rfl
    exacts [z1, z1, z2, z2, z1]
  have hloop : IsHullLoop (hull.map exact) (hull.map exact) := by rw [em]; exact h1
  have hbh : b.convexHull = some hull := by
    unfold Aabb2.convexHull; rw [hb, eh]; rfl
  refine ⟨hull, hbh, ?_⟩
  have hiff := C113_short_hulls_on_floats G hs hsm hg hz (by omega) _ hloop (by omega)
  have hsome : (isSelfIntersectingShort hull).isSome := by
    unfold isSelfIntersectingShort
    split_ifs
    · rfl
    · rfl
    · omega
  obtain ⟨r, hr⟩ := Option.isSome_iff_exists.1 hsome
  rw [hr]
  cases r with
  | false => rfl
  | true =>
    exfalso
    obtain ⟨i, a, b, c, ha, hb, hc, h, -⟩ := hiff.1 hr
    have hx' := hx.ne
    have hx'' := hx.ne'
    rw [eh] at ha hb hc
    rcases i with _ | _ | _ | i <;> simp at ha hb hc <;> subst ha <;> subst hb <;> subst hc <;>
      simp [ThreePoint, exact, hx', hx''] at h
end

end Verif.Props.Simple
