import Verif.Props.FloatHull
import Mathlib.Analysis.SpecialFunctions.Trigonometric.Bounds
import Mathlib.Analysis.Real.Pi.Bounds
import Verif.Proofs.HullUnique
/-!
# `graham_scan` in floating point

`graham_scan` sorts by the result of `atan2`, which IEEE 754 does not specify.  C74 says what is asked of
it: a small error, and the same angle for parallel directions.
-/
namespace Verif.Props
open Verif Verif.Model Verif.Spec Scalar Verif.Proofs.Transfer Verif.Proofs.FloatHull
set_option linter.unusedSectionVars false
set_option linter.unusedVariables false
set_option warn.classDefReducibility false

section
variable {f : Fmt} [Libm f]

/-- the diamond angle compares like the true angle -/
theorem compare_diamond (x y x' y' : ℚ) (h : 0 < x ∨ x = 0 ∧ 0 ≤ y) (h' : 0 < x' ∨ x' = 0 ∧ 0 ≤ y') :
    compare (Complex.arg ⟨(x : ℝ), (y : ℝ)⟩) (Complex.arg ⟨(x' : ℝ), (y' : ℝ)⟩) =
      compare (diamondAngle y x) (diamondAngle y' x') := by
  have key : ∀ x y : ℚ, (0 < x ∨ x = 0 ∧ 0 ≤ y) → ∃ u v : ℚ, (0 < u ∨ u = 0 ∧ 0 < v) ∧
      Complex.arg ⟨(x : ℝ), (y : ℝ)⟩ = Complex.arg ⟨(u : ℝ), (v : ℝ)⟩ ∧ diamondAngle y x = diamondAngle v u := by
    intro x y h
    rcases h with h | ⟨rfl, h⟩
    · exact ⟨x, y, Or.inl h, rfl, rfl⟩
    · rcases h.lt_or_eq with h | h
      · exact ⟨0, y, Or.inr ⟨rfl, h⟩, rfl, rfl⟩
      · subst h
        refine ⟨1, 0, Or.inl one_pos, ?_, ?_⟩
        · have e1 : (⟨((0 : ℚ) : ℝ), ((0 : ℚ) : ℝ)⟩ : ℂ) = 0 := by apply Complex.ext <;> simp
          have e2 : (⟨((1 : ℚ) : ℝ), ((0 : ℚ) : ℝ)⟩ : ℂ) = 1 := by apply Complex.ext <;> simp
          rw [e1, e2, Complex.arg_zero, Complex.arg_one]
        · simp [diamondAngle]
  obtain ⟨u, v, h1, h2, h3⟩ := key x y h
  obtain ⟨u', v', h1', h2', h3'⟩ := key x' y' h'
  rw [h2, h3, h2', h3']
  have a := ExactAtan2.atan2_lt (K := ℚ) u v u' v' h1 h1'
  have b := ExactAtan2.atan2_lt (K := ℚ) u' v' u v h1' h1
  have c := ExactAtan2.atan2_lt (K := ℝ) u v u' v' (by exact_mod_cast h1) (by exact_mod_cast h1')
  have d := ExactAtan2.atan2_lt (K := ℝ) u' v' u v (by exact_mod_cast h1') (by exact_mod_cast h1)
  have c' : Complex.arg ⟨(u : ℝ), (v : ℝ)⟩ < Complex.arg ⟨(u' : ℝ), (v' : ℝ)⟩ ↔ diamondAngle v u < diamondAngle v' u' := by
    refine c.trans (Iff.trans ?_ a.symm); exact_mod_cast Iff.rfl
  have d' : Complex.arg ⟨(u' : ℝ), (v' : ℝ)⟩ < Complex.arg ⟨(u : ℝ), (v : ℝ)⟩ ↔ diamondAngle v' u' < diamondAngle v u := by
    refine d.trans (Iff.trans ?_ b.symm); exact_mod_cast Iff.rfl
  generalize Complex.arg ⟨(u : ℝ), (v : ℝ)⟩ = A at *
  generalize Complex.arg ⟨(u' : ℝ), (v' : ℝ)⟩ = A' at *
  rcases lt_trichotomy A A' with h | h | h
  · rw [compare_lt_iff_lt.2 h, compare_lt_iff_lt.2 (c'.1 h)]
  · rw [compare_eq_iff_eq.2 h, compare_eq_iff_eq.2]
    exact le_antisymm (not_lt.1 (fun hh => (d'.2 hh).ne' h)) (not_lt.1 (fun hh => (c'.2 hh).ne h))
  · rw [compare_gt_iff_gt.2 h, compare_gt_iff_gt.2 (d'.1 h)]

theorem pcmp_dist {s B : ℤ} (G : GoodGrid f s B) {o p q : V2 (Flt f)} (ho : OnGrid s B o) (hp : OnGrid s B p)
    (hq : OnGrid s B q) : Scalar.pcmp (o.distSq p) (o.distSq q) =
      some (compare ((exact o).distSq (exact p)) ((exact o).distSq (exact q))) := by
  obtain ⟨N, h1, h2, h3⟩ := dist_exact G ho hp
  obtain ⟨M, g1, g2, g3⟩ := dist_exact G ho hq
  have e : ∀ p q : V2 ℚ, p.distSq q = sqDist2 p q := by
    intro p q; simp only [exact_simp, sqDist2]; ring
  have r : Scalar.le (o.distSq p) (o.distSq q) = decide (sqDist2 (exact o) (exact p) ≤ sqDist2 (exact o) (exact q)) := by
    rw [h2, g2]; exact Flt.is_le h1 g1
  have r' : Scalar.ge (o.distSq p) (o.distSq q) = decide (sqDist2 (exact o) (exact q) ≤ sqDist2 (exact o) (exact p)) := by
    rw [h2, g2]; exact Flt.is_le g1 h1
  rw [e, e, ← pcmp_ordered]
  unfold Scalar.pcmp
  rw [r, r']
  simp only [exact_simp]

/-- the comparison of two entries is that of the exact ones -/
theorem angleCmp_exact {s B : ℤ} (G : GoodGrid f s B) (hA : AtanOk f s B) {o p q : V2 (Flt f)} (ho : OnGrid s B o)
    (hp : OnGrid s B p) (hq : OnGrid s B q) (lp : LeftOrBelow (exact o) (exact p)) (lq : LeftOrBelow (exact o) (exact q))
    (np : exact p ≠ exact o) (nq : exact q ≠ exact o) :
    angleCmp (angleEntry (exact o) (exact p) (exact p)) (angleEntry (exact o) (exact q) (exact q)) =
      angleCmp (angleEntry o p p) (angleEntry o q q) := by
  unfold angleCmp angleEntry
  simp only
  rw [hA.order o p q ho hp hq lp lq np nq, pcmp_dist G ho hp hq, pcmp_ordered, pcmp_ordered]
  have lp' : 0 < (exact p).x - (exact o).x ∨ (exact p).x - (exact o).x = 0 ∧ 0 ≤ (exact p).y - (exact o).y := by
    rcases lp with h | ⟨h, h'⟩
    · left; linarith
    · right; constructor <;> linarith
  have lq' : 0 < (exact q).x - (exact o).x ∨ (exact q).x - (exact o).x = 0 ∧ 0 ≤ (exact q).y - (exact o).y := by
    rcases lq with h | ⟨h, h'⟩
    · left; linarith
    · right; constructor <;> linarith
  rw [compare_diamond _ _ _ _ lp' lq']
  rfl

/-- the order of entries over the rationals -/
def entryLe {ι : Type} (a b : ι × ℚ × ℚ) : Prop := angleCmp a b ≠ .gt

instance {ι : Type} : DecidableRel (entryLe (ι := ι)) := fun a b => by unfold entryLe; infer_instance

theorem entryLe_iff {ι : Type} (a b : ι × ℚ × ℚ) : entryLe a b ↔ a.2.1 < b.2.1 ∨ (a.2.1 = b.2.1 ∧ a.2.2 ≤ b.2.2) := by
  unfold entryLe
  simp only [angleCmp, pcmp_ordered, Option.getD_some]
  rcases lt_trichotomy a.2.1 b.2.1 with h | h | h
  · rw [compare_lt_iff_lt.2 h]; simp [h, Ordering.then]
  · rw [compare_eq_iff_eq.2 h]
    simp only [Ordering.then, h, lt_irrefl, true_and, false_or, ne_eq, compare_gt_iff_gt, not_lt]
  · rw [compare_gt_iff_gt.2 h]
    simp [Ordering.then, h.ne', h.le]

instance {ι : Type} : Std.Total (entryLe (ι := ι)) := ⟨fun a b => by
  rw [entryLe_iff, entryLe_iff]
  rcases lt_trichotomy a.2.1 b.2.1 with h | h | h
  · exact Or.inl (Or.inl h)
  · rcases le_total a.2.2 b.2.2 with h' | h'
    · exact Or.inl (Or.inr ⟨h, h'⟩)
    · exact Or.inr (Or.inr ⟨h.symm, h'⟩)
  · exact Or.inr (Or.inl h)⟩

instance {ι : Type} : IsTrans (ι × ℚ × ℚ) entryLe := ⟨fun a b c h1 h2 => by
  rw [entryLe_iff] at h1 h2 ⊢
  rcases h1 with h1 | ⟨h1, h1'⟩ <;> rcases h2 with h2 | ⟨h2, h2'⟩
  · exact Or.inl (h1.trans h2)
  · exact Or.inl (h2 ▸ h1)
  · exact Or.inl (h1 ▸ h2)
  · exact Or.inr ⟨h1.trans h2, h1'.trans h2'⟩⟩

/-- insert entries into a sorted list -/
def insertAll {ι : Type} (d l : List (ι × ℚ × ℚ)) : List (ι × ℚ × ℚ) := d.foldr (List.orderedInsert entryLe) l

theorem insertAll_perm {ι : Type} : ∀ d l : List (ι × ℚ × ℚ), (insertAll d l).Perm (d ++ l)
  | [], l => List.Perm.refl l
  | a :: d, l => (List.perm_orderedInsert entryLe a _).trans ((insertAll_perm d l).cons a)

theorem insertAll_sorted {ι : Type} : ∀ d l : List (ι × ℚ × ℚ), l.Pairwise entryLe → (insertAll d l).Pairwise entryLe
  | [], _, h => h
  | a :: d, l, h => (insertAll_sorted d l h).orderedInsert a _

theorem filter_orderedInsert {ι : Type} (q : ι × ℚ × ℚ → Bool) (a : ι × ℚ × ℚ) (ha : q a = false) :
    ∀ l : List (ι × ℚ × ℚ), (List.orderedInsert entryLe a l).filter q = l.filter q
  | [] => by simp [ha]
  | b :: l => by
    rw [List.orderedInsert_cons]
    split
    · rw [List.filter_cons_of_neg (by simp [ha])]
    · by_cases hb : q b = true
      · rw [List.filter_cons_of_pos hb, List.filter_cons_of_pos hb, filter_orderedInsert q a ha l]
      · rw [List.filter_cons_of_neg hb, List.filter_cons_of_neg hb, filter_orderedInsert q a ha l]

theorem filter_insertAll {ι : Type} (q : ι × ℚ × ℚ → Bool) (l : List (ι × ℚ × ℚ)) :
    ∀ d : List (ι × ℚ × ℚ), (∀ a ∈ d, q a = false) → (insertAll d l).filter q = l.filter q
  | [], _ => rfl
  | a :: d, h => by
    show (List.orderedInsert entryLe a (insertAll d l)).filter q = _
    rw [filter_orderedInsert q a (h a (by simp)), filter_insertAll q l d (fun b hb => h b (by simp [hb]))]

theorem ne_nan_of_pcmp {a : Flt f} {c : Ordering} (h : Scalar.pcmp a a = some c) : a ≠ .nan := by
  rintro rfl
  simp [Scalar.pcmp, show Scalar.le (Flt.nan (f := f)) .nan = false from rfl,
    show Scalar.ge (Flt.nan (f := f)) .nan = false from rfl] at h

theorem beq_exact {s B : ℤ} (G : GoodGrid f s B) {p q : V2 (Flt f)} (hp : OnGrid s B p) (hq : OnGrid s B q) :
    p.beq q = decide (exact p = exact q) := by
  rw [← (agreeQ G).beq p q hp hq, Bool.eq_iff_iff, Hull.beq_iff, decide_eq_true_iff]

open Classical in
/-- C74: `graham_scan`, and `convex_hull` of a line, on floats. -/
theorem C74_graham_scan_on_floats {s B : ℤ} (G : GoodGrid f s B) (hA : AtanOk f s B)
    (srt : List (V2 (Flt f) × Flt f × Flt f) → List (V2 (Flt f) × Flt f × Flt f))
    (hsrt : ∀ l, (∀ e ∈ l, e.2.1 ≠ .nan ∧ e.2.2 ≠ .nan) →
      (srt l).Perm l ∧ (srt l).Pairwise (fun a b => angleCmp a b ≠ .gt))
    (input : List (V2 (Flt f))) (hin : ∀ p ∈ input, OnGrid s B p) (h4 : 4 ≤ input.length)
    (h5 : (input.map exact).head? = (input.map exact).getLast? → 5 ≤ input.length)
    (hne : ∃ a ∈ input, ∃ b ∈ input, exact a ≠ exact b) :
    ∃ hull, grahamScan srt input = .ok hull ∧ lineConvexHull srt input = .ok hull ∧
      IsHullLoop (input.map exact) (hull.map exact) ∧ StartsLowest (input.map exact) (hull.map exact) := by
  let ent : V2 (Flt f) → List (V2 (Flt f) × Flt f × Flt f) := fun o => (dropLoopPoint input).map (fun p => angleEntry o p p)
  let ent' : V2 ℚ → List (V2 ℚ × ℚ × ℚ) := fun o => ((dropLoopPoint input).map exact).map (fun p => angleEntry o p p)
  let P : List (V2 ℚ × ℚ × ℚ) → Prop := fun l =>
    ∃ k o', findLowest false getPoint (dropLoopPoint input) = .ok (k, o') ∧ l = ent' (exact o')
  let im : V2 (Flt f) → V2 (Flt f) × Flt f × Flt f → V2 ℚ × ℚ × ℚ := fun o e => angleEntry (exact o) (exact e.1) (exact e.1)
  let res : V2 (Flt f) → List (V2 ℚ × ℚ × ℚ) := fun o =>
    insertAll (((ent o).filter (fun e => e.1.beq o)).map (im o)) (((srt (ent o)).filter (fun e => !e.1.beq o)).map (im o))
  let srt' : List (V2 ℚ × ℚ × ℚ) → List (V2 ℚ × ℚ × ℚ) := fun l =>
    if h : P l then res h.choose_spec.choose
    else l.mergeSort (fun a b => angleCmp a b != .gt)
  have hd : ∀ p ∈ dropLoopPoint input, OnGrid s B p := fun p hp => hin p (Verif.Proofs.Transfer.dropLoopPoint_mem hp)
  have hfloat : ∀ k o, findLowest false getPoint (dropLoopPoint input) = .ok (k, o) →
      (srt (ent o)).Perm (ent o) ∧ (srt (ent o)).Pairwise (fun a b => angleCmp a b ≠ .gt) := by
    intro k o ho
    obtain ⟨hm, hlow⟩ := findLowest_floats G _ hd ho
    refine hsrt _ ?_
    intro e he
    obtain ⟨p, hp, rfl⟩ := List.mem_map.1 he
    refine ⟨?_, ne_nan_of_pcmp (pcmp_dist G (hd o hm) (hd p hp) (hd p hp))⟩
    show Scalar.atan2 (p.sub o).y (p.sub o).x ≠ .nan
    by_cases hpo : exact p = exact o
    · exact hA.self o p (hd o hm) (hd p hp) hpo
    · exact ne_nan_of_pcmp (hA.order o p p (hd o hm) (hd p hp) (hd p hp) (hlow p hp) (hlow p hp) hpo hpo)
  have hent : ∀ o, ent' (exact o) = (ent o).map (im o) := by
    intro o
    simp only [ent, ent', im, List.map_map]
    rfl
  have hsrt' : Sorts angleCmp srt' := by
    intro l
    by_cases h : P l
    · have hs : srt' l = res h.choose_spec.choose := dif_pos h
      obtain ⟨q1, q2⟩ := h.choose_spec.choose_spec
      generalize h.choose_spec.choose = o' at hs q1 q2
      obtain ⟨r2, r3⟩ := hfloat _ o' q1
      obtain ⟨hm, hlow⟩ := findLowest_floats G _ hd q1
      rw [hs]
      refine ⟨?_, ?_⟩
      · refine (insertAll_perm _ _).trans ?_
        rw [q2, hent, ← List.map_append]
        refine List.Perm.map _ ?_
        refine ((r2.filter _).append_left _).trans ?_
        exact List.filter_append_perm (fun e => e.1.beq o') (ent o')
      · refine insertAll_sorted _ _ ?_
        rw [List.pairwise_map]
        refine (r3.filter _).imp_of_mem ?_
        intro a b ha hb hab
        obtain ⟨ha, ha'⟩ := List.mem_filter.1 ha
        obtain ⟨hb, hb'⟩ := List.mem_filter.1 hb
        obtain ⟨p, hp, rfl⟩ := List.mem_map.1 (r2.mem_iff.1 ha)
        obtain ⟨q, hq, rfl⟩ := List.mem_map.1 (r2.mem_iff.1 hb)
        have np : exact p ≠ exact o' := by
          have h1 : (!p.beq o') = true := ha'
          rw [beq_exact G (hd p hp) (hd o' hm)] at h1; simpa using h1
        have nq : exact q ≠ exact o' := by
          have h1 : (!q.beq o') = true := hb'
          rw [beq_exact G (hd q hq) (hd o' hm)] at h1; simpa using h1
        show angleCmp (angleEntry (exact o') (exact p) (exact p)) (angleEntry (exact o') (exact q) (exact q)) ≠ .gt
        rw [angleCmp_exact G hA (hd o' hm) (hd p hp) (hd q hq) (hlow p hp) (hlow q hq) np nq]
        exact hab
    · have hs : srt' l = l.mergeSort (fun a b => angleCmp a b != .gt) := dif_neg h
      rw [hs]; exact sorts_mergeSort l
  obtain ⟨h, e1, -, e2, e3⟩ := C36_graham_scan_is_hull srt' hsrt' (input.map exact) (by simpa using h4)
    (by simpa using h5) (by
      obtain ⟨a, ha, b, hb, hab⟩ := hne
      exact ⟨exact a, List.mem_map_of_mem ha, exact b, List.mem_map_of_mem hb, hab⟩)
  rw [grahamScan_eq (agreeQ G) srt srt' input hin] at e1
  · cases hc : grahamScan srt input with
    | error e => rw [hc] at e1; cases e1
    | ok hull =>
      rw [hc] at e1
      simp only [Except.map, Except.ok.injEq] at e1
      subst e1
      exact ⟨hull, rfl, hc, e2, e3⟩
  · intro k o ho
    have hex : P (ent' (exact o)) := ⟨k, o, ho, rfl⟩
    have hs : srt' (ent' (exact o)) = res hex.choose_spec.choose := dif_pos hex
    obtain ⟨q1, q2⟩ := hex.choose_spec.choose_spec
    generalize hex.choose_spec.choose = o' at hs q1 q2
    have q4 := (Prod.mk.inj (Except.ok.inj (ho.symm.trans q1))).2
    rw [← q4] at hs
    obtain ⟨hm, hlow⟩ := findLowest_floats G _ hd ho
    obtain ⟨r2, r3⟩ := hfloat k o ho
    have hmem : ∀ e ∈ srt (ent o), ∃ p ∈ dropLoopPoint input, angleEntry o p p = e :=
      fun e he => List.mem_map.1 (r2.mem_iff.1 he)
    refine ⟨?_, ?_⟩
    · show ((srt' (ent' (exact o))).map (·.1)).filter (fun p => !p.beq (exact o)) =
        (((srt (ent o)).map (·.1)).filter (fun p => !p.beq o)).map exact
      rw [hs, List.filter_map, List.filter_map]
      simp only [res]
      rw [filter_insertAll]
      · rw [List.filter_map, List.filter_filter, List.map_map, List.map_map]
        have : ∀ e ∈ srt (ent o), (((fun p : V2 ℚ => !p.beq (exact o)) ∘ (fun x => x.1)) ∘ im o) e =
            !e.1.beq o := by
          intro e he
          obtain ⟨p, hp, rfl⟩ := hmem e he
          show (!(exact p).beq (exact o)) = !p.beq o
          rw [(agreeQ G).beq p o (hd p hp) (hd o hm)]
        rw [List.filter_congr (q := fun e => !e.1.beq o) (by
          intro e he; simp only [this e he, Bool.and_self])]
        rfl
      · intro a ha
        obtain ⟨e, he, rfl⟩ := List.mem_map.1 ha
        obtain ⟨he, he'⟩ := List.mem_filter.1 he
        obtain ⟨p, hp, rfl⟩ := List.mem_map.1 he
        show (!(exact p).beq (exact o)) = false
        rw [(agreeQ G).beq p o (hd p hp) (hd o hm)]
        have h1 : p.beq o = true := he'
        rw [h1]; rfl
    · intro p hp
      obtain ⟨e, he, rfl⟩ := List.mem_map.1 hp
      obtain ⟨p, hp', rfl⟩ := hmem e he
      exact hd p hp'

/-- directions of the right half plane with a positive cross product differ by an angle of at least the
cross product over the product of the lengths -/
theorem arg_gap {x y x' y' : ℝ} (h : 0 < x ∨ x = 0 ∧ 0 < y) (h' : 0 < x' ∨ x' = 0 ∧ 0 < y')
    (hc : 0 < x * y' - y * x') {c R : ℝ} (hcc : c ≤ x * y' - y * x') (h0 : 0 < c) (hR : x * x + y * y ≤ R)
    (hR' : x' * x' + y' * y' ≤ R) : c / R ≤ Complex.arg ⟨x', y'⟩ - Complex.arg ⟨x, y⟩ := by
  have hlt := (ExactAtan2.atan2_lt (K := ℝ) x y x' y' h h').2 hc
  have hlt' : Complex.arg ⟨x, y⟩ < Complex.arg ⟨x', y'⟩ := hlt
  have key : ∀ x y : ℝ, (0 < x ∨ x = 0 ∧ 0 < y) → 0 < ‖(⟨x, y⟩ : ℂ)‖ := by
    intro x y h
    have hne : (⟨x, y⟩ : ℂ) ≠ 0 := by
      intro e
      have e1 := congrArg Complex.re e
      have e2 := congrArg Complex.im e
      simp only [Complex.zero_re, Complex.zero_im] at e1 e2
      rcases h with h | ⟨-, h⟩ <;> linarith
    exact norm_pos_iff.2 hne
  have hn := key x y h
  have hn' := key x' y' h'
  have sq : ∀ x y : ℝ, ‖(⟨x, y⟩ : ℂ)‖ * ‖(⟨x, y⟩ : ℂ)‖ = x * x + y * y := by
    intro x y
    rw [Complex.norm_mul_self_eq_normSq, Complex.normSq_mk]
  have hs := sq x y
  have hs' := sq x' y'
  have hx : x = ‖(⟨x, y⟩ : ℂ)‖ * Real.cos (Complex.arg ⟨x, y⟩) := (Complex.norm_mul_cos_arg ⟨_, _⟩).symm
  have hy : y = ‖(⟨x, y⟩ : ℂ)‖ * Real.sin (Complex.arg ⟨x, y⟩) := (Complex.norm_mul_sin_arg ⟨_, _⟩).symm
  have hx' : x' = ‖(⟨x', y'⟩ : ℂ)‖ * Real.cos (Complex.arg ⟨x', y'⟩) := (Complex.norm_mul_cos_arg ⟨_, _⟩).symm
  have hy' : y' = ‖(⟨x', y'⟩ : ℂ)‖ * Real.sin (Complex.arg ⟨x', y'⟩) := (Complex.norm_mul_sin_arg ⟨_, _⟩).symm
  rw [← hs] at hR
  rw [← hs'] at hR'
  generalize ‖(⟨x, y⟩ : ℂ)‖ = r at *
  generalize ‖(⟨x', y'⟩ : ℂ)‖ = r' at *
  generalize Complex.arg ⟨x, y⟩ = A at *
  generalize Complex.arg ⟨x', y'⟩ = A' at *
  have e : x * y' - y * x' = r * r' * Real.sin (A' - A) := by
    rw [hx, hy, hx', hy', Real.sin_sub]; ring
  have hle : Real.sin (A' - A) ≤ A' - A := Real.sin_le (by linarith)
  have hrr : r * r' ≤ R := by nlinarith [sq_nonneg (r - r')]
  have hRpos : 0 < R := lt_of_lt_of_le (mul_pos hn hn') hrr
  rw [div_le_iff₀ hRpos]
  have h1 : c ≤ r * r' * (A' - A) := by
    rw [e] at hcc
    exact hcc.trans (mul_le_mul_of_nonneg_left hle (mul_pos hn hn').le)
  nlinarith

/-- C74: what is asked of `atan2` follows from a bound on its error, provided that it returns the same
angle for parallel directions. -/
theorem C74_accurate_atan2_is_good {s B : ℤ} (G : GoodGrid f s B) (A : GoodAtan f) : AtanOk f s B where
  self o p ho hp e := by
    obtain ⟨k1, l1, a1, a2, a3, a4⟩ := OnGrid.coords ho
    obtain ⟨k2, l2, b1, b2, b3, b4⟩ := OnGrid.coords hp
    obtain ⟨d1, -⟩ := grid_diff G b1 a1 b3 a3
    obtain ⟨d2, -⟩ := grid_diff G b2 a2 b4 a4
    have ex : p.x.val = o.x.val := congrArg V2.x e
    have ey : p.y.val = o.y.val := congrArg V2.y e
    have z : ∀ a : Flt f, a.isFin = true → a.val = 0 → ∃ b, a = .zero b := by
      intro a h1 h2
      cases a with
      | nan => cases h1
      | inf _ => cases h1
      | zero b => exact ⟨b, rfl⟩
      | fin q h => exact absurd h2 h.1
    have n1 : (k2 - k1 : ℤ) = 0 := by
      rw [b1.2, a1.2] at ex
      have := mul_right_cancel₀ (Fl.pow2_ne s) ex
      have : k2 = k1 := by exact_mod_cast this
      omega
    have n2 : (l2 - l1 : ℤ) = 0 := by
      rw [b2.2, a2.2] at ey
      have := mul_right_cancel₀ (Fl.pow2_ne s) ey
      have : l2 = l1 := by exact_mod_cast this
      omega
    rw [n1, Int.cast_zero, zero_mul] at d1
    rw [n2, Int.cast_zero, zero_mul] at d2
    obtain ⟨b1, h1⟩ := z _ d1.1 d1.2
    obtain ⟨b2, h2⟩ := z _ d2.1 d2.2
    show Libm.atan2 (Scalar.sub p.y o.y) (Scalar.sub p.x o.x) ≠ _
    rw [h1, h2]
    exact A.self b2 b1
  order o p q ho hp hq lp lq np nq := by
    have dir : ∀ p : V2 (Flt f), OnGrid s B p → LeftOrBelow (exact o) (exact p) → exact p ≠ exact o →
        ∃ k l : ℤ, Flt.Is (p.sub o).x (k * Fl.pow2 s) ∧ Flt.Is (p.sub o).y (l * Fl.pow2 s) ∧
          (exact p).x - (exact o).x = k * Fl.pow2 s ∧ (exact p).y - (exact o).y = l * Fl.pow2 s ∧
          |k| ≤ 2 * B ∧ |l| ≤ 2 * B ∧ (0 < (k * Fl.pow2 s : ℚ) ∨ (k * Fl.pow2 s : ℚ) = 0 ∧ 0 < (l * Fl.pow2 s : ℚ)) := by
      intro p hp lp np
      obtain ⟨k1, l1, a1, a2, a3, a4⟩ := OnGrid.coords ho
      obtain ⟨k2, l2, b1, b2, b3, b4⟩ := OnGrid.coords hp
      obtain ⟨d1, e1⟩ := grid_diff G b1 a1 b3 a3
      obtain ⟨d2, e2⟩ := grid_diff G b2 a2 b4 a4
      have x1 : (exact p).x - (exact o).x = ((k2 - k1 : ℤ) : ℚ) * Fl.pow2 s := by
        show p.x.val - o.x.val = _
        rw [b1.2, a1.2]; push_cast; ring
      have x2 : (exact p).y - (exact o).y = ((l2 - l1 : ℤ) : ℚ) * Fl.pow2 s := by
        show p.y.val - o.y.val = _
        rw [b2.2, a2.2]; push_cast; ring
      refine ⟨_, _, d1, d2, x1, x2, e1, e2, ?_⟩
      rw [← x1, ← x2]
      rcases lp with h | ⟨h, h'⟩
      · left; linarith
      · right
        refine ⟨by linarith, ?_⟩
        rcases h'.lt_or_eq with h2 | h2
        · linarith
        · exact absurd (Hull.pt_ext h.symm h2.symm) np
    obtain ⟨k, l, p1, p2, p3, p4, p5, p6, p7⟩ := dir p hp lp np
    obtain ⟨k', l', q1, q2, q3, q4, q5, q6, q7⟩ := dir q hq lq nq
    rw [p3, p4, q3, q4]
    have cp := A.close _ _ p2.1 p1.1 (by rw [p1.2, p2.2]; exact p7)
    have cq := A.close _ _ q2.1 q1.1 (by rw [q1.2, q2.2]; exact q7)
    have par := A.parallel _ _ _ _ p2.1 p1.1 q2.1 q1.1 (by rw [p1.2, p2.2]; exact p7) (by rw [q1.2, q2.2]; exact q7)
    rw [p1.2, p2.2] at cp par
    rw [q1.2, q2.2] at cq par
    show Scalar.pcmp (Libm.atan2 (p.sub o).y (p.sub o).x) (Libm.atan2 (q.sub o).y (q.sub o).x) = _
    generalize Libm.atan2 (p.sub o).y (p.sub o).x = a at cp par
    generalize Libm.atan2 (q.sub o).y (q.sub o).x = b at cq par
    have hpc : Scalar.pcmp a b = some (compare a.val b.val) := by
      rw [← pcmp_ordered (α := ℚ)]
      have h1 : Scalar.le a b = decide (a.val ≤ b.val) := Flt.is_le (Flt.is_self cp.1) (Flt.is_self cq.1)
      have h2 : Scalar.ge a b = decide (b.val ≤ a.val) := Flt.is_le (Flt.is_self cq.1) (Flt.is_self cp.1)
      unfold Scalar.pcmp
      rw [h1, h2]
      simp only [exact_simp]
    rw [hpc]
    congr 1
    -- the gap
    have hB : 0 ≤ B := by have := (abs_nonneg k).trans p5; omega
    have hU : (0 : ℝ) < ((Fl.pow2 s : ℚ) : ℝ) := by exact_mod_cast Fl.pow2_pos s
    have gap : ∀ k l k' l' : ℤ, |k| ≤ 2 * B → |l| ≤ 2 * B → |k'| ≤ 2 * B → |l'| ≤ 2 * B →
        (0 < (k * Fl.pow2 s : ℚ) ∨ (k * Fl.pow2 s : ℚ) = 0 ∧ 0 < (l * Fl.pow2 s : ℚ)) →
        (0 < (k' * Fl.pow2 s : ℚ) ∨ (k' * Fl.pow2 s : ℚ) = 0 ∧ 0 < (l' * Fl.pow2 s : ℚ)) →
        0 < k * l' - l * k' →
        2 * (2 : ℝ) ^ (2 - (f.prec : ℤ)) < Complex.arg ⟨((k' * Fl.pow2 s : ℚ) : ℝ), ((l' * Fl.pow2 s : ℚ) : ℝ)⟩ -
          Complex.arg ⟨((k * Fl.pow2 s : ℚ) : ℝ), ((l * Fl.pow2 s : ℚ) : ℝ)⟩ := by
      intro k l k' l' h1 h2 h3 h4 h5 h6 h7
      have hone : (1 : ℝ) ≤ (k : ℝ) * l' - l * k' := by exact_mod_cast h7
      have hsq : ∀ m n : ℤ, |m| ≤ 2 * B → |n| ≤ 2 * B → (m : ℝ) * m + n * n ≤ 8 * (B * B) := by
        intro m n hm hn
        have a1 := abs_mul_le hm hm
        have a2 := abs_mul_le hn hn
        have a1' := (le_abs_self (m * m)).trans a1
        have a2' := (le_abs_self (n * n)).trans a2
        have : m * m + n * n ≤ 8 * (B * B) := by linarith
        exact_mod_cast this
      have hBp : (0 : ℝ) < 8 * (B * B) := by
        have e1 : (1 : ℝ) ≤ (k : ℝ) * l' - l * k' := hone
        by_contra hcon
        have : B = 0 := by
          by_contra hB0
          have : (0 : ℝ) < B := by exact_mod_cast lt_of_le_of_ne hB (Ne.symm hB0)
          exact hcon (by positivity)
        subst this
        have z1 : k = 0 := by simpa using h1
        have z2 : l = 0 := by simpa using h2
        subst z1; subst z2
        simp at e1
        linarith
      have g := arg_gap (x := ((k * Fl.pow2 s : ℚ) : ℝ)) (y := ((l * Fl.pow2 s : ℚ) : ℝ))
        (x' := ((k' * Fl.pow2 s : ℚ) : ℝ)) (y' := ((l' * Fl.pow2 s : ℚ) : ℝ)) (by exact_mod_cast h5) (by exact_mod_cast h6)
        (c := ((Fl.pow2 s : ℚ) : ℝ) * ((Fl.pow2 s : ℚ) : ℝ))
        (R := 8 * (B * B) * (((Fl.pow2 s : ℚ) : ℝ) * ((Fl.pow2 s : ℚ) : ℝ)))
        (by push_cast; nlinarith [mul_pos hU hU]) (by push_cast; nlinarith [mul_pos hU hU]) (mul_pos hU hU)
        (by push_cast; nlinarith [mul_pos hU hU, hsq k l h1 h2]) (by push_cast; nlinarith [mul_pos hU hU, hsq k' l' h3 h4])
      refine lt_of_lt_of_le ?_ g
      have hs : (8 * (B * B) : ℝ) < 2 ^ (f.prec - 3) := by exact_mod_cast G.small
      have e3 : 2 * (2 : ℝ) ^ (2 - (f.prec : ℤ)) = 1 / 2 ^ (f.prec - 3) := by
        have hp3 := f.hprec
        have : (2 - (f.prec : ℤ)) = -((f.prec - 3 : ℕ) : ℤ) - 1 := by omega
        rw [this, zpow_sub₀ (by norm_num), zpow_neg, zpow_natCast, zpow_one]
        field_simp
      rw [e3, div_lt_div_iff₀ (by positivity) (by positivity)]
      have := mul_pos hU hU
      nlinarith
    have fin : ∀ {x y A A' e : ℝ}, |x - A| ≤ e → |y - A'| ≤ e → 2 * e < A' - A → x < y := by
      intro x y A A' e h1 h2 h3
      rw [abs_le] at h1 h2
      linarith
    rcases lt_trichotomy (k * l' - l * k') 0 with h | h | h
    · have g := gap k' l' k l q5 q6 p5 p6 q7 p7 (by linarith)
      have := fin cq.2 cp.2 g
      have h1 : b.val < a.val := by exact_mod_cast this
      have h2 : (0 : ℝ) < (2 : ℝ) ^ (2 - (f.prec : ℤ)) := by positivity
      rw [compare_gt_iff_gt.2 h1]
      symm
      rw [compare_gt_iff_gt]
      show _ < _
      linarith
    · have h1 : ((k : ℚ) * Fl.pow2 s) * (l' * Fl.pow2 s) = (k' * Fl.pow2 s) * (l * Fl.pow2 s) := by
        have : (k : ℚ) * l' - l * k' = 0 := by exact_mod_cast h
        linear_combination Fl.pow2 s * Fl.pow2 s * this
      rw [compare_eq_iff_eq.2 (par h1)]
      symm
      rw [compare_eq_iff_eq]
      have hc : ((k * Fl.pow2 s : ℚ) : ℝ) * ((l' * Fl.pow2 s : ℚ) : ℝ) = ((k' * Fl.pow2 s : ℚ) : ℝ) * ((l * Fl.pow2 s : ℚ) : ℝ) := by
        exact_mod_cast h1
      have n1 := (ExactAtan2.atan2_lt (K := ℝ) ((k * Fl.pow2 s : ℚ) : ℝ) ((l * Fl.pow2 s : ℚ) : ℝ) ((k' * Fl.pow2 s : ℚ) : ℝ) ((l' * Fl.pow2 s : ℚ) : ℝ)
        (by exact_mod_cast p7) (by exact_mod_cast q7))
      have n2 := (ExactAtan2.atan2_lt (K := ℝ) ((k' * Fl.pow2 s : ℚ) : ℝ) ((l' * Fl.pow2 s : ℚ) : ℝ) ((k * Fl.pow2 s : ℚ) : ℝ) ((l * Fl.pow2 s : ℚ) : ℝ)
        (by exact_mod_cast q7) (by exact_mod_cast p7))
      exact le_antisymm (not_lt.1 (fun hh => by have := n2.1 hh; linarith)) (not_lt.1 (fun hh => by have := n1.1 hh; linarith))
    · have g := gap k l k' l' p5 p6 q5 q6 p7 q7 h
      have := fin cp.2 cq.2 g
      have h1 : a.val < b.val := by exact_mod_cast this
      have h2 : (0 : ℝ) < (2 : ℝ) ^ (2 - (f.prec : ℤ)) := by positivity
      rw [compare_lt_iff_lt.2 h1]
      symm
      rw [compare_lt_iff_lt]
      linarith
end

/-- The true angle, rounded down to a multiple of `2^(2-prec)`. -/
noncomputable def floorAtan (f : Fmt) : Libm f where
  atan2 y x := Flt.ofQ false ((⌊Complex.arg ⟨x.val, y.val⟩ * 2 ^ (f.prec - 2)⌋ : ℤ) * Fl.pow2 (2 - (f.prec : ℤ)))

/-- `GoodAtan` can be met, in every format. -/
theorem C74_good_atan2_exists (f : Fmt) : @GoodAtan f (floorAtan f) := by
  let _ := floorAtan f
  have hp := f.hprec
  have he : Flt.UnitOk f (2 - (f.prec : ℤ)) := by
    have := f.hemin; have := f.hemax
    constructor <;> omega
  have his : ∀ y x : Flt f, Flt.Is (Libm.atan2 y x)
      ((⌊Complex.arg ⟨x.val, y.val⟩ * 2 ^ (f.prec - 2)⌋ : ℤ) * Fl.pow2 (2 - (f.prec : ℤ))) := by
    intro y x
    refine Flt.is_ofQ_repr false (Flt.repr_grid he ?_)
    generalize hA : Complex.arg ⟨x.val, y.val⟩ = A
    have hA1 : |A| ≤ Real.pi := hA ▸ Complex.abs_arg_le_pi _
    have hpi := Real.pi_lt_four
    rw [abs_le] at hA1 ⊢
    have e : (2 : ℝ) ^ f.prec = 4 * 2 ^ (f.prec - 2) := by
      rw [show (4 : ℝ) = 2 ^ 2 by norm_num, ← pow_add]; congr 1; omega
    have hpos : (0 : ℝ) < 2 ^ (f.prec - 2) := by positivity
    constructor
    · rw [Int.le_floor]; push_cast; rw [e]; nlinarith
    · have : (⌊A * 2 ^ (f.prec - 2)⌋ : ℝ) ≤ 2 ^ f.prec := (Int.floor_le _).trans (by rw [e]; nlinarith)
      exact_mod_cast this
  refine ⟨?_, ?_, ?_⟩
  · intro y x hy hx h
    refine ⟨(his y x).1, ?_⟩
    rw [(his y x).2]
    generalize Complex.arg ⟨x.val, y.val⟩ = A
    have hpos : (0 : ℝ) < 2 ^ (f.prec - 2) := by positivity
    have e : (2 : ℝ) ^ (2 - (f.prec : ℤ)) = 1 / 2 ^ (f.prec - 2) := by
      rw [show (2 - (f.prec : ℤ)) = -((f.prec - 2 : ℕ) : ℤ) by omega, zpow_neg, zpow_natCast, one_div]
    rw [Fl.pow2_eq]
    push_cast
    rw [e]
    have h1 := Int.floor_le (A * 2 ^ (f.prec - 2))
    have h2 := Int.lt_floor_add_one (A * 2 ^ (f.prec - 2))
    generalize (⌊A * 2 ^ (f.prec - 2)⌋ : ℝ) = n at *
    generalize (2 : ℝ) ^ (f.prec - 2) = P at *
    rw [abs_le]
    have e2 : n * (1 / P) - A = (n - A * P) / P := by field_simp
    rw [e2]
    constructor
    · rw [neg_le, ← neg_div, div_le_div_iff_of_pos_right hpos]; linarith
    · rw [div_le_div_iff_of_pos_right hpos]; linarith
  · intro y x y' x' hy hx hy' hx' h h' hc
    rw [(his y x).2, (his y' x').2]
    have n1 := ExactAtan2.atan2_lt (K := ℝ) (x.val : ℝ) y.val x'.val y'.val (by exact_mod_cast h) (by exact_mod_cast h')
    have n2 := ExactAtan2.atan2_lt (K := ℝ) (x'.val : ℝ) y'.val x.val y.val (by exact_mod_cast h') (by exact_mod_cast h)
    have hc' : (x.val : ℝ) * y'.val = x'.val * y.val := by exact_mod_cast hc
    have : Complex.arg ⟨(x.val : ℝ), (y.val : ℝ)⟩ = Complex.arg ⟨(x'.val : ℝ), (y'.val : ℝ)⟩ :=
      le_antisymm (not_lt.1 (fun hh => by have := n2.1 hh; linarith)) (not_lt.1 (fun hh => by have := n1.1 hh; linarith))
    rw [this]
  · intro a b e
    have := (his (.zero a) (.zero b)).1
    rw [e] at this
    cases this


/-! ### A sort -/

theorem lt_ekey {f : Fmt} {a b : Flt f} (ha : a ≠ .nan) (hb : b ≠ .nan) : Flt.lt a b = decide (ekey a < ekey b) := by
  have c : ∀ p q : ℚ, (((p : WithTop ℚ) : WithBot (WithTop ℚ)) < ((q : WithTop ℚ) : WithBot (WithTop ℚ))) ↔ p < q := by
    intro p q; rw [WithBot.coe_lt_coe, WithTop.coe_lt_coe]
  have t : ∀ p : ℚ, ((p : WithTop ℚ) : WithBot (WithTop ℚ)) < ((⊤ : WithTop ℚ) : WithBot (WithTop ℚ)) := by
    intro p; rw [WithBot.coe_lt_coe]; exact WithTop.coe_lt_top p
  have t' : ∀ p : ℚ, ¬ ((⊤ : WithTop ℚ) : WithBot (WithTop ℚ)) < ((p : WithTop ℚ) : WithBot (WithTop ℚ)) :=
    fun p => (t p).le.not_gt
  have b1 : ∀ x : WithTop ℚ, (⊥ : WithBot (WithTop ℚ)) < (x : WithBot (WithTop ℚ)) := WithBot.bot_lt_coe
  have b2 : ∀ x : WithBot (WithTop ℚ), ¬ x < ⊥ := fun x => not_lt_bot
  rcases a with _ | (_ | _) | _ | _ <;> rcases b with _ | (_ | _) | _ | _ <;>
    simp only [ne_eq, not_true_eq_false] at ha hb <;> simp only [Flt.lt, ekey, c, t, t', b1, b2] <;> simp

theorem eq_ekey {f : Fmt} {a b : Flt f} (ha : a ≠ .nan) (hb : b ≠ .nan) : Flt.beq a b = decide (ekey a = ekey b) := by
  rcases a with _ | (_ | _) | _ | _ <;> rcases b with _ | (_ | _) | _ | _ <;>
    simp only [ne_eq, not_true_eq_false] at ha hb <;>
    simp [Flt.beq, ekey, WithBot.coe_inj, WithTop.coe_inj, -WithBot.coe_top]

theorem pcmp_ekey {f : Fmt} [Libm f] {a b : Flt f} (ha : a ≠ .nan) (hb : b ≠ .nan) :
    Scalar.pcmp a b = some (compare (ekey a) (ekey b)) := by
  have h1 : Scalar.le a b = decide (ekey a ≤ ekey b) := by
    show (Flt.lt a b || Flt.beq a b) = _
    rw [lt_ekey ha hb, eq_ekey ha hb, ← Bool.decide_or]; exact decide_eq_decide.2 le_iff_lt_or_eq.symm
  have h2 : Scalar.ge a b = decide (ekey b ≤ ekey a) := by
    show (Flt.lt b a || Flt.beq b a) = _
    rw [lt_ekey hb ha, eq_ekey hb ha, ← Bool.decide_or]; exact decide_eq_decide.2 le_iff_lt_or_eq.symm
  unfold Scalar.pcmp
  rw [h1, h2]
  rcases lt_trichotomy (ekey a) (ekey b) with h | h | h
  · rw [compare_lt_iff_lt.2 h]; simp [h.le, h.not_ge]
  · rw [compare_eq_iff_eq.2 h]; simp [h]
  · rw [compare_gt_iff_gt.2 h]; simp [h.le, h.not_ge]

/-- there is a sort as `C74_graham_scan_on_floats` wants it (for points and for indices): sort by the place on the number line -/
theorem C74_sort_exists {f : Fmt} [Libm f] (ι : Type) :
    ∃ srt : List (ι × Flt f × Flt f) → List (ι × Flt f × Flt f),
      ∀ l, (∀ e ∈ l, e.2.1 ≠ .nan ∧ e.2.2 ≠ .nan) →
        (srt l).Perm l ∧ (srt l).Pairwise (fun a b => angleCmp a b ≠ .gt) := by
  let le' : ι × Flt f × Flt f → ι × Flt f × Flt f → Bool := fun a b =>
    decide (ekey a.2.1 < ekey b.2.1 ∨ (ekey a.2.1 = ekey b.2.1 ∧ ekey a.2.2 ≤ ekey b.2.2))
  refine ⟨fun l => l.mergeSort le', fun l hl => ⟨List.mergeSort_perm _ _, ?_⟩⟩
  have := List.pairwise_mergeSort (le := le') (by
    intro a b c h1 h2
    simp only [le', decide_eq_true_iff] at h1 h2 ⊢
    rcases h1 with h1 | ⟨h1, h1'⟩ <;> rcases h2 with h2 | ⟨h2, h2'⟩
    · exact Or.inl (h1.trans h2)
    · exact Or.inl (h2 ▸ h1)
    · exact Or.inl (h1 ▸ h2)
    · exact Or.inr ⟨h1.trans h2, h1'.trans h2'⟩) (by
    intro a b
    simp only [le', Bool.or_eq_true, decide_eq_true_iff]
    rcases lt_trichotomy (ekey a.2.1) (ekey b.2.1) with h | h | h
    · exact Or.inl (Or.inl h)
    · rcases le_total (ekey a.2.2) (ekey b.2.2) with h' | h'
      · exact Or.inl (Or.inr ⟨h, h'⟩)
      · exact Or.inr (Or.inr ⟨h.symm, h'⟩)
    · exact Or.inr (Or.inl h)) l
  refine this.imp_of_mem ?_
  intro a b ha hb h
  have na := hl a ((List.mergeSort_perm _ _).mem_iff.1 ha)
  have nb := hl b ((List.mergeSort_perm _ _).mem_iff.1 hb)
  simp only [le', decide_eq_true_iff] at h
  simp only [angleCmp, pcmp_ekey na.1 nb.1, pcmp_ekey na.2 nb.2, Option.getD_some]
  rcases h with h | ⟨h, h'⟩
  · rw [compare_lt_iff_lt.2 h]; simp [Ordering.then]
  · rw [compare_eq_iff_eq.2 h]
    simp only [Ordering.then, ne_eq, compare_gt_iff_gt, not_lt]
    exact h'

end Verif.Props
