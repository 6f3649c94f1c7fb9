import Verif.Props.VwRefine
import Verif.Props.FloatVw
/-!
# C115 in floating point: on a grid `simplify_vw` removes inserted points before corners
-/
set_option linter.unusedSectionVars false
namespace Verif.Props.VwRefine
open Verif Verif.Model Verif.Spec Verif.Props Fl Flt Verif.Proofs.FloatHull Verif.Proofs.FloatIntersect Verif.Proofs.FloatSimplify
variable {f : Fmt} [Libm f]

/-- what is greedy for the images is greedy on the list of the images -/
theorem greedy_map {P Q A : Type} (e : P → Q) {area : Q → Q → Q → A} {le : A → A → Prop} {m : Nat} {l out : List P}
    (g : GreedyDeletes (fun a b c => area (e a) (e b) (e c)) le m l out) : GreedyDeletes area le m (l.map e) (out.map e) := by
  induction g with
  | done l => exact .done _
  | step m pre a b c post out hmin g ih =>
    rw [List.map_append] at ih ⊢
    refine .step m _ _ _ _ _ _ ?_ ih
    intro pre' a' b' c' post' q
    have q : (pre ++ a :: b :: c :: post).map e = pre' ++ a' :: b' :: c' :: post' := by rw [← q, List.map_append]; rfl
    obtain ⟨l1, l2, e1, rfl, e2⟩ := List.map_eq_append_iff.1 q
    obtain ⟨x, l3, rfl, rfl, e3⟩ := List.map_eq_cons_iff.1 e2
    obtain ⟨y, l4, rfl, rfl, e4⟩ := List.map_eq_cons_iff.1 e3
    obtain ⟨z, l5, rfl, rfl, rfl⟩ := List.map_eq_cons_iff.1 e4
    exact hmin _ _ _ _ _ e1

/-- **C115** 2D in floating point, for points on a grid: if not more points are deleted than were inserted, no corner is deleted. -/
theorem C115_vw2_inserted_points_go_first_on_floats {s B : ℤ} (G : SquareGrid f s B) (pick : Nat → List (Flt f × Nat) → Nat)
    (hpick : PopsLeast NotNan pick) (fine : List (V2 (Flt f))) (hl : ∀ p ∈ fine, OnGrid s B p) (coarse : List (V2 ℚ))
    (h : Inserted lerp2 (fine.map exact) coarse) (ht : Turns orient 0 coarse) (hopen : coarse.head? ≠ coarse.getLast?) (k fuel : Nat)
    (hk : k + coarse.length ≤ fine.length) (h4 : k + 4 ≤ fine.length) (hf : 4 * fine.length < fuel) :
    ∃ out, simplifyVw2 pick fuel fine k = .ok out ∧ out.length = fine.length - k ∧ Inserted lerp2 (out.map exact) coarse := by
  have ho : ∀ a b, fine.head? = some a → fine.getLast? = some b → exact a ≠ exact b := by
    intro a b ha hb hc
    obtain ⟨e1, e2⟩ := inserted_ends h
    rw [List.head?_map, ha] at e1
    rw [List.getLast?_map, hb] at e2
    exact hopen (by rw [← e1, ← e2, Option.map_some, Option.map_some, hc])
  have hg : ∀ a ∈ fine, ∀ b ∈ fine, ∀ c ∈ fine, NotNan (triangleArea2 a b c) :=
    fun a ha b hb c hc => by
      have := area2_fin G (hl a ha) (hl b hb) (hl c hc)
      intro h; rw [h] at this; cases this
  obtain ⟨out, r1, r2⟩ := C81_vw2_open_greedy G pick hpick fine hl (by omega) ho k fuel hf
  obtain ⟨out', r3, -, r4⟩ := C13_vw2_open_length (C81_floats_total f) pick hpick fine (by omega) k fuel (by
    intro a b h1 h2
    have h3 := ho a b h1 h2
    have ha := hl a (List.mem_of_mem_head? h1)
    have hb := hl b (List.mem_of_mem_getLast? h2)
    have e1 : Scalar.beq a.x b.x = decide (a.x.val = b.x.val) := is_beq (is_self ha.1) (is_self hb.1)
    have e2 : Scalar.beq a.y b.y = decide (a.y.val = b.y.val) := is_beq (is_self ha.2.1) (is_self hb.2.1)
    unfold V2.beq
    rw [e1, e2, ← Bool.decide_and, decide_eq_false_iff_not]
    rintro ⟨h4, h5⟩
    exact h3 (by unfold exact; rw [h4, h5])) hg hf
  rw [r1, Except.ok.injEq] at r3
  subst r3
  have hlen := r4 (by omega)
  rw [Nat.min_eq_left (by omega)] at hlen
  refine ⟨out, r1, hlen, greedy_keeps_corners (area := fun a b c => |orient a b c|) (le := (· ≤ ·)) (fun a b => by unfold lerp2; simp)
    lerp2_one (fun a b t u v => ?_) (fun a b c t v h1 h2 h3 => ?_) (fun a b c => abs_nonneg _) (fun x hx => hx) (greedy_map exact r2) h
    (fun i a b c ha hb hc e => ht i a b c ha hb hc (abs_eq_zero.1 e)) ?_⟩
  · rw [abs_eq_zero]; simp only [orient, lerp2]; ring
  · rw [Ne, abs_eq_zero] at h3 ⊢
    have e : orient (lerp2 a b t) b (lerp2 b c v) = ((1 - t) * v) * orient a b c := by simp only [orient, lerp2]; ring
    rw [e]
    exact mul_ne_zero (mul_ne_zero (sub_pos.2 h1).ne' h2.ne') h3
  · rw [hlen, List.length_map]
    omega

/-- **C115** 2D in floating point: deleting as many points as were inserted gives back the line string. -/
theorem C115_vw2_undoes_insertion_on_floats {s B : ℤ} (G : SquareGrid f s B) (pick : Nat → List (Flt f × Nat) → Nat)
    (hpick : PopsLeast NotNan pick) (fine : List (V2 (Flt f))) (hl : ∀ p ∈ fine, OnGrid s B p) (coarse : List (V2 ℚ))
    (h : Inserted lerp2 (fine.map exact) coarse) (ht : Turns orient 0 coarse) (hopen : coarse.head? ≠ coarse.getLast?)
    (h4 : 4 ≤ coarse.length) (fuel : Nat) (hf : 4 * fine.length < fuel) :
    ∃ out, simplifyVw2 pick fuel fine (fine.length - coarse.length) = .ok out ∧ out.map exact = coarse := by
  have hle : coarse.length ≤ fine.length := by
    rw [← List.length_map (f := exact) (as := fine)]
    obtain ⟨A, B, l, cs, e, rfl, ho⟩ := h
    have := ho.length.1
    rw [e]
    simp only [List.length_cons]; omega
  obtain ⟨out, r1, r2, r3⟩ := C115_vw2_inserted_points_go_first_on_floats G pick hpick fine hl coarse h ht hopen
    (fine.length - coarse.length) fuel (by omega) (by omega) hf
  exact ⟨out, r1, inserted_none r3 (by rw [List.length_map]; omega)⟩

/-- **C115** 3D in floating point, all line strings on a grid. -/
theorem C115_vw3_inserted_points_go_first_on_floats {s B : ℤ} (G : SquareGrid f s B) (hB : 1 ≤ B)
    (pick : Nat → List (Flt f × Nat) → Nat) (hpick : PopsLeast NotNan pick) (fine : List (V3 (Flt f)))
    (hl : ∀ p ∈ fine, OnGrid3 s B p) (coarse : List (V3 ℚ)) (h : Inserted lerp3 (fine.map exact3) coarse) (ht : Turns heron 0 coarse)
    (h3 : 3 ≤ fine.length) (k fuel : Nat) (hk : k + coarse.length ≤ fine.length) (hf : 4 * fine.length < fuel) :
    ∃ (out : List (V3 (Flt f))) (last : V3 (Flt f)), simplifyVw3 pick fuel fine k = .ok out ∧ fine.getLast? = some last ∧
      Inserted lerp3 ((out ++ [last]).map exact3) coarse ∧ out.length + 1 = fine.length - k := by
  have hc : 2 ≤ coarse.length := by
    obtain ⟨A, B, l, cs, -, rfl, ho⟩ := h
    simp
  have hg : ∀ a ∈ fine, ∀ b ∈ fine, ∀ c ∈ fine, NotNan (triangleArea3 a b c) :=
    fun a ha b hb c hc => by
      obtain ⟨v, hv, -⟩ := area3_rel G hB (hl a ha) (hl b hb) (hl c hc)
      intro h; rw [h] at hv; cases hv.1
  obtain ⟨out, last, r1, r2, r3⟩ := C81_vw3_greedy G hB pick hpick fine hl h3 k fuel hf
  obtain ⟨out', r4, r5, -⟩ := C15_vw3 (C81_floats_total f) pick hpick fine h3 k fuel hg hf
  rw [r1, Except.ok.injEq] at r4
  subst r4
  rw [show min k (fine.length - 2) = k by omega] at r3 r5
  have r6 := greedy_map (area := heron16) exact3 r3
  have e0 : (heron16 : V3 ℚ → V3 ℚ → V3 ℚ → ℚ) = heron := rfl
  rw [e0] at r6
  refine ⟨out, last, r1, r2, greedy_keeps_corners (area := heron) (fun a b => by unfold lerp3; simp) lerp3_one (fun a b t u v => ?_)
    (fun a b c t v h1 h2 h3 => ?_) (fun a b c => ?_) (fun x hx => by simpa using hx) r6 h ht ?_, by omega⟩
  · rw [heron_area3, flat3, mul_zero]
  · rw [heron_area3] at h3 ⊢
    exact mul_ne_zero (by norm_num) (turn3 _ _ _ _ _ h1 h2 (right_ne_zero_of_mul h3))
  · rw [heron_area3]
    exact mul_nonneg (by norm_num) (pos3 _ _ _)
  · rw [List.length_map]; omega

/-- **C115** 3D in floating point: what is returned is the line string without its last point. -/
theorem C115_vw3_undoes_insertion_on_floats {s B : ℤ} (G : SquareGrid f s B) (hB : 1 ≤ B)
    (pick : Nat → List (Flt f × Nat) → Nat) (hpick : PopsLeast NotNan pick) (fine : List (V3 (Flt f)))
    (hl : ∀ p ∈ fine, OnGrid3 s B p) (coarse : List (V3 ℚ)) (h : Inserted lerp3 (fine.map exact3) coarse) (ht : Turns heron 0 coarse)
    (h3 : 3 ≤ fine.length) (fuel : Nat) (hf : 4 * fine.length < fuel) :
    ∃ out, simplifyVw3 pick fuel fine (fine.length - coarse.length) = .ok out ∧ out.map exact3 = coarse.dropLast := by
  have hle : coarse.length ≤ fine.length := by
    rw [← List.length_map (f := exact3) (as := fine)]
    obtain ⟨A, B, l, cs, e, rfl, ho⟩ := h
    have := ho.length.1
    rw [e]
    simp only [List.length_cons]; omega
  obtain ⟨out, last, r1, -, r2, r3⟩ := C115_vw3_inserted_points_go_first_on_floats G hB pick hpick fine hl coarse h ht h3
    (fine.length - coarse.length) fuel (by omega) hf
  refine ⟨out, r1, ?_⟩
  rw [← inserted_none r2 (by rw [List.length_map, List.length_append, List.length_singleton]; omega), List.map_append, List.map_cons,
    List.map_nil, List.dropLast_concat]
end Verif.Props.VwRefine
