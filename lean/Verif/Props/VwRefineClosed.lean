import Verif.Props.FloatVwRefine
/-!
# C115 for closed line strings of the plane: nothing but the closing point is lost
-/
set_option linter.unusedSectionVars false
namespace Verif.Props.VwRefine
open Verif Verif.Model Verif.Spec Verif.Props Fl Flt Verif.Proofs.FloatHull Verif.Proofs.FloatIntersect Verif.Proofs.FloatSimplify
  Verif.Props.Discretize Verif.Props.Rdp

section generic
variable {K : Type} [Field K] [LinearOrder K] [IsStrictOrderedRing K] {P : Type} {lerp : P → P → K → P} {area : P → P → P → K}

/-- the last point of the line string once more at the end: it, or an inserted point, is deleted as long as more points are there than corners -/
theorem greedy_keeps_corners_closed (l0 : ∀ a b, lerp a b 0 = a) (l1 : ∀ a b, lerp a b 1 = b)
    (flat : ∀ a b t u s, area (lerp a b t) (lerp a b u) (lerp a b s) = 0)
    (turn : ∀ a b c t s, t < 1 → 0 < s → area a b c ≠ 0 → area (lerp a b t) b (lerp b c s) ≠ 0)
    (pos : ∀ a b c, 0 ≤ area a b c) {le : K → K → Prop} (hle : ∀ x, le x 0 → x ≤ 0) {m : Nat} {full out coarse : List P}
    (g : GreedyDeletes area le m full out) (x : List P) (z : P) (e : full = x ++ [z]) (h : Inserted lerp x coarse)
    (hz : coarse.getLast? = some z) (ht : Turns area 0 coarse) (hm : m + coarse.length ≤ full.length) :
    (∃ y, out = y ++ [z] ∧ Inserted lerp y coarse) ∨ Inserted lerp out coarse := by
  induction g generalizing x with
  | done l => exact Or.inl ⟨x, e, h⟩
  | step m pre a b c post out hmin g ih =>
    have hx : x.getLast? = some z := by rw [(inserted_ends h).2, hz]
    obtain ⟨w, rfl⟩ := List.getLast?_eq_some_iff.1 hx
    have hw : w ≠ [] := by
      rintro rfl
      obtain ⟨A, B, l, cs, e1, -, ho⟩ := h
      obtain ⟨s, r, -, -, rfl⟩ := ho.head l1
      simp at e1
    obtain ⟨v, y, rfl⟩ : ∃ v y, w = v ++ [y] := ⟨w.dropLast, w.getLast hw, (List.dropLast_append_getLast hw).symm⟩
    have hflat : area y z z = 0 := by
      have := flat y z 0 1 1
      rwa [l0, l1] at this
    have ha : area a b c = 0 := le_antisymm (hle _ (hflat ▸ hmin v y z z [] (by rw [e]; simp))) (pos _ _ _)
    rcases List.eq_nil_or_concat post with rfl | ⟨post', q, rfl⟩
    · have e' : (pre ++ [a, b]) ++ [c] = (v ++ [y] ++ [z]) ++ [z] := by simpa using e
      obtain ⟨e1, e2⟩ := List.append_inj' e' rfl
      have e1' : (pre ++ [a]) ++ [b] = (v ++ [y]) ++ [z] := by simpa using e1
      obtain ⟨e3, e4⟩ := List.append_inj' e1' rfl
      rw [List.cons.injEq] at e2
      obtain ⟨rfl, -⟩ := e2
      have eL : pre ++ a :: c :: [] = v ++ [y] ++ [c] := by rw [← e3]; simp
      rw [eL] at g
      refine Or.inr (greedy_keeps_corners l0 l1 flat turn pos hle g h ht ?_)
      have q1 := congrArg List.length e
      simp only [List.length_append, List.length_cons, List.length_nil] at q1 hm ⊢
      omega
    · have e' : (pre ++ a :: b :: c :: post') ++ [q] = (v ++ [y] ++ [z]) ++ [z] := by simpa using e
      obtain ⟨e1, e2⟩ := List.append_inj' e' rfl
      rw [List.cons.injEq] at e2
      obtain ⟨rfl, -⟩ := e2
      obtain ⟨A, B, l, cs, e3, rfl, ho⟩ := h
      rcases ho.remove l0 l1 turn ht (pre := pre) (a := a) (b := b) (c := c) (post := post') (by rw [l0, ← e3, e1]) with ⟨l', e4, n'⟩ | hn
      · rw [l0] at e4
        refine ih (pre ++ a :: c :: post') (by simp) ⟨A, B, l', cs, e4, rfl, n'⟩ ?_
        simp only [List.length_append, List.length_cons] at hm ⊢
        omega
      · exact absurd ha hn
end generic

section exact
variable {K : Type} [Scalar K] [Field K] [LinearOrder K] [ExactScalar K]

/-- **C115** 2D, closed line strings: if at most one point more is deleted than were inserted, no corner is deleted, except for the closing
point; so one gets the line string with some of the inserted points, or that without its last point. -/
theorem C115_vw2_closed_inserted_points_go_first (pick : Nat → List (K × Nat) → Nat) (hpick : PopsLeast (fun _ => True) pick)
    (fine coarse : List (V2 K)) (h : Inserted lerp2 fine coarse) (ht : Turns orient 0 coarse)
    (hclosed : coarse.head? = coarse.getLast?) (k fuel : Nat) (hk : k + coarse.length ≤ fine.length + 1) (h3 : k + 3 ≤ fine.length)
    (hf : 4 * fine.length < fuel) :
    ∃ (out : List (V2 K)) (last : V2 K), simplifyVw2 pick fuel fine k = .ok out ∧ out.length = fine.length - k ∧
      coarse.getLast? = some last ∧ (Inserted lerp2 out coarse ∨ Inserted lerp2 (out ++ [last]) coarse) := by
  have := ExactScalar.toIsStrictOrderedRing (K := K)
  obtain ⟨e1, e2⟩ := inserted_ends h
  have hfc : fine.head? = fine.getLast? := by rw [e1, e2, hclosed]
  have hc : ∃ a b, fine.head? = some a ∧ fine.getLast? = some b ∧ V2.beq a b = true := by
    cases hh : fine.head? with
    | none => rw [List.head?_eq_none_iff] at hh; subst hh; simp at h3
    | some a =>
      refine ⟨a, a, rfl, by rw [← hfc, hh], ?_⟩
      unfold V2.beq
      rw [Bool.and_eq_true, OrderedScalar.beq_iff, OrderedScalar.beq_iff]
      exact ⟨rfl, rfl⟩
  obtain ⟨out, r1, r2⟩ := C13_vw2_closed_length exact_total pick hpick fine (by omega) k fuel hc (by simp) hf
  obtain ⟨out', first, r3, r4, r5⟩ := C14_vw2_closed_greedy exact_total pick hpick fine (by omega) k fuel hc (by simp) hf
  rw [r1, Except.ok.injEq] at r3
  subst r3
  rw [Nat.min_eq_left (by omega)] at r2
  have hl : coarse.getLast? = some first := by rw [← hclosed, ← e1, r4]
  refine ⟨out, first, r1, r2, hl, ?_⟩
  have := greedy_keeps_corners_closed (fun a b => by unfold lerp2; simp) lerp2_one flat2 turn2 pos2 (fun x => (OrderedScalar.le_iff x 0).1)
    r5 fine first rfl h hl ht.area2 (by rw [List.length_append, List.length_singleton]; omega)
  rcases this with ⟨y, e, hy⟩ | hy
  · rw [List.append_cancel_right_eq] at e
    exact Or.inl (e ▸ hy)
  · exact Or.inr hy

/-- **C115** 2D, closed line strings (at least a triangle): deleting one point more than were inserted gives back the line string without
its closing point. -/
theorem C115_vw2_closed_undoes_insertion (pick : Nat → List (K × Nat) → Nat) (hpick : PopsLeast (fun _ => True) pick)
    (fine coarse : List (V2 K)) (h : Inserted lerp2 fine coarse) (ht : Turns orient 0 coarse)
    (hclosed : coarse.head? = coarse.getLast?) (h4 : 4 ≤ coarse.length) (fuel : Nat) (hf : 4 * fine.length < fuel) :
    simplifyVw2 pick fuel fine (fine.length + 1 - coarse.length) = .ok coarse.dropLast := by
  have := ExactScalar.toIsStrictOrderedRing (K := K)
  have hle : ∀ {l : List (V2 K)}, Inserted lerp2 l coarse → coarse.length ≤ l.length := by
    rintro l ⟨A, B, l, cs, rfl, rfl, ho⟩
    have := ho.length.1
    simp only [List.length_cons]; omega
  have := hle h
  obtain ⟨out, last, r1, r2, r3, r4 | r4⟩ := C115_vw2_closed_inserted_points_go_first pick hpick fine coarse h ht hclosed
    (fine.length + 1 - coarse.length) fuel (by omega) (by omega) hf
  · have := hle r4
    omega
  · rw [r1, ← inserted_none r4 (by rw [List.length_append, List.length_singleton]; omega), List.dropLast_concat]

/-- **C115** 2D, closed: `simplify_vw` undoes `discretize`, up to the closing point. -/
theorem C115_vw2_closed_undoes_discretize [ExactSqrt K] (pick : Nat → List (K × Nat) → Nat) (hpick : PopsLeast (fun _ => True) pick)
    (pts out : List (V2 K)) (step : K) (hstep : 0 < step) (h : Collects (discNext ops2) (discNew ops2 pts step) out)
    (ht : Turns orient 0 pts) (hclosed : pts.head? = pts.getLast?) (h4 : 4 ≤ pts.length) (fuel : Nat) (hf : 4 * out.length < fuel) :
    simplifyVw2 pick fuel out (out.length + 1 - pts.length) = .ok pts.dropLast :=
  C115_vw2_closed_undoes_insertion pick hpick out pts
    (divided_inserted lerp2_zero (fun a b n hn => hn.1) (C27_divided2 pts out step hstep (by rintro rfl; simp at h4) h) (by omega))
    ht hclosed h4 fuel hf
end exact

section floats
variable {f : Fmt} [Libm f]

/-- **C115** 2D in floating point, closed line strings of points on a grid. -/
theorem C115_vw2_closed_inserted_points_go_first_on_floats {s B : ℤ} (G : SquareGrid f s B) (pick : Nat → List (Flt f × Nat) → Nat)
    (hpick : PopsLeast NotNan pick) (fine : List (V2 (Flt f))) (hl : ∀ p ∈ fine, OnGrid s B p) (coarse : List (V2 ℚ))
    (h : Inserted lerp2 (fine.map exact) coarse) (ht : Turns orient 0 coarse) (hclosed : coarse.head? = coarse.getLast?) (k fuel : Nat)
    (hk : k + coarse.length ≤ fine.length + 1) (h3 : k + 3 ≤ fine.length) (hf : 4 * fine.length < fuel) :
    ∃ (out : List (V2 (Flt f))) (last : V2 ℚ), simplifyVw2 pick fuel fine k = .ok out ∧ out.length = fine.length - k ∧
      coarse.getLast? = some last ∧ (Inserted lerp2 (out.map exact) coarse ∨ Inserted lerp2 (out.map exact ++ [last]) coarse) := by
  obtain ⟨e1, e2⟩ := inserted_ends h
  have hc : ∃ a b, fine.head? = some a ∧ fine.getLast? = some b ∧ exact a = exact b := by
    cases hh : fine.head? with
    | none => rw [List.head?_eq_none_iff] at hh; subst hh; simp at h3
    | some a =>
      cases hg : fine.getLast? with
      | none => rw [List.getLast?_eq_none_iff] at hg; subst hg; simp at h3
      | some b =>
        refine ⟨a, b, rfl, rfl, ?_⟩
        rw [List.head?_map, hh] at e1
        rw [List.getLast?_map, hg] at e2
        rw [← e1, ← e2] at hclosed
        simpa using hclosed
  have hg : ∀ a ∈ fine, ∀ b ∈ fine, ∀ c ∈ fine, NotNan (triangleArea2 a b c) :=
    fun a ha b hb c hc => by
      have := area2_fin G (hl a ha) (hl b hb) (hl c hc)
      intro h; rw [h] at this; cases this
  obtain ⟨out, r1, r2⟩ := C13_vw2_closed_length (C81_floats_total f) pick hpick fine (by omega) k fuel (by
    obtain ⟨a, b, h1, h2, h3⟩ := hc
    refine ⟨a, b, h1, h2, ?_⟩
    have ha := hl a (List.mem_of_mem_head? h1)
    have hb := hl b (List.mem_of_mem_getLast? h2)
    have e1 : Scalar.beq a.x b.x = decide (a.x.val = b.x.val) := is_beq (is_self ha.1) (is_self hb.1)
    have e2 : Scalar.beq a.y b.y = decide (a.y.val = b.y.val) := is_beq (is_self ha.2.1) (is_self hb.2.1)
    unfold exact at h3
    rw [V2.mk.injEq] at h3
    unfold V2.beq
    rw [e1, e2, decide_eq_true h3.1, decide_eq_true h3.2]; rfl) hg hf
  obtain ⟨out', first, r3, r4, r5⟩ := C81_vw2_closed_greedy G pick hpick fine hl (by omega) hc k fuel hf
  rw [r1, Except.ok.injEq] at r3
  subst r3
  rw [Nat.min_eq_left (by omega)] at r2
  have hl : coarse.getLast? = some (exact first) := by rw [← hclosed, ← e1, List.head?_map, r4]; rfl
  refine ⟨out, exact first, r1, r2, hl, ?_⟩
  have g := greedy_map (area := fun a b c => |orient a b c|) exact r5
  have := greedy_keeps_corners_closed (area := fun a b c => |orient a b c|) (le := (· ≤ ·)) (fun a b => by unfold lerp2; simp)
    lerp2_one (fun a b t u v => by rw [abs_eq_zero]; simp only [orient, lerp2]; ring) (fun a b c t v h1 h2 h3 => by
      rw [Ne, abs_eq_zero] at h3 ⊢
      have e : orient (lerp2 a b t) b (lerp2 b c v) = ((1 - t) * v) * orient a b c := by simp only [orient, lerp2]; ring
      rw [e]
      exact mul_ne_zero (mul_ne_zero (sub_pos.2 h1).ne' h2.ne') h3) (fun a b c => abs_nonneg _) (fun x hx => hx) g
    (fine.map exact) (exact first) (by rw [List.map_append]; rfl) h hl (fun i a b c ha hb hc e => ht i a b c ha hb hc (abs_eq_zero.1 e))
    (by rw [List.length_map, List.length_append, List.length_singleton]; omega)
  rcases this with ⟨y, e, hy⟩ | hy
  · rw [List.map_append, List.map_cons, List.map_nil, List.append_cancel_right_eq] at e
    exact Or.inl (e ▸ hy)
  · rw [List.map_append] at hy
    exact Or.inr hy

/-- **C115** 2D in floating point, closed line strings: deleting one point more than were inserted gives back the line string without its
closing point. -/
theorem C115_vw2_closed_undoes_insertion_on_floats {s B : ℤ} (G : SquareGrid f s B) (pick : Nat → List (Flt f × Nat) → Nat)
    (hpick : PopsLeast NotNan pick) (fine : List (V2 (Flt f))) (hl : ∀ p ∈ fine, OnGrid s B p) (coarse : List (V2 ℚ))
    (h : Inserted lerp2 (fine.map exact) coarse) (ht : Turns orient 0 coarse) (hclosed : coarse.head? = coarse.getLast?)
    (h4 : 4 ≤ coarse.length) (fuel : Nat) (hf : 4 * fine.length < fuel) :
    ∃ out, simplifyVw2 pick fuel fine (fine.length + 1 - coarse.length) = .ok out ∧ out.map exact = coarse.dropLast := by
  have hle : ∀ {l : List (V2 ℚ)}, Inserted lerp2 l coarse → coarse.length ≤ l.length := by
    rintro l ⟨A, B, l, cs, rfl, rfl, ho⟩
    have := ho.length.1
    simp only [List.length_cons]; omega
  have := hle h
  rw [List.length_map] at this
  obtain ⟨out, last, r1, r2, r3, r4 | r4⟩ := C115_vw2_closed_inserted_points_go_first_on_floats G pick hpick fine hl coarse h ht hclosed
    (fine.length + 1 - coarse.length) fuel (by omega) (by omega) hf
  · have := hle r4
    rw [List.length_map] at this
    omega
  · refine ⟨out, r1, ?_⟩
    rw [← inserted_none r4 (by rw [List.length_append, List.length_singleton, List.length_map]; omega), List.dropLast_concat]
end floats
end Verif.Props.VwRefine
