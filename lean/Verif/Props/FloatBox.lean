import Verif.Props.FloatGraham
import Verif.Props.Aabb
/-!
# Bounding boxes in floating point

All floats are allowed here: NaN, infinities, signed zeros.
-/
namespace Verif.Props
open Verif Verif.Model Verif.Spec Fl Flt
variable {f : Fmt} [Libm f]
set_option linter.unusedSectionVars false
set_option linter.unusedSimpArgs false

theorem fr_single (x : Flt f) : FloatRange x x [x] := by
  by_cases h : x = .nan
  · exact Or.inl ⟨by simp, h, h, by simpa using h⟩
  · exact Or.inr ⟨by simp, by simp, h, h, by simp⟩

theorem fmin_num {a b : Flt f} (ha : a ≠ .nan) (hb : b ≠ .nan) :
    (Flt.fmin a b = a ∨ Flt.fmin a b = b) ∧ ekey (Flt.fmin a b) ≤ ekey a ∧ ekey (Flt.fmin a b) ≤ ekey b := by
  simp only [Flt.fmin, ha, hb, if_false, lt_ekey hb ha, decide_eq_true_eq]
  split
  · rename_i h; exact ⟨Or.inr rfl, h.le, le_refl _⟩
  · rename_i h; exact ⟨Or.inl rfl, le_refl _, not_lt.1 h⟩

theorem fmax_num {a b : Flt f} (ha : a ≠ .nan) (hb : b ≠ .nan) :
    (Flt.fmax a b = a ∨ Flt.fmax a b = b) ∧ ekey a ≤ ekey (Flt.fmax a b) ∧ ekey b ≤ ekey (Flt.fmax a b) := by
  simp only [Flt.fmax, ha, hb, if_false, lt_ekey ha hb, decide_eq_true_eq]
  split
  · rename_i h; exact ⟨Or.inr rfl, h.le, le_refl _⟩
  · rename_i h; exact ⟨Or.inl rfl, le_refl _, not_lt.1 h⟩

theorem fmin_nan_left (b : Flt f) : Flt.fmin .nan b = b := by simp [Flt.fmin]
theorem fmax_nan_left (b : Flt f) : Flt.fmax .nan b = b := by simp [Flt.fmax]
theorem fmin_nan_right (a : Flt f) : Flt.fmin a .nan = a := by
  by_cases h : a = .nan <;> simp [Flt.fmin, h]
theorem fmax_nan_right (a : Flt f) : Flt.fmax a .nan = a := by
  by_cases h : a = .nan <;> simp [Flt.fmax, h]

theorem fr_step {lo hi x : Flt f} {xs : List (Flt f)} (h : FloatRange lo hi xs) :
    FloatRange (Flt.fmin lo x) (Flt.fmax hi x) (xs ++ [x]) := by
  by_cases hx : x = .nan
  · subst hx
    rw [fmin_nan_right, fmax_nan_right]
    rcases h with ⟨-, h1, h2, h3⟩ | ⟨h1, h2, h3, h4, h5⟩
    · exact Or.inl ⟨by simp, h1, h2, by intro y hy; rcases List.mem_append.1 hy with hy | hy; exacts [h3 y hy, by simpa using hy]⟩
    · refine Or.inr ⟨by simp [h1], by simp [h2], h3, h4, ?_⟩
      intro y hy hn
      rcases List.mem_append.1 hy with hy | hy
      · exact h5 y hy hn
      · exact absurd (by simpa using hy) hn
  · rcases h with ⟨-, h1, h2, h3⟩ | ⟨h1, h2, h3, h4, h5⟩
    · subst h1 h2
      rw [fmin_nan_left, fmax_nan_left]
      refine Or.inr ⟨by simp, by simp, hx, hx, ?_⟩
      intro y hy hn
      rcases List.mem_append.1 hy with hy | hy
      · exact absurd (h3 y hy) hn
      · have : y = x := by simpa using hy
        subst this; exact ⟨le_refl _, le_refl _⟩
    · obtain ⟨m1, m2, m3⟩ := fmin_num h3 hx
      obtain ⟨n1, n2, n3⟩ := fmax_num h4 hx
      refine Or.inr ⟨?_, ?_, ?_, ?_, ?_⟩
      · rcases m1 with e | e <;> rw [e] <;> simp [h1]
      · rcases n1 with e | e <;> rw [e] <;> simp [h2]
      · rcases m1 with e | e <;> rw [e] <;> assumption
      · rcases n1 with e | e <;> rw [e] <;> assumption
      · intro y hy hn
        rcases List.mem_append.1 hy with hy | hy
        · exact ⟨m2.trans (h5 y hy hn).1, (h5 y hy hn).2.trans n2⟩
        · have : y = x := by simpa using hy
          subst this; exact ⟨m3, n3⟩

theorem fr_congr {lo hi : Flt f} {xs ys : List (Flt f)} (h : FloatRange lo hi xs) (e : ∀ x, x ∈ xs ↔ x ∈ ys) :
    FloatRange lo hi ys := by
  rcases h with ⟨h0, h1, h2, h3⟩ | ⟨h1, h2, h3, h4, h5⟩
  · refine Or.inl ⟨?_, h1, h2, fun x hx => h3 x ((e x).2 hx)⟩
    rintro rfl
    obtain ⟨x, hx⟩ := List.exists_mem_of_ne_nil _ h0
    simpa using (e x).1 hx
  · exact Or.inr ⟨(e _).1 h1, (e _).1 h2, h3, h4, fun x hx => h5 x ((e x).2 hx)⟩

/-- the corners of the other box stand for its points -/
theorem fr_merge {lo hi lo2 hi2 : Flt f} {xs ys : List (Flt f)} (h : FloatRange lo hi (xs ++ [lo2, hi2]))
    (h' : FloatRange lo2 hi2 ys) : FloatRange lo hi (xs ++ ys) := by
  rcases h' with ⟨h0, rfl, rfl, h3⟩ | ⟨h1', h2', h3', h4', h5'⟩
  · rcases h with ⟨a0, a1, a2, a3⟩ | ⟨a1, a2, a3, a4, a5⟩
    · refine Or.inl ⟨by simp [h0], a1, a2, ?_⟩
      intro x hx
      rcases List.mem_append.1 hx with hx | hx
      · exact a3 x (by simp [hx])
      · exact h3 x hx
    · refine Or.inr ⟨?_, ?_, a3, a4, ?_⟩
      · simp [a3] at a1; simp [a1]
      · simp [a4] at a2; simp [a2]
      · intro x hx hn
        rcases List.mem_append.1 hx with hx | hx
        · exact a5 x (by simp [hx]) hn
        · exact absurd (h3 x hx) hn
  · rcases h with ⟨a0, a1, a2, a3⟩ | ⟨a1, a2, a3, a4, a5⟩
    · exact absurd (a3 lo2 (by simp)) h3'
    · have b1 := a5 lo2 (by simp) h3'
      have b2 := a5 hi2 (by simp) h4'
      refine Or.inr ⟨?_, ?_, a3, a4, ?_⟩
      · simp only [List.mem_append, List.mem_cons, List.not_mem_nil, or_false] at a1 ⊢
        rcases a1 with h | h | h
        · exact Or.inl h
        · exact Or.inr (h ▸ h1')
        · exact Or.inr (h ▸ h2')
      · simp only [List.mem_append, List.mem_cons, List.not_mem_nil, or_false] at a2 ⊢
        rcases a2 with h | h | h
        · exact Or.inl h
        · exact Or.inr (h ▸ h1')
        · exact Or.inr (h ▸ h2')
      · intro x hx hn
        rcases List.mem_append.1 hx with hx | hx
        · exact a5 x (by simp [hx]) hn
        · exact ⟨b1.1.trans (h5' x hx hn).1, (h5' x hx hn).2.trans b2.2⟩

theorem fr_foldl {V : Type} (ax : V → Flt f) (st : V × V → V → V × V)
    (hst : ∀ b p, ax (st b p).1 = Flt.fmin (ax b.1) (ax p) ∧ ax (st b p).2 = Flt.fmax (ax b.2) (ax p))
    (ps : List V) : ∀ (b : V × V) (pts : List V), FloatRange (ax b.1) (ax b.2) (pts.map ax) →
    FloatRange (ax (ps.foldl st b).1) (ax (ps.foldl st b).2) ((pts ++ ps).map ax) := by
  induction ps with
  | nil => intro b pts h; simpa using h
  | cons p ps ih =>
    intro b pts h
    have h2 := fr_step (x := ax p) h
    rw [← (hst b p).1, ← (hst b p).2] at h2
    have := ih (st b p) (pts ++ [p]) (by simpa using h2)
    simpa using this

/-- one axis of a box and the fed points -/
def AxisOk2 (ax : V2 (Flt f) → Flt f) (b : Aabb2 (Flt f)) (pts : List (V2 (Flt f))) : Prop :=
  match b.minMax with
  | none => pts = []
  | some (lo, hi) => FloatRange (ax lo) (ax hi) (pts.map ax)

theorem axis2_point {ax : V2 (Flt f) → Flt f}
    (hst : ∀ b p, ax (Aabb2.step b p).1 = Flt.fmin (ax b.1) (ax p) ∧ ax (Aabb2.step b p).2 = Flt.fmax (ax b.2) (ax p))
    {b : Aabb2 (Flt f)} {pts : List (V2 (Flt f))} (h : AxisOk2 ax b pts) (p : V2 (Flt f)) :
    AxisOk2 ax (b.updateWithPoint p) (pts ++ [p]) := by
  obtain ⟨_ | ⟨lo, hi⟩⟩ := b
  · simp only [AxisOk2] at h; subst h
    simp only [AxisOk2, Aabb2.updateWithPoint, List.nil_append, List.map_cons, List.map_nil]
    exact fr_single _
  · simp only [AxisOk2, Aabb2.updateWithPoint] at h ⊢
    exact fr_foldl ax Aabb2.step hst [p] (lo, hi) pts h

theorem axis2_points {ax : V2 (Flt f) → Flt f}
    (hst : ∀ b p, ax (Aabb2.step b p).1 = Flt.fmin (ax b.1) (ax p) ∧ ax (Aabb2.step b p).2 = Flt.fmax (ax b.2) (ax p))
    {b : Aabb2 (Flt f)} {pts : List (V2 (Flt f))} (h : AxisOk2 ax b pts) (ps : List (V2 (Flt f))) :
    AxisOk2 ax (b.updateWithPoints ps) (pts ++ ps) := by
  cases ps with
  | nil => simpa [Aabb2.updateWithPoints] using h
  | cons p ps =>
    obtain ⟨_ | ⟨lo, hi⟩⟩ := b
    · simp only [AxisOk2] at h; subst h
      simp only [Aabb2.updateWithPoints, Option.isNone_none, if_true, Aabb2.updateWithPoint, AxisOk2]
      have := fr_foldl ax Aabb2.step hst (p :: ps) (p, p) [p] (fr_single _)
      exact fr_congr this (by simp)
    · simp only [Aabb2.updateWithPoints, Option.isNone_some, Bool.false_eq_true, if_false, AxisOk2] at h ⊢
      exact fr_foldl ax Aabb2.step hst (p :: ps) (lo, hi) pts h

theorem axis2_iter {ax : V2 (Flt f) → Flt f}
    (hst : ∀ b p, ax (Aabb2.step b p).1 = Flt.fmin (ax b.1) (ax p) ∧ ax (Aabb2.step b p).2 = Flt.fmax (ax b.2) (ax p))
    (ps : List (V2 (Flt f))) : ∀ {b : Aabb2 (Flt f)} {pts : List (V2 (Flt f))}, AxisOk2 ax b pts →
    AxisOk2 ax (ps.foldl Aabb2.updateWithPoint b) (pts ++ ps) := by
  induction ps with
  | nil => intro b pts h; simpa using h
  | cons p ps ih =>
    intro b pts h
    have := ih (axis2_point hst h p)
    simpa using this

theorem hist2_axis {ax : V2 (Flt f) → Flt f}
    (hst : ∀ b p, ax (Aabb2.step b p).1 = Flt.fmin (ax b.1) (ax p) ∧ ax (Aabb2.step b p).2 = Flt.fmax (ax b.2) (ax p))
    (h : Hist2 (Flt f)) : AxisOk2 ax h.run h.fed := by
  have hnone : AxisOk2 ax (⟨none⟩ : Aabb2 (Flt f)) [] := by simp [AxisOk2]
  induction h with
  | default => exact hnone
  | new p => exact fr_single _
  | withPoints ps =>
    have := axis2_points hst hnone ps
    simp only [List.nil_append] at this
    show AxisOk2 ax (Aabb2.withPoints ps) ps
    unfold Aabb2.withPoints
    cases ps with
    | nil => exact hnone
    | cons p ps => exact this
  | fromIter ps =>
    have := axis2_iter hst ps hnone
    simp only [List.nil_append] at this
    exact this
  | point h p ih => exact axis2_point hst ih p
  | points h ps ih => exact axis2_points hst ih ps
  | aabb h o ih1 ih2 =>
    show AxisOk2 ax (h.run.updateWithAabb o.run) (h.fed ++ o.fed)
    unfold Aabb2.updateWithAabb
    cases hb : o.run.minMax with
    | none =>
      unfold AxisOk2 at ih2
      rw [hb] at ih2
      simp only at ih2
      rw [ih2, List.append_nil]
      exact ih1
    | some mm =>
      obtain ⟨mi, ma⟩ := mm
      unfold AxisOk2 at ih2
      rw [hb] at ih2
      have h1 := axis2_point hst (axis2_point hst ih1 mi) ma
      simp only [AxisOk2] at h1 ⊢
      simp only at ih2
      split at h1
      · simp at h1
      · rename_i lo hi e
        rw [List.map_append]
        apply fr_merge (lo2 := ax mi) (hi2 := ax ma) _ ih2
        simpa using h1

/-- C76: whatever is fed to an `Aabb2`, in whatever way, every axis of the box goes from the least to the
greatest coordinate that is not NaN; there is no box iff nothing was fed. -/
theorem C76_box2_on_floats (h : Hist2 (Flt f)) :
    (h.run.minMax = none ↔ h.fed = []) ∧
    ∀ lo hi, h.run.minMax = some (lo, hi) →
      FloatRange lo.x hi.x (h.fed.map (·.x)) ∧ FloatRange lo.y hi.y (h.fed.map (·.y)) := by
  have hx := hist2_axis (f := f) (ax := fun p => p.x) (fun _ _ => ⟨rfl, rfl⟩) h
  have hy := hist2_axis (f := f) (ax := fun p => p.y) (fun _ _ => ⟨rfl, rfl⟩) h
  unfold AxisOk2 at hx hy
  cases e : h.run.minMax with
  | none =>
    rw [e] at hx
    exact ⟨⟨fun _ => hx, fun _ => rfl⟩, by intro lo hi h; cases h⟩
  | some mm =>
    obtain ⟨lo, hi⟩ := mm
    rw [e] at hx hy
    refine ⟨⟨fun h => (nomatch h), ?_⟩, ?_⟩
    · intro h0
      simp only at hx
      rw [h0] at hx
      rcases hx with ⟨h1, -⟩ | ⟨h1, -⟩
      · exact absurd rfl h1
      · cases h1
    · intro lo' hi' e'
      simp only [Option.some.injEq, Prod.mk.injEq] at e'
      obtain ⟨rfl, rfl⟩ := e'
      exact ⟨hx, hy⟩

/-- numbers at the same place are `ulps_eq` -/
theorem ulps_of_same {a b : Flt f} (ha : a ≠ .nan) (hb : b ≠ .nan) (h : ekey a = ekey b) : Flt.ulpsEq a b = true := by
  have fin : ∀ {a b : Flt f}, a.isFin = true → b.isFin = true → a.val = b.val → Flt.ulpsEq a b = true := by
    intro a b ha hb hv
    have h1 := is_sub (is_self ha) (is_self hb) (by rw [hv, sub_self, roundQ_zero, abs_zero]; exact pow2_pos _)
    rw [hv, sub_self, roundQ_zero] at h1
    unfold Flt.ulpsEq
    rw [is_le (is_abs h1) is_epsilon, abs_zero, decide_eq_true (pow2_pos _).le, if_pos rfl]
  have inf : ∀ s, Flt.ulpsEq (.inf s : Flt f) (.inf s) = true := by
    intro s
    cases s <;> simp [Flt.ulpsEq]
  have hv : ∀ {p q : ℚ}, ((p : WithTop ℚ) : WithBot (WithTop ℚ)) = ((q : WithTop ℚ) : WithBot (WithTop ℚ)) → p = q := by
    intro p q h
    exact WithTop.coe_injective (WithBot.coe_injective h)
  rcases a with _ | (_ | _) | _ | _ <;> rcases b with _ | (_ | _) | _ | _ <;>
    simp only [ne_eq, not_true_eq_false] at ha hb
  case inf.false.inf.false => exact inf _
  case inf.true.inf.true => exact inf _
  case zero.zero => exact fin rfl rfl rfl
  case zero.fin => exact fin rfl rfl (hv h)
  case fin.zero => exact fin rfl rfl (hv h)
  case fin.fin => exact fin rfl rfl (hv h)
  all_goals simp [ekey, WithBot.coe_inj, -WithBot.coe_top] at h

theorem lower_ok {a b : Flt f} (ha : a ≠ .nan) (hb : b ≠ .nan) (h : ekey a ≤ ekey b) :
    (Flt.lt a b || Flt.ulpsEq a b) = true := by
  rcases h.lt_or_eq with h | h
  · rw [lt_ekey ha hb, decide_eq_true h, Bool.true_or]
  · rw [ulps_of_same ha hb h, Bool.or_true]

theorem fr_mem {lo hi x : Flt f} {xs : List (Flt f)} (h : FloatRange lo hi xs) (hx : x ∈ xs) (hn : x ≠ .nan) :
    (Flt.lt lo x || Flt.ulpsEq lo x) = true ∧ (Flt.lt x hi || Flt.ulpsEq hi x) = true := by
  rcases h with ⟨-, -, -, h3⟩ | ⟨h1, h2, h3, h4, h5⟩
  · exact absurd (h3 x hx) hn
  · refine ⟨lower_ok h3 hn (h5 x hx hn).1, ?_⟩
    rcases (h5 x hx hn).2.lt_or_eq with h | h
    · rw [lt_ekey hn h4, decide_eq_true h, Bool.true_or]
    · rw [ulps_of_same h4 hn h.symm, Bool.or_true]

/-- C76: a box contains every fed point that has no NaN coordinate. -/
theorem C76_box2_contains_fed_on_floats (h : Hist2 (Flt f)) (p : V2 (Flt f)) (hp : p ∈ h.fed) (hx : p.x ≠ .nan)
    (hy : p.y ≠ .nan) : h.run.containsPoint p = true := by
  obtain ⟨h1, h2⟩ := C76_box2_on_floats h
  cases e : h.run.minMax with
  | none => rw [h1.1 e] at hp; cases hp
  | some mm =>
    obtain ⟨lo, hi⟩ := mm
    obtain ⟨a, b⟩ := h2 lo hi e
    obtain ⟨a1, a2⟩ := fr_mem a (List.mem_map_of_mem hp) hx
    obtain ⟨b1, b2⟩ := fr_mem b (List.mem_map_of_mem hp) hy
    unfold Aabb2.containsPoint
    rw [e]
    show Aabb2.containsPoint_ (lo, hi) p = true
    unfold Aabb2.containsPoint_
    simp only [Bool.and_eq_true]
    exact ⟨⟨⟨a1, b1⟩, a2⟩, b2⟩

theorem fr_unique {lo hi lo' hi' : Flt f} {xs ys : List (Flt f)} (h : FloatRange lo hi xs) (h' : FloatRange lo' hi' ys)
    (e : ∀ x, x ∈ xs ↔ x ∈ ys) : (lo = .nan ↔ lo' = .nan) ∧ ekey lo = ekey lo' ∧ ekey hi = ekey hi' := by
  have h := fr_congr h e
  rcases h with ⟨h0, h1, h2, h3⟩ | ⟨h1, h2, h3, h4, h5⟩ <;> rcases h' with ⟨g0, g1, g2, g3⟩ | ⟨g1, g2, g3, g4, g5⟩
  · simp [h1, h2, g1, g2]
  · exact absurd (h3 _ g1) g3
  · exact absurd (g3 _ h1) h3
  · exact ⟨⟨fun h => absurd h h3, fun h => absurd h g3⟩,
      le_antisymm (h5 _ g1 g3).1 (g5 _ h1 h3).1, le_antisymm (g5 _ h2 h4).2 (h5 _ g2 g4).2⟩

/-- C76: the box depends on the set of fed points only, not on their order or grouping (it may differ in the
sign of zeros). -/
theorem C76_box2_order_independent_on_floats (h g : Hist2 (Flt f)) (e : ∀ p, p ∈ h.fed ↔ p ∈ g.fed)
    (lo hi lo' hi' : V2 (Flt f)) (hh : h.run.minMax = some (lo, hi)) (hg : g.run.minMax = some (lo', hi')) :
    (lo.x = .nan ↔ lo'.x = .nan) ∧ (lo.y = .nan ↔ lo'.y = .nan) ∧ ekey lo.x = ekey lo'.x ∧ ekey lo.y = ekey lo'.y ∧
      ekey hi.x = ekey hi'.x ∧ ekey hi.y = ekey hi'.y := by
  obtain ⟨a1, a2⟩ := (C76_box2_on_floats h).2 lo hi hh
  obtain ⟨b1, b2⟩ := (C76_box2_on_floats g).2 lo' hi' hg
  obtain ⟨c1, c2, c3⟩ := fr_unique a1 b1 (by simp [e])
  obtain ⟨d1, d2, d3⟩ := fr_unique a2 b2 (by simp [e])
  exact ⟨c1, d1, c2, d2, c3, d3⟩

/-! ### 3D -/

theorem stepIf_num {b : V3 (Flt f) × V3 (Flt f)} {p : V3 (Flt f)} (hp : p.x ≠ .nan ∧ p.y ≠ .nan ∧ p.z ≠ .nan)
    (h1 : b.1.x ≠ .nan ∧ b.1.y ≠ .nan ∧ b.1.z ≠ .nan) (h2 : b.2.x ≠ .nan ∧ b.2.y ≠ .nan ∧ b.2.z ≠ .nan) :
    Aabb3.stepIf b p = Aabb3.step b p := by
  have e1 : ∀ {a b : Flt f}, a ≠ .nan → b ≠ .nan → (if Scalar.lt a b = true then a else b) = Scalar.fmin b a := by
    intro a b ha hb
    show (if Flt.lt a b = true then a else b) = Flt.fmin b a
    simp [Flt.fmin, ha, hb]
  have e2 : ∀ {a b : Flt f}, a ≠ .nan → b ≠ .nan → (if Scalar.gt a b = true then a else b) = Scalar.fmax b a := by
    intro a b ha hb
    show (if Flt.lt b a = true then a else b) = Flt.fmax b a
    simp [Flt.fmax, ha, hb]
  unfold Aabb3.stepIf Aabb3.step
  rw [e1 hp.1 h1.1, e1 hp.2.1 h1.2.1, e1 hp.2.2 h1.2.2, e2 hp.1 h2.1, e2 hp.2.1 h2.2.1, e2 hp.2.2 h2.2.2]

/-- the coordinates of a 3D box and the fed points -/
def BoxOk3 (b : Aabb3 (Flt f)) (pts : List (V3 (Flt f))) : Prop :=
  match b.minMax with
  | none => pts = []
  | some (lo, hi) => FloatRange lo.x hi.x (pts.map (·.x)) ∧ FloatRange lo.y hi.y (pts.map (·.y)) ∧
      FloatRange lo.z hi.z (pts.map (·.z))

/-- no coordinate is NaN -/
def NoNan3 (p : V3 (Flt f)) : Prop := p.x ≠ .nan ∧ p.y ≠ .nan ∧ p.z ≠ .nan

theorem fr_num {lo hi : Flt f} {xs : List (Flt f)} (h : FloatRange lo hi xs) (hn : ∀ x ∈ xs, x ≠ .nan) :
    lo ≠ .nan ∧ hi ≠ .nan := by
  rcases h with ⟨h0, -, -, h3⟩ | ⟨h1, h2, h3, h4, h5⟩
  · obtain ⟨x, hx⟩ := List.exists_mem_of_ne_nil _ h0
    exact absurd (h3 x hx) (hn x hx)
  · exact ⟨h3, h4⟩

theorem box3_fold (ps : List (V3 (Flt f))) (lo hi : V3 (Flt f)) (pts : List (V3 (Flt f)))
    (h : BoxOk3 ⟨some (lo, hi)⟩ pts) : BoxOk3 ⟨some (ps.foldl Aabb3.step (lo, hi))⟩ (pts ++ ps) := by
  obtain ⟨h1, h2, h3⟩ := h
  exact ⟨fr_foldl (fun p => p.x) Aabb3.step (fun _ _ => ⟨rfl, rfl⟩) ps (lo, hi) pts h1,
    fr_foldl (fun p => p.y) Aabb3.step (fun _ _ => ⟨rfl, rfl⟩) ps (lo, hi) pts h2,
    fr_foldl (fun p => p.z) Aabb3.step (fun _ _ => ⟨rfl, rfl⟩) ps (lo, hi) pts h3⟩

theorem box3_single (p : V3 (Flt f)) : BoxOk3 ⟨some (p, p)⟩ [p] := ⟨fr_single _, fr_single _, fr_single _⟩

theorem box3_congr {b : Aabb3 (Flt f)} {pts qts : List (V3 (Flt f))} (h : BoxOk3 b pts) (e : ∀ p, p ∈ pts ↔ p ∈ qts) :
    BoxOk3 b qts := by
  obtain ⟨_ | ⟨lo, hi⟩⟩ := b
  · simp only [BoxOk3] at h ⊢; subst h
    rw [List.eq_nil_iff_forall_not_mem]; intro p hp; simpa using (e p).2 hp
  · obtain ⟨h1, h2, h3⟩ := h
    exact ⟨fr_congr h1 (by simp [e]), fr_congr h2 (by simp [e]), fr_congr h3 (by simp [e])⟩

theorem box3_points {b : Aabb3 (Flt f)} {pts : List (V3 (Flt f))} (h : BoxOk3 b pts) (ps : List (V3 (Flt f))) :
    BoxOk3 (b.updateWithPoints ps) (pts ++ ps) := by
  cases ps with
  | nil => simpa [Aabb3.updateWithPoints] using h
  | cons p ps =>
    obtain ⟨_ | ⟨lo, hi⟩⟩ := b
    · simp only [BoxOk3] at h; subst h
      exact box3_congr (box3_fold (p :: ps) p p [p] (box3_single p)) (by simp)
    · exact box3_fold (p :: ps) lo hi pts h

theorem box3_point {b : Aabb3 (Flt f)} {pts : List (V3 (Flt f))} (h : BoxOk3 b pts) (hpts : ∀ q ∈ pts, NoNan3 q)
    (p : V3 (Flt f)) (hp : NoNan3 p) : BoxOk3 (b.updateWithPoint p) (pts ++ [p]) := by
  obtain ⟨_ | ⟨lo, hi⟩⟩ := b
  · simp only [BoxOk3] at h; subst h
    exact box3_single p
  · obtain ⟨h1, h2, h3⟩ := h
    have n1 := fr_num h1 (by simp; exact fun q hq => (hpts q hq).1)
    have n2 := fr_num h2 (by simp; exact fun q hq => (hpts q hq).2.1)
    have n3 := fr_num h3 (by simp; exact fun q hq => (hpts q hq).2.2)
    have e : Aabb3.updateWithPoint ⟨some (lo, hi)⟩ p = ⟨some ([p].foldl Aabb3.step (lo, hi))⟩ := by
      show (⟨some (Aabb3.stepIf (lo, hi) p)⟩ : Aabb3 (Flt f)) = _
      rw [stepIf_num hp ⟨n1.1, n2.1, n3.1⟩ ⟨n1.2, n2.2, n3.2⟩]
      rfl
    rw [e]
    exact box3_fold [p] lo hi pts ⟨h1, h2, h3⟩

/-- C76: the same for an `Aabb3` if no NaN is fed. -/
theorem C76_box3_on_floats (h : Hist3 (Flt f)) (hn : ∀ p ∈ h.fed, p.x ≠ .nan ∧ p.y ≠ .nan ∧ p.z ≠ .nan) :
    (h.run.minMax = none ↔ h.fed = []) ∧
    (∀ lo hi, h.run.minMax = some (lo, hi) →
      FloatRange lo.x hi.x (h.fed.map (·.x)) ∧ FloatRange lo.y hi.y (h.fed.map (·.y)) ∧
      FloatRange lo.z hi.z (h.fed.map (·.z))) ∧
    ∀ p ∈ h.fed, h.run.containsPoint p = true := by
  have main : BoxOk3 h.run h.fed := by
    have hnone : BoxOk3 (⟨none⟩ : Aabb3 (Flt f)) [] := rfl
    induction h with
    | default => exact hnone
    | withPoints ps =>
      have := box3_points hnone ps
      show BoxOk3 (Aabb3.withPoints ps) ps
      unfold Aabb3.withPoints
      cases ps with
      | nil => exact hnone
      | cons p ps => exact this
    | point h p ih =>
      have h1 : ∀ q ∈ h.fed, NoNan3 q := fun q hq => hn q (by simp [Hist3.fed, hq])
      exact box3_point (ih h1) h1 p (hn p (by simp [Hist3.fed]))
    | points h ps ih =>
      exact box3_points (ih (fun q hq => hn q (by simp [Hist3.fed, hq]))) ps
    | aabb h o ih1 ih2 =>
      have n1 : ∀ q ∈ h.fed, NoNan3 q := fun q hq => hn q (by simp [Hist3.fed, hq])
      have n2 : ∀ q ∈ o.fed, NoNan3 q := fun q hq => hn q (by simp [Hist3.fed, hq])
      have i1 := ih1 n1
      have i2 := ih2 n2
      show BoxOk3 (h.run.updateWithAabb o.run) (h.fed ++ o.fed)
      unfold Aabb3.updateWithAabb
      cases hb : o.run.minMax with
      | none =>
        unfold BoxOk3 at i2
        rw [hb] at i2
        simp only at i2
        rw [i2, List.append_nil]
        exact i1
      | some mm =>
        obtain ⟨mi, ma⟩ := mm
        unfold BoxOk3 at i2
        rw [hb] at i2
        obtain ⟨x2, y2, z2⟩ := i2
        have a1 := fr_num x2 (by simp; exact fun q hq => (n2 q hq).1)
        have a2 := fr_num y2 (by simp; exact fun q hq => (n2 q hq).2.1)
        have a3 := fr_num z2 (by simp; exact fun q hq => (n2 q hq).2.2)
        have nmi : NoNan3 mi := ⟨a1.1, a2.1, a3.1⟩
        have nma : NoNan3 ma := ⟨a1.2, a2.2, a3.2⟩
        have hmid := box3_point (box3_point i1 n1 mi nmi) (by
          intro q hq
          rcases List.mem_append.1 hq with hq | hq
          · exact n1 q hq
          · have : q = mi := by simpa using hq
            exact this ▸ nmi) ma nma
        simp only [BoxOk3] at hmid ⊢
        split at hmid
        · simp at hmid
        · obtain ⟨c1, c2, c3⟩ := hmid
          simp only [List.map_append]
          exact ⟨fr_merge (lo2 := mi.x) (hi2 := ma.x) (by simpa using c1) x2,
            fr_merge (lo2 := mi.y) (hi2 := ma.y) (by simpa using c2) y2,
            fr_merge (lo2 := mi.z) (hi2 := ma.z) (by simpa using c3) z2⟩
  unfold BoxOk3 at main
  cases e : h.run.minMax with
  | none =>
    rw [e] at main
    refine ⟨⟨fun _ => main, fun _ => rfl⟩, fun lo hi h => (nomatch h), ?_⟩
    intro p hp; simp only at main; rw [main] at hp; cases hp
  | some mm =>
    obtain ⟨lo, hi⟩ := mm
    rw [e] at main
    refine ⟨⟨fun h => (nomatch h), ?_⟩, ?_, ?_⟩
    · intro h0
      obtain ⟨hx, -⟩ := main
      rw [h0] at hx
      rcases hx with ⟨h1, -⟩ | ⟨h1, -⟩
      · exact absurd rfl h1
      · cases h1
    · intro lo' hi' e'
      simp only [Option.some.injEq, Prod.mk.injEq] at e'
      obtain ⟨rfl, rfl⟩ := e'
      exact main
    · intro p hp
      obtain ⟨a, b, c⟩ := main
      obtain ⟨px, py, pz⟩ := hn p hp
      obtain ⟨a1, a2⟩ := fr_mem a (List.mem_map_of_mem hp) px
      obtain ⟨b1, b2⟩ := fr_mem b (List.mem_map_of_mem hp) py
      obtain ⟨c1, c2⟩ := fr_mem c (List.mem_map_of_mem hp) pz
      unfold Aabb3.containsPoint
      rw [e]
      show Aabb3.containsPoint_ (lo, hi) p = true
      unfold Aabb3.containsPoint_
      simp only [Bool.and_eq_true]
      exact ⟨⟨⟨⟨⟨a1, b1⟩, c1⟩, a2⟩, b2⟩, c2⟩

/-- C76: `Aabb3::with_points` on arbitrary floats -/
theorem C76_with_points3_on_floats (ps : List (V3 (Flt f))) (lo hi : V3 (Flt f))
    (h : (Aabb3.withPoints ps).minMax = some (lo, hi)) :
    FloatRange lo.x hi.x (ps.map (·.x)) ∧ FloatRange lo.y hi.y (ps.map (·.y)) ∧ FloatRange lo.z hi.z (ps.map (·.z)) := by
  have := box3_points (f := f) (b := ⟨none⟩) (pts := []) rfl ps
  unfold Aabb3.withPoints at h
  cases ps with
  | nil => cases h
  | cons p ps =>
    simp only [List.isEmpty_cons, Bool.false_eq_true, if_false] at h
    unfold BoxOk3 at this
    rw [h] at this
    exact this

/-- C76 (finding): a NaN that comes first stays for ever if the points of an `Aabb3` are fed one by one
(`update_with_point`), but not if they are fed together (`update_with_points`, `with_points`) or to an
`Aabb2`. -/
theorem C76_nan_poisons_box3 :
    (Aabb3.updateWithPoint (Aabb3.updateWithPoint Aabb3.default ⟨.nan, .zero false, .zero false⟩)
        ⟨.zero false, .zero false, .zero false⟩ : Aabb3 (Flt f)) =
      ⟨some (⟨.nan, .zero false, .zero false⟩, ⟨.nan, .zero false, .zero false⟩)⟩ ∧
    (Aabb3.withPoints [⟨.nan, .zero false, .zero false⟩, ⟨.zero false, .zero false, .zero false⟩] : Aabb3 (Flt f)) =
      ⟨some (⟨.zero false, .zero false, .zero false⟩, ⟨.zero false, .zero false, .zero false⟩)⟩ ∧
    (Aabb2.updateWithPoint (Aabb2.updateWithPoint Aabb2.default ⟨.nan, .zero false⟩)
        ⟨.zero false, .zero false⟩ : Aabb2 (Flt f)) =
      ⟨some (⟨.zero false, .zero false⟩, ⟨.zero false, .zero false⟩)⟩ := by
  refine ⟨rfl, ?_, ?_⟩
  · simp [Aabb3.withPoints, Aabb3.updateWithPoints, Aabb3.updateWithPoint, Aabb3.step, Scalar.fmin, Scalar.fmax,
      Flt.fmin, Flt.fmax, Flt.lt, Flt.val]
  · simp [Aabb2.updateWithPoint, Aabb2.default, Aabb2.step, Scalar.fmin, Scalar.fmax,
      Flt.fmin, Flt.fmax, Flt.lt, Flt.val]

/-! ### the centre -/

theorem is_two : Is (Scalar.two : Flt f) 2 := by
  apply is_ofQ_repr
  have := repr_int f 2 (by
    have h1 : (2 : ℤ) ^ 1 ≤ 2 ^ f.prec := pow_le_pow_right₀ (by norm_num) (by have := f.hprec; omega)
    simpa using h1)
  simpa using this

/-- half of the sum of two numbers, as computed, is between them -/
theorem mid_between {l h : Flt f} (hl : l.isFin = true) (hh : h.isFin = true) (hle : l.val ≤ h.val)
    (hs : (Flt.add l h).isFin = true) :
    ∃ c, Is (Flt.div (Flt.add l h) Scalar.two) c ∧ l.val ≤ c ∧ c ≤ h.val := by
  obtain ⟨s, e⟩ := add_ofQ hl hh
  have hov : |roundQ f (l.val + h.val)| < pow2 f.emax := by
    by_contra hc
    rw [e] at hs
    unfold ofQ at hs
    rw [dif_neg hc] at hs
    exact absurd hs (by simp [isFin])
  have h1 := is_add (is_self hl) (is_self hh) hov
  obtain ⟨r1, n, a, hn, n1, n2⟩ := is_repr (is_self hl)
  obtain ⟨r2, m, b, hm, m1, m2⟩ := is_repr (is_self hh)
  have d1 : roundQ f (2 * l.val) = 2 * l.val := by
    have : 2 * l.val = n * pow2 (a + 1) := by rw [hn, pow2_add, pow2_eq 1]; norm_num; ring
    rw [this]; exact roundQ_fix f n (a + 1) n1.le (by omega)
  have d2 : roundQ f (2 * h.val) = 2 * h.val := by
    have : 2 * h.val = m * pow2 (b + 1) := by rw [hm, pow2_add, pow2_eq 1]; norm_num; ring
    rw [this]; exact roundQ_fix f m (b + 1) m1.le (by omega)
  have g1 : 2 * l.val ≤ roundQ f (l.val + h.val) := by rw [← d1]; exact roundQ_mono f (by linarith)
  have g2 : roundQ f (l.val + h.val) ≤ 2 * h.val := by rw [← d2]; exact roundQ_mono f (by linarith)
  have k1 : l.val ≤ roundQ f (roundQ f (l.val + h.val) / 2) := by
    have := roundQ_mono f (show l.val ≤ roundQ f (l.val + h.val) / 2 by linarith)
    rwa [(is_repr (is_self hl)).fix] at this
  have k2 : roundQ f (roundQ f (l.val + h.val) / 2) ≤ h.val := by
    have := roundQ_mono f (show roundQ f (l.val + h.val) / 2 ≤ h.val by linarith)
    rwa [(is_repr (is_self hh)).fix] at this
  refine ⟨_, is_div h1 is_two (by norm_num) ?_, k1, k2⟩
  rw [abs_lt] at r1 r2 ⊢
  exact ⟨by linarith [r1.1], by linarith [r2.2]⟩

/-- C76: the computed centre of a 2D box with finite corners lies in the box, unless the sum of the corners
overflows. -/
theorem C76_center2_on_floats (lo hi : V2 (Flt f)) (hlx : lo.x.isFin = true) (hly : lo.y.isFin = true)
    (hhx : hi.x.isFin = true) (hhy : hi.y.isFin = true) (hx : lo.x.val ≤ hi.x.val) (hy : lo.y.val ≤ hi.y.val)
    (sx : (Flt.add lo.x hi.x).isFin = true) (sy : (Flt.add lo.y hi.y).isFin = true) :
    ∃ c, (⟨some (lo, hi)⟩ : Aabb2 (Flt f)).center = some c ∧ c.x.isFin = true ∧ c.y.isFin = true ∧
      lo.x.val ≤ c.x.val ∧ c.x.val ≤ hi.x.val ∧ lo.y.val ≤ c.y.val ∧ c.y.val ≤ hi.y.val := by
  obtain ⟨u, a1, a2, a3⟩ := mid_between hlx hhx hx sx
  obtain ⟨v, b1, b2, b3⟩ := mid_between hly hhy hy sy
  refine ⟨_, rfl, a1.1, b1.1, ?_⟩
  rw [← a1.2] at a2 a3
  rw [← b1.2] at b2 b3
  exact ⟨a2, a3, b2, b3⟩

/-- C76: the same for a 3D box. -/
theorem C76_center3_on_floats (lo hi : V3 (Flt f)) (hlx : lo.x.isFin = true) (hly : lo.y.isFin = true)
    (hlz : lo.z.isFin = true) (hhx : hi.x.isFin = true) (hhy : hi.y.isFin = true) (hhz : hi.z.isFin = true)
    (hx : lo.x.val ≤ hi.x.val) (hy : lo.y.val ≤ hi.y.val) (hz : lo.z.val ≤ hi.z.val)
    (sx : (Flt.add lo.x hi.x).isFin = true) (sy : (Flt.add lo.y hi.y).isFin = true)
    (sz : (Flt.add lo.z hi.z).isFin = true) :
    ∃ c, (⟨some (lo, hi)⟩ : Aabb3 (Flt f)).center = some c ∧
      c.x.isFin = true ∧ c.y.isFin = true ∧ c.z.isFin = true ∧
      lo.x.val ≤ c.x.val ∧ c.x.val ≤ hi.x.val ∧ lo.y.val ≤ c.y.val ∧ c.y.val ≤ hi.y.val ∧
      lo.z.val ≤ c.z.val ∧ c.z.val ≤ hi.z.val := by
  obtain ⟨u, a1, a2, a3⟩ := mid_between hlx hhx hx sx
  obtain ⟨v, b1, b2, b3⟩ := mid_between hly hhy hy sy
  obtain ⟨w, c1, c2, c3⟩ := mid_between hlz hhz hz sz
  refine ⟨_, rfl, a1.1, b1.1, c1.1, ?_⟩
  rw [← a1.2] at a2 a3
  rw [← b1.2] at b2 b3
  rw [← c1.2] at c2 c3
  exact ⟨a2, a3, b2, b3, c2, c3⟩

theorem repr_huge : Repr f (pow2 (f.emax - 1)) := by
  refine ⟨?_, 1, f.emax - 1, by simp, ?_, ?_⟩
  · rw [abs_of_pos (pow2_pos _)]; exact pow2_lt (by omega)
  · have := f.hprec
    have h : (2 : ℤ) ^ 1 ≤ 2 ^ f.prec := pow_le_pow_right₀ (by norm_num) (by omega)
    simpa using lt_of_lt_of_le (by norm_num) h
  · have := f.hemin; have := f.hemax; have := f.hprec; omega

/-- the power of two of the largest binade -/
def huge : Flt f := .fin (pow2 (f.emax - 1)) ⟨pow2_ne _, repr_huge⟩

theorem huge_add : Flt.add (huge : Flt f) huge = .inf false := by
  obtain ⟨s, e⟩ := add_ofQ (f := f) (a := huge) (b := huge) rfl rfl
  rw [e]
  have hv : (huge : Flt f).val + (huge : Flt f).val = pow2 f.emax := by
    show pow2 (f.emax - 1) + pow2 (f.emax - 1) = pow2 f.emax
    have := pow2_add (f.emax - 1) 1
    rw [sub_add_cancel, pow2_eq 1] at this
    rw [this]; norm_num; ring
  rw [hv]
  have hr : roundQ f (pow2 f.emax) = pow2 f.emax := by
    have := roundQ_fix f 1 f.emax (by simpa using one_le_pow₀ (by norm_num)) (by have := f.hemin; have := f.hemax; omega)
    simpa using this
  unfold ofQ
  rw [dif_neg (by rw [hr, abs_of_pos (pow2_pos _)]; exact lt_irrefl _),
    decide_eq_false (not_lt.2 (pow2_pos _).le)]

theorem inf_half : Flt.div (.inf false : Flt f) Scalar.two = .inf false := by
  have key : ∀ t : Flt f, Is t 2 → Flt.div (.inf false : Flt f) t = .inf false := by
    rintro t ⟨h1, h2⟩
    cases t with
    | nan => cases h1
    | inf s => cases h1
    | zero s => exact absurd h2 (by simp only [Flt.val]; norm_num)
    | fin q hq =>
      have e : q = 2 := h2
      show (.inf (false != decide (q < 0)) : Flt f) = _
      rw [e, decide_eq_false (by norm_num)]; rfl
  exact key _ is_two

theorem huge_inf_ulps : Flt.ulpsEq (huge : Flt f) (.inf false) = false := by
  have hs : Flt.sub (huge : Flt f) (.inf false) = .inf true := rfl
  have he : Flt.le (.inf false) (Flt.epsilon : Flt f) = false := by
    have key : ∀ t : Flt f, t.isFin = true → Flt.le (.inf false) t = false := by
      intro t ht
      cases t with
      | nan => cases ht
      | inf s => cases ht
      | zero s => rfl
      | fin q hq => rfl
    exact key _ is_epsilon.1
  have ho : (huge : Flt f).ord = (f.emax - f.prec - f.emin + 1) * 2 ^ (f.prec - 1) := by
    show (ulpExp f (pow2 (f.emax - 1)) - f.emin) * 2 ^ (f.prec - 1)
      + (|pow2 (f.emax - 1)| / pow2 (ulpExp f (pow2 (f.emax - 1)))).floor = _
    have hl : ilog2 (pow2 (f.emax - 1)) = f.emax - 1 := ilog2_unique le_rfl (pow2_lt (by omega))
    have hu : ulpExp f (pow2 (f.emax - 1)) = f.emax - f.prec := by
      unfold ulpExp
      rw [abs_of_pos (pow2_pos _), hl]
      have := f.hemin; have := f.hemax; omega
    have hd : |pow2 (f.emax - 1)| / pow2 (f.emax - f.prec) = (((2 : ℤ) ^ (f.prec - 1) : ℤ) : ℚ) := by
      rw [abs_of_pos (pow2_pos _), div_eq_iff (pow2_ne _)]
      have h1 : f.emax - 1 = ((f.prec - 1 : ℕ) : ℤ) + (f.emax - f.prec) := by have := f.hprec; omega
      conv_lhs => rw [h1, pow2_add, pow2_nat]
      push_cast; rfl
    rw [hu, hd, Rat.floor_intCast]
    ring
  have hp : (16 : ℤ) ≤ 2 ^ (f.prec - 1) := by
    have : (2 : ℤ) ^ 4 ≤ 2 ^ (f.prec - 1) := pow_le_pow_right₀ (by norm_num) (by have := f.hprec; omega)
    simpa using this
  have hsg : (huge : Flt f).sign = false := decide_eq_false (not_lt.2 (pow2_pos _).le)
  unfold Flt.ulpsEq
  rw [hs, show (Flt.abs (.inf true) : Flt f) = .inf false from rfl, he, hsg, ho]
  have hne : (huge : Flt f) ≠ .nan := by simp [huge]
  have e2 : ((.inf false : Flt f)).ord = (f.emax - f.prec - f.emin + 2) * 2 ^ (f.prec - 1) := rfl
  rw [e2]
  have e3 : (f.emax - f.prec - f.emin + 1) * (2 : ℤ) ^ (f.prec - 1) - (f.emax - f.prec - f.emin + 2) * 2 ^ (f.prec - 1)
      = -(2 ^ (f.prec - 1)) := by ring
  rw [e3, abs_neg, abs_of_pos (by linarith)]
  simp [hne, Flt.sign]
  linarith

/-- C76 (finding): the centre of a box of one finite point may be infinite, and then it is not in the
box. -/
theorem C76_center_overflow :
    (Aabb2.new (⟨huge, huge⟩ : V2 (Flt f))).center = some ⟨.inf false, .inf false⟩ ∧
    (Aabb2.new (⟨huge, huge⟩ : V2 (Flt f))).containsPoint ⟨.inf false, .inf false⟩ = false := by
  constructor
  · show some (⟨Flt.div (Flt.add huge huge) Scalar.two, Flt.div (Flt.add huge huge) Scalar.two⟩ : V2 (Flt f)) = _
    rw [huge_add, inf_half]
  · show Aabb2.containsPoint_ ((⟨huge, huge⟩, ⟨huge, huge⟩) : V2 (Flt f) × V2 (Flt f)) ⟨.inf false, .inf false⟩ = false
    have h1 : Flt.lt (.inf false) (huge : Flt f) = false := rfl
    have h2 := huge_inf_ulps (f := f)
    have h3 : (Flt.lt (.inf false) (huge : Flt f) || Flt.ulpsEq (huge : Flt f) (.inf false)) = false := by
      rw [h1, h2]; rfl
    show (_ && (Flt.lt (.inf false) (huge : Flt f) || Flt.ulpsEq (huge : Flt f) (.inf false)) && _) = false
    rw [h3, Bool.and_false, Bool.false_and]

/-- a history with NaN and an infinity, in `f64` -/
example : (let _ : Libm b64 := ⟨fun _ _ => .nan⟩
    (Hist2.points (.new ⟨.nan, ofQ false 3⟩) [⟨ofQ false 2, .inf false⟩, ⟨ofQ false (-5), .nan⟩] : Hist2 F64).run.minMax
      = some (⟨ofQ false (-5), ofQ false 3⟩, ⟨ofQ false 2, .inf false⟩)) := by decide +kernel

/-- the hypotheses of the centre theorem: `0.1` and `0.3` as doubles -/
example : (let _ : Libm b64 := ⟨fun _ _ => .nan⟩
    (ofQ false (1 / 10) : F64).isFin = true ∧ (ofQ false (3 / 10) : F64).isFin = true ∧
    (ofQ false (1 / 10) : F64).val ≤ (ofQ false (3 / 10) : F64).val ∧
    (Flt.add (ofQ false (1 / 10)) (ofQ false (3 / 10)) : F64).isFin = true) := by decide +kernel

/-- the hypothesis of the 3D theorem -/
example : (let _ : Libm b64 := ⟨fun _ _ => .nan⟩
    ∀ p ∈ (Hist3.point (.withPoints [⟨ofQ false 2, .inf false, ofQ false (1 / 10)⟩]) ⟨ofQ false 3, .inf true, .zero true⟩ : Hist3 F64).fed,
      p.x ≠ .nan ∧ p.y ≠ .nan ∧ p.z ≠ .nan) := by decide +kernel

end Verif.Props
