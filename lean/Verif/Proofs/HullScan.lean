import Verif.Model.Hull
import Verif.Spec.Laws
import Verif.Spec.Hull
/-!
# The Graham scan in exact arithmetic: geometry
-/
set_option linter.unusedSectionVars false
set_option linter.unusedVariables false
namespace Verif.Hull
open Verif Verif.Spec
variable {K : Type} [Field K] [LinearOrder K] [IsStrictOrderedRing K]

/-- `a` is before `b` in the order (x, then y) -/
def LexLt (a b : V2 K) : Prop := a.x < b.x ∨ (a.x = b.x ∧ a.y < b.y)

theorem orient_swap (s a b : V2 K) : orient s b a = - orient s a b := by simp only [orient]; ring
theorem orient_rot (a b c : V2 K) : orient a b c = orient b c a := by simp only [orient]; ring
theorem orient_self (a b : V2 K) : orient a b a = 0 ∧ orient a b b = 0 ∧ orient a a b = 0 := by
  refine ⟨?_, ?_, ?_⟩ <;> simp only [orient] <;> ring

/-- angular order around a lexicographically minimal point is transitive -/
theorem ang_trans {s a b c : V2 K} (ha : LexLt s a) (hb : LexLt s b) (hc : LexLt s c)
    (h1 : 0 ≤ orient s a b) (h2 : 0 ≤ orient s b c) :
    0 ≤ orient s a c ∧ (0 < orient s a b ∨ 0 < orient s b c → 0 < orient s a c) := by
  have ix : (b.x - s.x) * orient s a c = (a.x - s.x) * orient s b c + (c.x - s.x) * orient s a b := by
    simp only [orient]; ring
  have iy : (b.y - s.y) * orient s a c = (a.y - s.y) * orient s b c + (c.y - s.y) * orient s a b := by
    simp only [orient]; ring
  rcases hb with hb | ⟨hb, hb'⟩
  · have hbx : 0 < b.x - s.x := sub_pos.2 hb
    have hax : 0 ≤ a.x - s.x := by
      rcases ha with h | ⟨h, -⟩ <;> linarith
    have hcx : 0 ≤ c.x - s.x := by
      rcases hc with h | ⟨h, -⟩ <;> linarith
    refine ⟨nonneg_of_mul_nonneg_right (by rw [ix]; positivity) hbx, fun h => ?_⟩
    refine pos_of_mul_pos_right (a := b.x - s.x) (?_) hbx.le
    rw [ix]
    rcases hc with hc | ⟨hc, hc'⟩
    · rcases ha with ha | ⟨ha, ha'⟩
      · have := sub_pos.2 ha
        have := sub_pos.2 hc
        rcases h with h | h
        · have := mul_nonneg hax h2
          have := mul_pos (sub_pos.2 hc) h
          linarith
        · have := mul_pos (sub_pos.2 ha) h
          have := mul_nonneg hcx h1
          linarith
      · -- a is vertical: b cannot be left of it
        exfalso
        have : orient s a b = -((a.y - s.y) * (b.x - s.x)) := by simp only [orient, ha]; ring
        have := mul_pos (sub_pos.2 ha') hbx
        linarith
    · rcases ha with ha | ⟨ha, ha'⟩
      · have e : orient s b c = (b.x - s.x) * (c.y - s.y) := by simp only [orient, hc]; ring
        have h3 : 0 < orient s b c := by rw [e]; exact mul_pos hbx (sub_pos.2 hc')
        have := mul_pos (sub_pos.2 ha) h3
        have := mul_nonneg hcx h1
        linarith
      · exfalso
        have : orient s a b = -((a.y - s.y) * (b.x - s.x)) := by simp only [orient, ha]; ring
        have := mul_pos (sub_pos.2 ha') hbx
        linarith
  · -- b is vertical, so is c
    have hby : 0 < b.y - s.y := sub_pos.2 hb'
    have e : orient s b c = -((b.y - s.y) * (c.x - s.x)) := by simp only [orient, hb]; ring
    have hcx : c.x = s.x := by
      rcases hc with hc | ⟨hc, -⟩
      · have := mul_pos hby (sub_pos.2 hc)
        linarith
      · exact hc.symm
    have hcy : 0 < c.y - s.y := by
      rcases hc with hc | ⟨-, hc⟩
      · exact absurd hcx.symm hc.ne
      · exact sub_pos.2 hc
    have e2 : orient s b c = 0 := by rw [e, hcx]; ring
    have e3 : orient s a c = (a.x - s.x) * (c.y - s.y) := by simp only [orient, hcx]; ring
    have e4 : orient s a b = (a.x - s.x) * (b.y - s.y) := by simp only [orient, hb]; ring
    have hax : 0 ≤ a.x - s.x := by
      rcases ha with h | ⟨h, -⟩ <;> linarith
    refine ⟨by rw [e3]; positivity, ?_⟩
    rintro (h | h)
    · rw [e3]
      rw [e4] at h
      have : 0 < a.x - s.x := pos_of_mul_pos_left h hby.le
      positivity
    · rw [e2] at h; exact absurd h (lt_irrefl _)

/-- collinear with `s` and not farther: on the segment -/
theorem on_segment_of_collinear {s a x : V2 K} (ha : LexLt s a) (hx : LexLt s x)
    (h : orient s a x = 0) (hd : sqDist2 s x ≤ sqDist2 s a) :
    ∃ c : K, 0 ≤ c ∧ c ≤ 1 ∧ x.x - s.x = c * (a.x - s.x) ∧ x.y - s.y = c * (a.y - s.y) := by
  obtain ⟨A, hA⟩ : ∃ A, A = a.x - s.x := ⟨_, rfl⟩
  obtain ⟨B, hB⟩ : ∃ B, B = a.y - s.y := ⟨_, rfl⟩
  obtain ⟨X, hX⟩ : ∃ X, X = x.x - s.x := ⟨_, rfl⟩
  obtain ⟨Y, hY⟩ : ∃ Y, Y = x.y - s.y := ⟨_, rfl⟩
  have hc : A * Y = B * X := by
    simp only [orient] at h
    rw [hA, hB, hX, hY]; linear_combination h
  have hd' : X ^ 2 + Y ^ 2 ≤ A ^ 2 + B ^ 2 := by
    simp only [sqDist2] at hd
    rw [hA, hB, hX, hY]
    calc _ = (s.x - x.x) ^ 2 + (s.y - x.y) ^ 2 := by ring
      _ ≤ _ := hd
      _ = _ := by ring
  have ha' : 0 < A ∨ (A = 0 ∧ 0 < B) := by
    rcases ha with h | ⟨h, h'⟩
    · left; rw [hA]; exact sub_pos.2 h
    · right; exact ⟨by rw [hA, h]; ring, by rw [hB]; exact sub_pos.2 h'⟩
  have hx' : 0 < X ∨ (X = 0 ∧ 0 < Y) := by
    rcases hx with h | ⟨h, h'⟩
    · left; rw [hX]; exact sub_pos.2 h
    · right; exact ⟨by rw [hX, h]; ring, by rw [hY]; exact sub_pos.2 h'⟩
  rw [← hA, ← hB, ← hX, ← hY]
  have key : ∃ c : K, 0 ≤ c ∧ X = c * A ∧ Y = c * B := by
    rcases ha' with hp | ⟨hz, hp⟩
    · refine ⟨X / A, ?_, ?_, ?_⟩
      · rcases hx' with h | ⟨h, -⟩
        · positivity
        · rw [h]; simp
      · field_simp
      · rw [div_mul_eq_mul_div, eq_div_iff hp.ne']; linear_combination hc
    · rw [hz, zero_mul, eq_comm, mul_eq_zero] at hc
      have hX0 : X = 0 := hc.resolve_left hp.ne'
      rcases hx' with h | ⟨h, h'⟩
      · exact absurd hX0 h.ne'
      · exact ⟨Y / B, by positivity, by rw [hX0, hz]; ring, by field_simp⟩
  obtain ⟨c, hc0, e1, e2⟩ := key
  refine ⟨c, hc0, ?_, e1, e2⟩
  rw [e1, e2] at hd'
  have hpos : 0 < A ^ 2 + B ^ 2 := by
    rcases ha' with hp | ⟨hz, hp⟩ <;> positivity
  by_contra hlt
  have h1 : 1 < c := not_le.1 hlt
  have h2 : 1 < c ^ 2 := by nlinarith
  have : (c * A) ^ 2 + (c * B) ^ 2 = c ^ 2 * (A ^ 2 + B ^ 2) := by ring
  rw [this] at hd'
  nlinarith

/-- the pop loop on points -/
def popPts (p : V2 K) : List (V2 K) → List (V2 K)
  | a :: b :: rest => if orient b a p ≤ 0 then popPts p (b :: rest) else a :: b :: rest
  | l => l

/-- `p` comes after `x` in the order of the sort: larger angle, or same angle and not closer -/
def After (s x p : V2 K) : Prop := 0 < orient s x p ∨ (orient s x p = 0 ∧ sqDist2 s x ≤ sqDist2 s p)

/-- the invariant of the stack (top first) after the points `xs` -/
def Chain (s : V2 K) (xs : List (V2 K)) : List (V2 K) → Prop
  | [] => False
  | [z] => z = s
  | [a, z] => z = s ∧ LexLt s a ∧ a ∈ xs ∧
      ∀ x ∈ xs, 0 ≤ orient s a x ∧ (orient s a x = 0 → sqDist2 s x ≤ sqDist2 s a)
  | a :: b :: c :: rest => LexLt s a ∧ a ∈ xs ∧ 0 < orient c b a ∧ 0 < orient s b a ∧
      (∀ x ∈ xs, 0 ≤ orient b a x) ∧ Chain s xs (b :: c :: rest)

/-- Lemma A: a strict left turn that stays in angular order is left of the edge before -/
theorem left_of_previous {s z a b p : V2 K} (h1 : 0 < orient z a b) (h2 : 0 < orient a b p)
    (h3 : 0 < orient s a b) (h4 : 0 ≤ orient s z a) (h5 : 0 < orient s a p) : 0 < orient z a p := by
  have key : orient z a p * orient s a b = orient z a b * orient s a p + orient s z a * orient a b p := by
    simp only [orient]; ring
  have : 0 < orient z a p * orient s a b := by
    rw [key]
    have := mul_pos h1 h5
    have := mul_nonneg h4 h2.le
    linarith
  exact pos_of_mul_pos_left this h3.le

/-- a point on the segment from `s` to `a` is left of `a → p` if `p` is left of `s → a` -/
theorem left_of_segment {s a p x : V2 K} {c : K} (hc1 : c ≤ 1) (ex : x.x - s.x = c * (a.x - s.x))
    (ey : x.y - s.y = c * (a.y - s.y)) (h : 0 ≤ orient s a p) : 0 ≤ orient a p x := by
  have : orient a p x = (1 - c) * orient s a p := by
    simp only [orient]
    have e1 : x.x = s.x + c * (a.x - s.x) := by linear_combination ex
    have e2 : x.y = s.y + c * (a.y - s.y) := by linear_combination ey
    rw [e1, e2]; ring
  rw [this]
  exact mul_nonneg (by linarith) h

/-- a collinear farther point does not turn left -/
theorem no_left_turn_collinear {s a b p : V2 K} (ha : LexLt s a) (hp : LexLt s p)
    (hba : 0 < orient s b a) (h : orient s a p = 0) (hd : sqDist2 s a ≤ sqDist2 s p) :
    orient b a p ≤ 0 := by
  obtain ⟨c, h0, h1, ex, ey⟩ := on_segment_of_collinear hp ha (by rw [orient_swap, h, neg_zero]) hd
  -- a = s + c (p - s)
  have hcp : c ≠ 0 := by
    rintro rfl
    simp only [zero_mul] at ex ey
    rcases ha with h | ⟨h, h'⟩ <;> linarith
  have hc : 0 < c := lt_of_le_of_ne h0 (Ne.symm hcp)
  have key : c * orient b a p = (c - 1) * orient s b a := by
    simp only [orient]
    have e1 : a.x = s.x + c * (p.x - s.x) := by linear_combination ex
    have e2 : a.y = s.y + c * (p.y - s.y) := by linear_combination ey
    rw [e1, e2]; ring
  have : c * orient b a p ≤ 0 := by
    rw [key]; exact mul_nonpos_of_nonpos_of_nonneg (by linarith) hba.le
  exact nonpos_of_mul_nonpos_right this hc

/-- all stack entries above the bottom are after `s` -/
theorem Chain.top_lex {s : V2 K} {xs : List (V2 K)} {a b : V2 K} {rest : List (V2 K)}
    (h : Chain s xs (a :: b :: rest)) : LexLt s a ∧ a ∈ xs := by
  cases rest with
  | nil => exact ⟨h.2.1, h.2.2.1⟩
  | cons c rest => exact ⟨h.1, h.2.1⟩

/-- a point strictly left of the top edge can be added to the points of the chain -/
theorem Chain.lift {s p : V2 K} {xs : List (V2 K)} (hp : LexLt s p) : ∀ (st : List (V2 K)) (a b : V2 K),
    Chain s xs (a :: b :: st) → 0 < orient b a p → 0 < orient s a p → Chain s (p :: xs) (a :: b :: st) := by
  intro st
  induction st with
  | nil =>
    rintro a b ⟨rfl, ha, hm, hx⟩ h1 h2
    refine ⟨rfl, ha, List.mem_cons_of_mem _ hm, fun x hx' => ?_⟩
    rcases List.mem_cons.1 hx' with rfl | hx'
    · exact ⟨h2.le, fun e => absurd e h2.ne'⟩
    · exact hx x hx'
  | cons c rest ih =>
    rintro a b ⟨ha, hm, ht, hs, hx, hch⟩ h1 h2
    have hb := hch.top_lex.1
    have hbp : 0 < orient s b p := (ang_trans hb ha hp hs.le h2.le).2 (Or.inl hs)
    have hcb : 0 ≤ orient s c b := by
      cases rest with
      | nil => rw [hch.1]; exact le_of_eq (orient_self _ _).2.2.symm
      | cons d rest => exact hch.2.2.2.1.le
    have hcp : 0 < orient c b p := left_of_previous ht h1 hs hcb hbp
    refine ⟨ha, List.mem_cons_of_mem _ hm, ht, hs, fun x hx' => ?_, ih b c hch hcp hbp⟩
    rcases List.mem_cons.1 hx' with rfl | hx'
    · exact h1.le
    · exact hx x hx'

/-- what is known about the part of the stack above `a`: nothing was popped (then `a` has the largest
angle), or the last popped point was `v` -/
def Popped (s p : V2 K) (xs : List (V2 K)) (a : V2 K) : Prop :=
  (∀ x ∈ xs, 0 ≤ orient s x a) ∨
  ∃ v, v ∈ xs ∧ 0 ≤ orient s a v ∧ (a ≠ s → 0 < orient s a v) ∧ orient a v p ≤ 0 ∧ ∀ x ∈ xs, 0 ≤ orient a v x

/-- popping keeps the invariant -/
theorem pop_chain {s p : V2 K} {xs : List (V2 K)} (hp : LexLt s p) (hlex : ∀ x ∈ xs, LexLt s x)
    (hafter : ∀ x ∈ xs, After s x p) : ∀ (st : List (V2 K)) (a : V2 K), Chain s xs (a :: st) →
    (st = [] → xs = [] ∨ ∃ v, v ∈ xs ∧ orient s v p ≤ 0 ∧ ∀ x ∈ xs, 0 ≤ orient s v x) →
    (st ≠ [] → Popped s p xs a) →
    Chain s (p :: xs) (p :: popPts p (a :: st)) := by
  have hge : ∀ x ∈ xs, 0 ≤ orient s x p := by
    intro x hx
    rcases hafter x hx with h | ⟨h, -⟩
    · exact h.le
    · exact h.ge
  intro st
  induction st with
  | nil =>
    intro a hc h1 h2
    obtain rfl : a = s := hc
    refine ⟨rfl, hp, List.mem_cons_self, fun x hx => ?_⟩
    rcases List.mem_cons.1 hx with rfl | hx
    · exact ⟨(orient_self _ _).2.1.ge, fun _ => le_refl _⟩
    · rcases h1 rfl with rfl | ⟨v, hv, hvp, hvx⟩
      · cases hx
      · have hvp' : orient a v p = 0 := le_antisymm hvp (hge v hv)
        have hxp : orient a x p = 0 := by
          refine le_antisymm ?_ (hge x hx)
          by_contra hlt
          have := (ang_trans (hlex v hv) (hlex x hx) hp (hvx x hx) (hge x hx)).2 (Or.inr (not_le.1 hlt))
          exact absurd hvp' this.ne'
        refine ⟨by rw [orient_swap, hxp, neg_zero], fun _ => ?_⟩
        rcases hafter x hx with h | ⟨-, h⟩
        · exact absurd hxp h.ne'
        · exact h
  | cons b st ih =>
    intro a hc h1 h2
    have hpop := h2 (List.cons_ne_nil _ _)
    have ha := hc.top_lex
    have hane : a ≠ s := by
      rintro rfl
      rcases ha.1 with h | ⟨h, h'⟩
      · exact lt_irrefl _ h
      · exact lt_irrefl _ h'
    by_cases ht : orient b a p ≤ 0
    · -- pop
      rw [show popPts p (a :: b :: st) = popPts p (b :: st) by rw [popPts, if_pos ht]]
      cases st with
      | nil =>
        refine ih b hc.1 (fun _ => Or.inr ⟨a, ha.2, ?_, fun x hx => (hc.2.2.2 x hx).1⟩) (by simp)
        rw [← hc.1]; exact ht
      | cons c rest =>
        obtain ⟨-, hm, htu, hs, hx, hch⟩ := hc
        refine ih b hch (by simp) (fun _ => Or.inr ⟨a, hm, hs.le, fun _ => hs, ht, hx⟩)
    · -- push
      have ht := not_le.1 ht
      rw [show popPts p (a :: b :: st) = a :: b :: st by rw [popPts, if_neg (not_le.2 ht)]]
      have hap : 0 < orient s a p := by
        cases st with
        | nil => rw [hc.1] at ht; exact ht
        | cons c rest =>
          rcases hafter a ha.2 with h | ⟨h, hd⟩
          · exact h
          · exact absurd (no_left_turn_collinear ha.1 hp hc.2.2.2.1 h hd) (not_le.2 ht)
      refine ⟨hp, List.mem_cons_self, ht, hap, fun x hx => ?_, hc.lift hp st a b ht hap⟩
      rcases List.mem_cons.1 hx with rfl | hx
      · exact (orient_self _ _).2.1.ge
      -- the points processed before
      rcases le_or_gt 0 (orient s x a) with hbef | haft
      · -- x is before a
        cases st with
        | nil =>
          obtain ⟨rfl, -, -, hseg⟩ := hc
          have h0 : orient b a x = 0 := by
            refine le_antisymm ?_ (hseg x hx).1
            rw [orient_swap]; linarith
          obtain ⟨c, hc0, hc1, ex, ey⟩ := on_segment_of_collinear ha.1 (hlex x hx) h0 ((hseg x hx).2 h0)
          exact left_of_segment hc1 ex ey hap.le
        | cons c rest =>
          obtain ⟨-, -, -, hs, hbx, -⟩ := hc
          have key : orient s b a * orient a p x = orient b a x * orient s a p + orient b a p * orient s x a := by
            simp only [orient]; ring
          have : 0 ≤ orient s b a * orient a p x := by
            rw [key]
            have := mul_nonneg (hbx x hx) hap.le
            have := mul_nonneg ht.le hbef
            linarith
          exact nonneg_of_mul_nonneg_right this hs
      · -- x is after a
        rcases hpop with hmax | ⟨v, hv, -, hav, hvp, hvx⟩
        · exact absurd (hmax x hx) (not_le.2 haft)
        · have hav := hav hane
          have key : orient s a v * orient a p x = orient a v x * orient s a p + orient a v p * orient s x a := by
            simp only [orient]; ring
          have : 0 ≤ orient s a v * orient a p x := by
            rw [key]
            have := mul_nonneg (hvx x hx) hap.le
            have := mul_nonneg_of_nonpos_of_nonpos hvp haft.le
            linarith
          exact nonneg_of_mul_nonneg_right this hav

end Verif.Hull
