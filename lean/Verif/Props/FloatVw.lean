import Verif.Proofs.FloatSimplify
import Verif.Props.Vw
import Verif.Props.FloatRdp
import Verif.Props.FloatGraham
/-!
# C81: `simplify_vw` in floating point

All that C12, C13 and C15 say holds for all finite coordinates that are not too large, because then no computed
area is NaN (it may be infinite).  On a grid the deleted point of the plane is the one with the least exact area,
and in space the one with the least area up to a relative error.
-/
set_option linter.unusedSectionVars false
set_option linter.unusedVariables false
namespace Verif.Props
open Verif Verif.Spec Verif.Model Fl Flt Verif.Proofs.FloatHull Verif.Proofs.FloatIntersect Verif.Proofs.FloatSimplify
variable {f : Fmt} [Libm f]

/-! ## Comparisons of floats are total but for NaN -/

theorem le_ekey {a b : Flt f} (ha : a ≠ .nan) (hb : b ≠ .nan) : Scalar.le a b = decide (ekey a ≤ ekey b) := by
  show (Flt.lt a b || Flt.beq a b) = _
  rw [lt_ekey ha hb, eq_ekey ha hb, ← Bool.decide_or]; exact decide_eq_decide.2 le_iff_lt_or_eq.symm

/-- C81: floats that are not NaN are totally ordered by `<=`. -/
theorem C81_floats_total (f : Fmt) [Libm f] : TotalOn (α := Flt f) (fun x => x ≠ .nan) := by
  refine ⟨?_, ?_, ?_, ?_⟩
  · intro a b ha hb
    rw [le_ekey ha hb, le_ekey hb ha, decide_eq_true_iff, decide_eq_true_iff]; exact le_total _ _
  · intro a b c ha hb hc
    rw [le_ekey ha hb, le_ekey hb hc, le_ekey ha hc, decide_eq_true_iff, decide_eq_true_iff, decide_eq_true_iff]
    exact le_trans
  · intro a b ha hb h
    have h : Flt.beq a b = true := h
    rw [eq_ekey ha hb, decide_eq_true_iff] at h
    rw [le_ekey ha hb, le_ekey hb ha, decide_eq_true_iff, decide_eq_true_iff, h]
    exact ⟨le_refl _, le_refl _⟩
  · intro a ha
    show Flt.beq a a = true
    rw [eq_ekey ha ha, decide_eq_true_iff]

/-! ## Areas are not NaN -/

/-- finite and of absolute value at most `n * 2^k` -/
def Bd (n k : ℤ) (x : Flt f) : Prop := x.isFin = true ∧ |x.val| ≤ n * pow2 k

theorem bd_round {n k : ℤ} {q : ℚ} (hn : |n| ≤ 32) (hk : f.emin ≤ k) (h : |q| ≤ n * pow2 k) :
    |roundQ f q| ≤ n * pow2 k := by
  have h2 : (32 : ℤ) ≤ 2 ^ f.prec := by
    calc (32 : ℤ) = 2 ^ 5 := by norm_num
      _ ≤ 2 ^ f.prec := pow_le_pow_right₀ (by norm_num) f.hprec
  have e := roundQ_fix f n k (hn.trans h2) hk
  have h' := abs_le.1 h
  refine abs_le.2 ⟨?_, ?_⟩
  · rw [← e, ← roundQ_neg]; exact roundQ_mono f h'.1
  · rw [← e]; exact roundQ_mono f h'.2

theorem bd_lim {n k : ℤ} (hn : n ≤ 8) (h : k + 3 < f.emax) : (n : ℚ) * pow2 k < pow2 f.emax := by
  have h1 : (n : ℚ) ≤ 8 := by exact_mod_cast hn
  calc (n : ℚ) * pow2 k ≤ 8 * pow2 k := mul_le_mul_of_nonneg_right h1 (pow2_pos k).le
    _ = pow2 (k + 3) := by rw [pow2_add, pow2_eq 3]; norm_num; ring
    _ < pow2 f.emax := pow2_lt h

theorem Bd.mul {m n k l : ℤ} {x y : Flt f} (hx : Bd m k x) (hy : Bd n l y) (h0 : 0 ≤ m) (hmn : |m * n| ≤ 8)
    (hk : f.emin ≤ k + l) (hm : k + l + 3 < f.emax) : Bd (m * n) (k + l) (Scalar.mul x y) := by
  have hq : |x.val * y.val| ≤ (m * n : ℤ) * pow2 (k + l) := by
    rw [abs_mul, pow2_add]; push_cast
    calc |x.val| * |y.val| ≤ (m * pow2 k) * (n * pow2 l) :=
          mul_le_mul hx.2 hy.2 (abs_nonneg _) (mul_nonneg (by exact_mod_cast h0) (pow2_pos k).le)
      _ = _ := by ring
  have hr := bd_round (f := f) (hmn.trans (by norm_num)) hk hq
  have e := is_mul (is_self hx.1) (is_self hy.1) (lt_of_le_of_lt hr (bd_lim (le_of_abs_le hmn) hm))
  exact ⟨e.1, (congrArg (fun q : ℚ => |q|) e.2).le.trans hr⟩

theorem Bd.add {m n k : ℤ} {x y : Flt f} (hx : Bd m k x) (hy : Bd n k y) (hmn : |m + n| ≤ 8)
    (hk : f.emin ≤ k) (hm : k + 3 < f.emax) : Bd (m + n) k (Scalar.add x y) := by
  have hq : |x.val + y.val| ≤ (m + n : ℤ) * pow2 k := by
    push_cast
    have := abs_add_le x.val y.val
    have := hx.2; have := hy.2
    linarith
  have hr := bd_round (f := f) (hmn.trans (by norm_num)) hk hq
  have e := is_add (is_self hx.1) (is_self hy.1) (lt_of_le_of_lt hr (bd_lim (le_of_abs_le hmn) hm))
  exact ⟨e.1, (congrArg (fun q : ℚ => |q|) e.2).le.trans hr⟩

theorem Bd.sub {m n k : ℤ} {x y : Flt f} (hx : Bd m k x) (hy : Bd n k y) (hmn : |m + n| ≤ 8)
    (hk : f.emin ≤ k) (hm : k + 3 < f.emax) : Bd (m + n) k (Scalar.sub x y) := by
  have hq : |x.val - y.val| ≤ (m + n : ℤ) * pow2 k := by
    push_cast
    have := abs_sub x.val y.val
    have := hx.2; have := hy.2
    linarith
  have hr := bd_round (f := f) (hmn.trans (by norm_num)) hk hq
  have e := is_sub (is_self hx.1) (is_self hy.1) (lt_of_le_of_lt hr (bd_lim (le_of_abs_le hmn) hm))
  exact ⟨e.1, (congrArg (fun q : ℚ => |q|) e.2).le.trans hr⟩

/-- not NaN and not negative -/
def NonNeg (x : Flt f) : Prop := x = .inf false ∨ x.isFin = true ∧ 0 ≤ x.val

theorem NonNeg.ne_nan {x : Flt f} (h : NonNeg x) : x ≠ .nan := by
  rintro rfl
  rcases h with h | h
  · cases h
  · cases h.1

theorem nonNeg_ofQ {q : ℚ} (h : 0 ≤ q) (s : Bool) : NonNeg (Flt.ofQ s q : Flt f) := by
  by_cases hl : |roundQ f q| < pow2 f.emax
  · have e := is_ofQ (f := f) s hl
    exact .inr ⟨e.1, by rw [e.2]; exact roundQ_nonneg f h⟩
  · refine .inl ?_
    unfold Flt.ofQ
    rw [dif_neg hl, decide_eq_false (not_lt.2 h)]

theorem nonNeg_sq {x : Flt f} (h : x.isFin = true) : NonNeg (Scalar.mul x x) := by
  have e : Scalar.mul x x = Flt.mul x x := rfl
  rw [e, mul_ofQ h h]
  exact nonNeg_ofQ (mul_self_nonneg _) _

theorem NonNeg.add {x y : Flt f} (hx : NonNeg x) (hy : NonNeg y) : NonNeg (Scalar.add x y) := by
  have e : Scalar.add x y = Flt.add x y := rfl
  rw [e]
  rcases hx with rfl | ⟨hx, hx'⟩
  · rcases hy with rfl | ⟨hy, -⟩
    · exact .inl rfl
    · left; cases y <;> first | rfl | cases hy
  · rcases hy with rfl | ⟨hy, hy'⟩
    · left; cases x <;> first | rfl | cases hx
    · rcases x with _ | _ | a | ⟨q, hq⟩
      · cases hx
      · cases hx
      · rcases y with _ | _ | b | ⟨r, hr⟩
        · cases hy
        · cases hy
        · exact .inr ⟨rfl, le_refl _⟩
        · exact nonNeg_ofQ (by show 0 ≤ (0 : ℚ) + r; rw [zero_add]; exact hy') _
      · have : (Flt.add (.fin q hq) y : Flt f) = Flt.ofQ false (q + y.val) := by
          cases y <;> first | rfl | cases hy
        rw [this]
        exact nonNeg_ofQ (add_nonneg hx' hy') _

/-- the coordinates are finite and of absolute value at most `2^m` -/
def Upto2 (m : ℤ) (p : V2 (Flt f)) : Prop :=
  (p.x.isFin = true ∧ |p.x.val| ≤ (2 : ℚ) ^ m) ∧ (p.y.isFin = true ∧ |p.y.val| ≤ (2 : ℚ) ^ m)
/-- the same in space -/
def Upto3 (m : ℤ) (p : V3 (Flt f)) : Prop :=
  (p.x.isFin = true ∧ |p.x.val| ≤ (2 : ℚ) ^ m) ∧ (p.y.isFin = true ∧ |p.y.val| ≤ (2 : ℚ) ^ m) ∧
    (p.z.isFin = true ∧ |p.z.val| ≤ (2 : ℚ) ^ m)

theorem bd_coord {m : ℤ} {x : Flt f} (h : x.isFin = true ∧ |x.val| ≤ (2 : ℚ) ^ m) : Bd 1 m x :=
  ⟨h.1, by rw [pow2_eq, Int.cast_one, one_mul]; exact h.2⟩

theorem area2_not_nan {m : ℤ} (h0 : 0 ≤ m) (hm : 2 * m + 3 < f.emax) {a b c : V2 (Flt f)} (ha : Upto2 m a)
    (hb : Upto2 m b) (hc : Upto2 m c) : triangleArea2 a b c ≠ .nan := by
  have hlo : f.emin ≤ m + m := by have := f.hemin; omega
  have hhi : m + m + 3 < f.emax := by omega
  have p : ∀ {x y : Flt f}, Bd 1 m x → Bd 1 m y → Bd 1 (m + m) (Scalar.mul x y) := fun hx hy => by
    have := Bd.mul hx hy (by norm_num) (by norm_num) hlo hhi
    simpa using this
  have a1 := bd_coord ha.1; have a2 := bd_coord ha.2
  have b1 := bd_coord hb.1; have b2 := bd_coord hb.2
  have c1 := bd_coord hc.1; have c2 := bd_coord hc.2
  have s1 := Bd.add (p a1 b2) (p b1 c2) (by norm_num) hlo hhi
  have s2 := Bd.add s1 (p c1 a2) (by norm_num) hlo hhi
  have s3 := Bd.sub s2 (p a1 c2) (by norm_num) hlo hhi
  have s4 := Bd.sub s3 (p b1 a2) (by norm_num) hlo hhi
  have s5 := Bd.sub s4 (p c1 b2) (by norm_num) hlo hhi
  exact (nonNeg_sq s5.1).ne_nan

theorem area3_not_nan {m : ℤ} (h0 : 0 ≤ m) (hm : 2 * m + 3 < f.emax) {a b c : V3 (Flt f)} (ha : Upto3 m a)
    (hb : Upto3 m b) (hc : Upto3 m c) : triangleArea3 a b c ≠ .nan := by
  have hlo : f.emin ≤ m := by have := f.hemin; omega
  have hlo2 : f.emin ≤ m + m := by have := f.hemin; omega
  have d : ∀ {x y : Flt f}, Bd 1 m x → Bd 1 m y → Bd 2 m (Scalar.sub x y) := fun hx hy => by
    have := Bd.sub hx hy (by norm_num) hlo (by omega)
    simpa using this
  have p : ∀ {x y : Flt f}, Bd 2 m x → Bd 2 m y → Bd 4 (m + m) (Scalar.mul x y) := fun hx hy => by
    have := Bd.mul hx hy (by norm_num) (by norm_num) hlo2 (by omega)
    simpa using this
  have e : ∀ {x y : Flt f}, Bd 4 (m + m) x → Bd 4 (m + m) y → (Scalar.sub x y).isFin = true := fun hx hy =>
    (Bd.sub hx hy (by norm_num) hlo2 (by omega)).1
  have v1 := d (bd_coord ha.1) (bd_coord hb.1)
  have v2 := d (bd_coord ha.2.1) (bd_coord hb.2.1)
  have v3 := d (bd_coord ha.2.2) (bd_coord hb.2.2)
  have w1 := d (bd_coord hc.1) (bd_coord hb.1)
  have w2 := d (bd_coord hc.2.1) (bd_coord hb.2.1)
  have w3 := d (bd_coord hc.2.2) (bd_coord hb.2.2)
  exact (((nonNeg_sq (e (p v2 w3) (p w2 v3))).add (nonNeg_sq (e (p v1 w3) (p w1 v3)))).add
    (nonNeg_sq (e (p v1 w2) (p w1 v2)))).ne_nan

/-! ## All finite coordinates that are not too large -/

/-- the floats are not NaN -/
abbrev NotNan (x : Flt f) : Prop := x ≠ .nan

/-- C81: for finite coordinates up to `2^m`, `2m + 3 < emax` (for `f64` up to `2^510`, for `f32` up to `2^62`):
no panic, and the result is a subsequence of the line that starts with its first point. -/
theorem C81_vw2_subsequence {m : ℤ} (h0 : 0 ≤ m) (hm : 2 * m + 3 < f.emax) (pick : Nat → List (Flt f × Nat) → Nat)
    (hpick : PopsLeast NotNan pick) (line : List (V2 (Flt f))) (hl : ∀ p ∈ line, Upto2 m p) (k fuel : Nat)
    (hf : 4 * line.length < fuel) :
    ∃ out, simplifyVw2 pick fuel line k = .ok out ∧ out.Sublist line ∧ out.head? = line.head? :=
  C12_vw2_subsequence (C81_floats_total f) pick hpick line k fuel
    (fun a ha b hb c hc => area2_not_nan h0 hm (hl a ha) (hl b hb) (hl c hc)) hf

/-- C81: the number of points left of an open line, which keeps its last point. -/
theorem C81_vw2_open {m : ℤ} (h0 : 0 ≤ m) (hm : 2 * m + 3 < f.emax) (pick : Nat → List (Flt f × Nat) → Nat)
    (hpick : PopsLeast NotNan pick) (line : List (V2 (Flt f))) (hl : ∀ p ∈ line, Upto2 m p) (hn : 3 ≤ line.length)
    (hopen : ∀ a b, line.head? = some a → line.getLast? = some b → exact a ≠ exact b) (k fuel : Nat)
    (hf : 4 * line.length < fuel) :
    ∃ out, simplifyVw2 pick fuel line k = .ok out ∧ out.getLast? = line.getLast? ∧
      (line.length = 3 → out.length = 3 - min k 1) ∧
      (4 ≤ line.length → out.length = line.length - min k (line.length - 4)) := by
  have hg : ∀ a ∈ line, ∀ b ∈ line, ∀ c ∈ line, NotNan (triangleArea2 a b c) :=
    fun a ha b hb c hc => area2_not_nan h0 hm (hl a ha) (hl b hb) (hl c hc)
  have ho : ∀ a b, line.head? = some a → line.getLast? = some b → V2.beq a b = false := by
    intro a b h1 h2
    have h3 := hopen a b h1 h2
    have ha := hl a (List.mem_of_mem_head? h1)
    have hb := hl b (List.mem_of_mem_getLast? h2)
    have e1 : Scalar.beq a.x b.x = decide (a.x.val = b.x.val) := is_beq (is_self ha.1.1) (is_self hb.1.1)
    have e2 : Scalar.beq a.y b.y = decide (a.y.val = b.y.val) := is_beq (is_self ha.2.1) (is_self hb.2.1)
    unfold V2.beq
    rw [e1, e2, ← Bool.decide_and, decide_eq_false_iff_not]
    rintro ⟨h4, h5⟩
    exact h3 (by unfold exact; rw [h4, h5])
  obtain ⟨out, h1, h2⟩ := C12_vw2_open_keeps_last (C81_floats_total f) pick hpick line k fuel ho hg hf
  obtain ⟨out', i1, i2⟩ := C13_vw2_open_length (C81_floats_total f) pick hpick line hn k fuel ho hg hf
  rw [h1, Except.ok.injEq] at i1
  subst i1
  exact ⟨out, h1, h2, i2⟩

/-- C81: the number of points left of a closed line. -/
theorem C81_vw2_closed {m : ℤ} (h0 : 0 ≤ m) (hm : 2 * m + 3 < f.emax) (pick : Nat → List (Flt f × Nat) → Nat)
    (hpick : PopsLeast NotNan pick) (line : List (V2 (Flt f))) (hl : ∀ p ∈ line, Upto2 m p) (hn : 3 ≤ line.length)
    (hclosed : ∃ a b, line.head? = some a ∧ line.getLast? = some b ∧ exact a = exact b) (k fuel : Nat)
    (hf : 4 * line.length < fuel) :
    ∃ out, simplifyVw2 pick fuel line k = .ok out ∧ out.length = line.length - min k (line.length - 3) := by
  refine C13_vw2_closed_length (C81_floats_total f) pick hpick line hn k fuel ?_
    (fun a ha b hb c hc => area2_not_nan h0 hm (hl a ha) (hl b hb) (hl c hc)) hf
  obtain ⟨a, b, h1, h2, h3⟩ := hclosed
  refine ⟨a, b, h1, h2, ?_⟩
  have ha := hl a (List.mem_of_mem_head? h1)
  have hb := hl b (List.mem_of_mem_getLast? h2)
  have e1 : Scalar.beq a.x b.x = decide (a.x.val = b.x.val) := is_beq (is_self ha.1.1) (is_self hb.1.1)
  have e2 : Scalar.beq a.y b.y = decide (a.y.val = b.y.val) := is_beq (is_self ha.2.1) (is_self hb.2.1)
  unfold exact at h3
  rw [V2.mk.injEq] at h3
  unfold V2.beq
  rw [e1, e2, decide_eq_true h3.1, decide_eq_true h3.2]; rfl

/-- C81, 3D: no panic; size and order of the result (the last point is dropped, as C15 says). -/
theorem C81_vw3 {m : ℤ} (h0 : 0 ≤ m) (hm : 2 * m + 3 < f.emax) (pick : Nat → List (Flt f × Nat) → Nat)
    (hpick : PopsLeast NotNan pick) (line : List (V3 (Flt f))) (hl : ∀ p ∈ line, Upto3 m p) (hn : 3 ≤ line.length)
    (k fuel : Nat) (hf : 4 * line.length < fuel) :
    ∃ out, simplifyVw3 pick fuel line k = .ok out ∧ out.length = 1 + (line.length - 2 - min k (line.length - 2)) ∧
      out.Sublist line.dropLast ∧ out.head? = line.head? :=
  C15_vw3 (C81_floats_total f) pick hpick line hn k fuel
    (fun a ha b hb c hc => area3_not_nan h0 hm (hl a ha) (hl b hb) (hl c hc)) hf

/-- C81: a heap as the theorems want it exists. -/
theorem C81_heap_exists (f : Fmt) [Libm f] : ∃ pick : Nat → List (Flt f × Nat) → Nat, PopsLeast NotNan pick :=
  ⟨_, leastPos_pops (C81_floats_total f)⟩

/-! ## Grids: the right point is deleted -/

theorem GreedyDeletes.mono_mem {P A A' : Type} {area : P → P → P → A} {area' : P → P → P → A'} {le : A → A → Prop}
    {le' : A' → A' → Prop} {n : Nat} {l out : List P} (h : GreedyDeletes area le n l out)
    (hm : ∀ a ∈ l, ∀ b ∈ l, ∀ c ∈ l, ∀ a' ∈ l, ∀ b' ∈ l, ∀ c' ∈ l, le (area a b c) (area a' b' c') →
      le' (area' a b c) (area' a' b' c')) : GreedyDeletes area' le' n l out := by
  induction h with
  | done l => exact .done l
  | step m pre a b c post out hmin h ih =>
    refine .step m pre a b c post out ?_ (ih ?_)
    · intro pre' a' b' c' post' e
      refine hm a (by simp) b (by simp) c (by simp) a' ?_ b' ?_ c' ?_ (hmin pre' a' b' c' post' e) <;>
        rw [e] <;> simp
    · have k : ∀ w, w ∈ pre ++ a :: c :: post → w ∈ pre ++ a :: b :: c :: post := fun w hw => by
        simp only [List.mem_append, List.mem_cons] at hw ⊢; tauto
      intro a ha b hb c hc a' ha' b' hb' c' hc'
      exact hm a (k a ha) b (k b hb) c (k c hc) a' (k a' ha') b' (k b' hb') c' (k c' hc')

/-- C81: on a grid an open line is simplified by the greedy algorithm for the exact areas (`|orient|` is twice
the area). -/
theorem C81_vw2_open_greedy {s B : ℤ} (G : SquareGrid f s B) (pick : Nat → List (Flt f × Nat) → Nat)
    (hpick : PopsLeast NotNan pick) (line : List (V2 (Flt f))) (hl : ∀ p ∈ line, OnGrid s B p) (hn : 3 ≤ line.length)
    (hopen : ∀ a b, line.head? = some a → line.getLast? = some b → exact a ≠ exact b) (k fuel : Nat)
    (hf : 4 * line.length < fuel) :
    ∃ out, simplifyVw2 pick fuel line k = .ok out ∧
      GreedyDeletes (fun a b c => |orient (exact a) (exact b) (exact c)|) (· ≤ ·) (line.length - out.length) line out := by
  have hg : ∀ a ∈ line, ∀ b ∈ line, ∀ c ∈ line, NotNan (triangleArea2 a b c) :=
    fun a ha b hb c hc => by
      have := area2_fin G (hl a ha) (hl b hb) (hl c hc)
      intro h; rw [h] at this; cases this
  obtain ⟨out, h1, h2⟩ := C14_vw2_open_greedy (C81_floats_total f) pick hpick line hn k fuel (by
    intro a b h1 h2
    have h3 := hopen a b h1 h2
    have ha := hl a (List.mem_of_mem_head? h1)
    have hb := hl b (List.mem_of_mem_getLast? h2)
    have e1 : Scalar.beq a.x b.x = decide (a.x.val = b.x.val) := is_beq (is_self ha.1) (is_self hb.1)
    have e2 : Scalar.beq a.y b.y = decide (a.y.val = b.y.val) := is_beq (is_self ha.2.1) (is_self hb.2.1)
    unfold V2.beq
    rw [e1, e2, ← Bool.decide_and, decide_eq_false_iff_not]
    rintro ⟨h4, h5⟩
    exact h3 (by unfold exact; rw [h4, h5])) hg hf
  refine ⟨out, h1, GreedyDeletes.mono_mem h2 ?_⟩
  intro a ha b hb c hc a' ha' b' hb' c' hc' hle
  rw [area2_le G (hl a ha) (hl b hb) (hl c hc) (hl a' ha') (hl b' hb') (hl c' hc'), decide_eq_true_iff] at hle
  exact hle

/-- C81: the same for a closed line (with its first point appended once more). -/
theorem C81_vw2_closed_greedy {s B : ℤ} (G : SquareGrid f s B) (pick : Nat → List (Flt f × Nat) → Nat)
    (hpick : PopsLeast NotNan pick) (line : List (V2 (Flt f))) (hl : ∀ p ∈ line, OnGrid s B p) (hn : 3 ≤ line.length)
    (hclosed : ∃ a b, line.head? = some a ∧ line.getLast? = some b ∧ exact a = exact b) (k fuel : Nat)
    (hf : 4 * line.length < fuel) :
    ∃ (out : List (V2 (Flt f))) (first : V2 (Flt f)), simplifyVw2 pick fuel line k = .ok out ∧ line.head? = some first ∧
      GreedyDeletes (fun a b c => |orient (exact a) (exact b) (exact c)|) (· ≤ ·) (line.length - out.length)
        (line ++ [first]) (out ++ [first]) := by
  have hg : ∀ a ∈ line, ∀ b ∈ line, ∀ c ∈ line, NotNan (triangleArea2 a b c) :=
    fun a ha b hb c hc => by
      have := area2_fin G (hl a ha) (hl b hb) (hl c hc)
      intro h; rw [h] at this; cases this
  obtain ⟨out, first, h1, h2, h3⟩ := C14_vw2_closed_greedy (C81_floats_total f) pick hpick line hn k fuel (by
    obtain ⟨a, b, h1, h2, h3⟩ := hclosed
    refine ⟨a, b, h1, h2, ?_⟩
    have ha := hl a (List.mem_of_mem_head? h1)
    have hb := hl b (List.mem_of_mem_getLast? h2)
    have e1 : Scalar.beq a.x b.x = decide (a.x.val = b.x.val) := is_beq (is_self ha.1) (is_self hb.1)
    have e2 : Scalar.beq a.y b.y = decide (a.y.val = b.y.val) := is_beq (is_self ha.2.1) (is_self hb.2.1)
    unfold exact at h3
    rw [V2.mk.injEq] at h3
    unfold V2.beq
    rw [e1, e2, decide_eq_true h3.1, decide_eq_true h3.2]; rfl) hg hf
  refine ⟨out, first, h1, h2, GreedyDeletes.mono_mem h3 ?_⟩
  have hl' : ∀ p ∈ line ++ [first], OnGrid s B p := by
    intro p hp
    rcases List.mem_append.1 hp with hp | hp
    · exact hl p hp
    · rw [List.mem_singleton.1 hp]; exact hl first (List.mem_of_mem_head? h2)
  intro a ha b hb c hc a' ha' b' hb' c' hc' hle
  rw [area2_le G (hl' a ha) (hl' b hb) (hl' c hc) (hl' a' ha') (hl' b' hb') (hl' c' hc'), decide_eq_true_iff] at hle
  exact hle

/-- sixteen times the square of the area of the triangle, from the lengths of its sides (Heron's formula, as
`4 |ab|² |bc|² - (|ab|² + |bc|² - |ac|²)²`) -/
def heron16 (a b c : V3 ℚ) : ℚ :=
  4 * sqDist3 a b * sqDist3 b c - (sqDist3 a b + sqDist3 b c - sqDist3 a c) ^ 2

theorem heron_area (a b c : V3 ℚ) : heron16 a b c = 4 * triangleArea3 a b c := by
  rw [C14_area3]; unfold heron16 sqDist3; ring

/-- C81, 3D: on a grid the area of a deleted point is the least one, up to the factor `1 + 8 * 2^-prec` (for
the square of the area). -/
theorem C81_vw3_greedy {s B : ℤ} (G : SquareGrid f s B) (hB : 1 ≤ B) (pick : Nat → List (Flt f × Nat) → Nat)
    (hpick : PopsLeast NotNan pick) (line : List (V3 (Flt f))) (hl : ∀ p ∈ line, OnGrid3 s B p) (hn : 3 ≤ line.length)
    (k fuel : Nat) (hf : 4 * line.length < fuel) :
    ∃ (out : List (V3 (Flt f))) (last : V3 (Flt f)), simplifyVw3 pick fuel line k = .ok out ∧ line.getLast? = some last ∧
      GreedyDeletes (fun a b c => heron16 (exact3 a) (exact3 b) (exact3 c))
        (fun x y => x ≤ (1 + 8 * (2 : ℚ) ^ (-f.prec : ℤ)) * y) (min k (line.length - 2)) line (out ++ [last]) := by
  have hg : ∀ a ∈ line, ∀ b ∈ line, ∀ c ∈ line, NotNan (triangleArea3 a b c) :=
    fun a ha b hb c hc => by
      obtain ⟨v, hv, -⟩ := area3_rel G hB (hl a ha) (hl b hb) (hl c hc)
      intro h; rw [h] at hv; cases hv.1
  obtain ⟨out, last, h1, h2, h3⟩ := C14_vw3_greedy (C81_floats_total f) pick hpick line hn k fuel hg hf
  refine ⟨out, last, h1, h2, GreedyDeletes.mono_mem h3 ?_⟩
  intro a ha b hb c hc a' ha' b' hb' c' hc' hle
  obtain ⟨v, v1, v2⟩ := area3_rel G hB (hl a ha) (hl b hb) (hl c hc)
  obtain ⟨w, w1, w2⟩ := area3_rel G hB (hl a' ha') (hl b' hb') (hl c' hc')
  have hle : v ≤ w := by
    have := is_le v1 w1
    have h' : Flt.le (triangleArea3 a b c) (triangleArea3 a' b' c') = true := hle
    rw [this, decide_eq_true_iff] at h'
    exact h'
  rw [heron_area, heron_area, ← pow2_eq]
  have nn : ∀ a b c : V3 ℚ, 0 ≤ triangleArea3 a b c := fun a b c => by
    unfold triangleArea3; simp only [exact_simp]
    exact add_nonneg (add_nonneg (mul_self_nonneg _) (mul_self_nonneg _)) (mul_self_nonneg _)
  have n1 := nn (exact3 a) (exact3 b) (exact3 c)
  have n2 := nn (exact3 a') (exact3 b') (exact3 c')
  unfold Proofs.FloatSimplify.Rel at v2 w2
  rw [abs_of_nonneg n1] at v2
  rw [abs_of_nonneg n2] at w2
  have v3 := (abs_le.1 v2).1
  have w3 := (abs_le.1 w2).2
  have hε := pow2_pos (-(f.prec : ℤ))
  have h6 := eps_small f
  generalize pow2 (-(f.prec : ℤ)) = ε at *
  generalize triangleArea3 (exact3 a) (exact3 b) (exact3 c) = x at *
  generalize triangleArea3 (exact3 a') (exact3 b') (exact3 c') = y at *
  have k1 : (1 - 13 / 4 * ε) * x ≤ (1 + 13 / 4 * ε) * y := by linarith
  have k2 : (1 + 13 / 4 * ε) * y ≤ (1 - 13 / 4 * ε) * (1 + 8 * ε) * y := by
    apply mul_le_mul_of_nonneg_right _ n2
    nlinarith
  have k3 : (1 - 13 / 4 * ε) * x ≤ (1 - 13 / 4 * ε) * ((1 + 8 * ε) * y) := by linarith
  have := le_of_mul_le_mul_left k3 (by linarith)
  linarith

/-! ## Examples -/

/-- an open line of five points -/
def vwLine64 : List (V2 F64) := [ipt b64 0 0, ipt b64 1 1, ipt b64 2 0, ipt b64 3 5, ipt b64 7 5]

theorem vwLine64_grid : ∀ p ∈ vwLine64, OnGrid 0 (2 ^ 23) p := by
  intro p hp
  simp only [vwLine64, List.mem_cons, List.not_mem_nil, or_false] at hp
  rcases hp with rfl | rfl | rfl | rfl | rfl <;> exact (onGrid_ipt goodGrid64 (by norm_num) (by norm_num)).1

/-- the hypotheses are met -/
example [Libm b64] : ∃ out, simplifyVw2 (fun _ heap => leastPos heap) 100 vwLine64 1 = .ok out ∧
    GreedyDeletes (fun a b c => |orient (exact a) (exact b) (exact c)|) (· ≤ ·) (vwLine64.length - out.length) vwLine64 out :=
  C81_vw2_open_greedy squareGrid64 _ (leastPos_pops (C81_floats_total b64)) vwLine64 vwLine64_grid (by simp [vwLine64])
    (by
      intro a b h1 h2
      simp only [vwLine64, List.head?_cons, Option.some.injEq] at h1
      simp only [vwLine64, List.getLast?_cons_cons, List.getLast?_singleton, Option.some.injEq] at h2
      subst h1 h2
      rw [(onGrid_ipt goodGrid64 (by norm_num) (by norm_num)).2, (onGrid_ipt goodGrid64 (by norm_num) (by norm_num)).2]
      intro h; rw [V2.mk.injEq] at h; norm_num at h) 1 100 (by simp [vwLine64])

/-- and the second point, whose triangle is the smallest, is deleted -/
example : (let _ : Libm b64 := ⟨fun _ _ => .nan⟩; simplifyVw2 (fun _ heap => leastPos heap) 100 vwLine64 1) =
    .ok [ipt b64 0 0, ipt b64 2 0, ipt b64 3 5, ipt b64 7 5] := by decide +kernel

/-- C81: finite coordinates can make `simplify_vw` panic: with coordinates of about `2^600` in `f64` the products
overflow, the areas are NaN, and the comparison in the heap unwraps `None`. -/
theorem C81_large_coordinates_panic : let _ : Libm b64 := ⟨fun _ _ => .nan⟩
    simplifyVw2 (fun _ heap => leastPos heap) 100
      ([⟨Flt.ofQ false (pow2 600), Flt.ofQ false (pow2 600)⟩, ⟨Flt.ofQ false (2 * pow2 600), Flt.ofQ false (pow2 600)⟩,
        ⟨Flt.ofQ false (3 * pow2 600), Flt.ofQ false (2 * pow2 600)⟩, ⟨Flt.ofQ false (4 * pow2 600), Flt.ofQ false (pow2 600)⟩]
        : List (V2 F64)) 1 = .error .panic := by
  decide +kernel

/-- C81: with small coordinates the squared areas are rounded to zero, and a point with a larger area may be
deleted first: in `f32`, with the coordinates of the line `(0,0), (1,1), (2,0), (3,5), (7,5)` times `2^-41`. -/
theorem C81_small_coordinates_lose_area : let _ : Libm b32 := ⟨fun _ _ => .nan⟩
    let q : ℚ → ℚ → V2 F32 := fun x y => ⟨Flt.ofQ false (x * pow2 (-41)), Flt.ofQ false (y * pow2 (-41))⟩
    simplifyVw2 (fun _ heap => leastPos heap) 100 [q 0 0, q 1 1, q 2 0, q 3 5, q 7 5] 1 =
      .ok [q 0 0, q 1 1, q 2 0, q 7 5] := by
  decide +kernel

end Verif.Props
