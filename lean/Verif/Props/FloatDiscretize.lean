import Verif.Proofs.FloatDiscretize
import Verif.Props.FloatRdp
import Verif.Props.FloatSelf
/-!
# C84: discretize in floating point
-/
set_option linter.unusedSectionVars false
set_option linter.unusedVariables false
namespace Verif.Props
open Verif Verif.Model Verif.Spec Scalar Verif.Proofs.FloatHull Verif.Proofs.FloatIntersect Verif.Proofs.FloatLinePoint Fl Flt
open Verif.Proofs.FloatDiscretize Verif.Props.Discretize Verif.Proofs.FloatSimplify
section
variable {f : Fmt} [Libm f]

/-- one coordinate -/
theorem coord_near {s B : ℤ} (G : GoodGrid f s B) (hlow : f.emin + 2 * f.prec ≤ s) (hB : 1 ≤ B) {p q c : Flt f} {k l : ℤ}
    {n i : ℕ} (hp : Is p (k * pow2 s)) (hq : Is q (l * pow2 s)) (hc : Is c n) (hk : |k| ≤ B) (hl : |l| ≤ B)
    (hi : i < n) (hn : n ≤ 2 ^ (f.prec - 1)) :
    (Scalar.add p (Scalar.mul (Scalar.div (Scalar.sub q p) c) (Scalar.ofUsize i))).isFin = true ∧
    |((Scalar.add p (Scalar.mul (Scalar.div (Scalar.sub q p) c) (Scalar.ofUsize i))).val : ℝ) -
      ((p.val : ℝ) + (i : ℝ) / n * (q.val - p.val))| ≤ stepError f s B ∧
    (i = 0 → (Scalar.add p (Scalar.mul (Scalar.div (Scalar.sub q p) c) (Scalar.ofUsize i))).val = p.val) := by
  obtain ⟨hD, hm⟩ := grid_diff G hq hp hl hk
  obtain ⟨x, hx, h1, h2⟩ := step_coord G hlow hB hp hD hc hk hm (by rw [add_sub_cancel]; exact hl) hi hn
  refine ⟨hx.1, ?_, fun h => ?_⟩
  · rw [hx.2, hp.2, hq.2]
    have e : x - ((k : ℚ) * pow2 s + (i : ℚ) / n * (l * pow2 s - k * pow2 s)) =
        x - (k + ((l - k : ℤ) : ℚ) * ((i : ℚ) / n)) * pow2 s := by push_cast; ring
    have h3 : |x - ((k : ℚ) * pow2 s + (i : ℚ) / n * (l * pow2 s - k * pow2 s))| ≤ 6 * B * (pow2 (-f.prec) * pow2 s) := by
      rw [e]; exact h1
    have h4 := (Rat.cast_le (K := ℝ)).2 h3
    push_cast at h4
    have e2 : stepError f s B = 6 * B * ((pow2 (-f.prec) : ℚ) * (pow2 s : ℚ)) := by
      unfold stepError
      rw [pow2_eq, pow2_eq]; push_cast; ring
    rw [e2]
    push_cast
    exact h4
  · rw [hx.2, hp.2]; exact h2 h

theorem stepError_nonneg (f : Fmt) (s : ℤ) {B : ℤ} (hB : 0 ≤ B) : 0 ≤ stepError f s B := by
  unfold stepError
  have : (0 : ℝ) ≤ B := by exact_mod_cast hB
  positivity

/-- one coordinate of a segment of length zero -/
theorem coord_zero {p : Flt f} {v : ℚ} (hp : Is p v) :
    Is (Scalar.add p (Scalar.mul (Scalar.zero : Flt f) (Scalar.ofUsize 0))) v := by
  have hr : Repr f v := is_repr hp
  have h0 : Is (Scalar.ofUsize 0 : Flt f) ((0 : ℕ) : ℚ) := by
    have h := is_ofQ_repr (f := f) false (repr_int f 0 (by simp))
    rw [Int.cast_zero] at h
    show Is (Flt.ofQ false ((0 : ℕ) : ℚ) : Flt f) _
    rw [Nat.cast_zero]
    exact h
  have hm : Is (Scalar.mul (Scalar.zero : Flt f) (Scalar.ofUsize 0)) (roundQ f (0 * ((0 : ℕ) : ℚ))) := is_mul is_zeroQ h0 (by
    rw [zero_mul, roundQ_zero, abs_zero]; exact pow2_pos _)
  rw [zero_mul, roundQ_zero] at hm
  have ha := is_add hp hm (by rw [add_zero, hr.fix]; exact hr.1)
  rw [add_zero, hr.fix] at ha
  exact ha

/-- the relative error of the number of steps -/
noncomputable def countError (f : Fmt) : ℝ := 3 * (2 : ℝ) ^ (-(f.prec : ℤ))

theorem sqrt_of_zero {z : Flt f} (hz : Is z 0) : Scalar.lt Scalar.zero (Scalar.sqrt z) = false := by
  obtain ⟨h1, h2⟩ := hz
  cases z with
  | nan => cases h1
  | inf s => cases h1
  | zero s => rfl
  | fin q hq => exact absurd h2 hq.1

theorem segPoints_pos {P : Type} (o : VecOps P (Flt f)) {d : Flt f} {a b : P} {n : ℕ}
    (h : Scalar.lt Scalar.zero (o.mag (o.sub b a)) = true)
    (hn : Scalar.toUsize (Scalar.ceil (Scalar.div (o.mag (o.sub b a)) d)) = n) :
    segPoints o d a b = (List.range n).map (fun i => o.add a (o.smul (o.sdiv (o.sub b a)
      (Scalar.ceil (Scalar.div (o.mag (o.sub b a)) d))) (Scalar.ofUsize i))) := by
  unfold segPoints segSteps
  simp only [Scalar.gt, h, if_true, hn]

theorem segPoints_zero {P : Type} (o : VecOps P (Flt f)) {d : Flt f} {a b : P}
    (h : Scalar.lt Scalar.zero (o.mag (o.sub b a)) = false) :
    segPoints o d a b = [o.add a (o.smul o.zero (Scalar.ofUsize 0))] := by
  unfold segPoints segSteps
  simp only [Scalar.gt, h, if_neg Bool.false_ne_true]
  rfl

theorem range_map_get {P : Type} {g : ℕ → P} {n i : ℕ} {x : P} (h : getElem? ((List.range n).map g) i = some x) :
    i < n ∧ g i = x := by
  rw [List.getElem?_map, Option.map_eq_some_iff] at h
  obtain ⟨j, hj, rfl⟩ := h
  rw [List.getElem?_eq_some_iff] at hj
  obtain ⟨h1, h2⟩ := hj
  rw [List.length_range] at h1
  rw [List.getElem_range] at h2
  exact ⟨h1, by rw [h2]⟩

/-- what happens on one segment -/
theorem segment2 {s B : ℤ} {d : Flt f} (hd : d.isFin = true) (G : StepGrid f s B d.val) {a b : V2 (Flt f)} (ha : OnGrid s B a)
    (hb : OnGrid s B b) :
    StepCountWithin (countError f) (Real.sqrt (sqDist2 (exactR a) (exactR b))) d.val (segPoints ops2 d a b).length ∧
    ∀ (i : ℕ) (x : V2 (Flt f)), getElem? (segPoints ops2 d a b) i = some x →
      Within (stepError f s B) x (lerp2 (exactR a) (exactR b) ((i : ℝ) / (segPoints ops2 d a b).length)) ∧
      (i = 0 → exact x = exact a) := by
  obtain ⟨a1, a2, i1, i2, i3, i4⟩ := OnGrid.coords ha
  obtain ⟨b1, b2, j1, j2, j3, j4⟩ := OnGrid.coords hb
  have hB0 : 0 ≤ B := (abs_nonneg _).trans i3
  obtain ⟨dx, bx⟩ := grid_diff G.toGoodGrid j1 i1 j3 i3
  obtain ⟨dy, by'⟩ := grid_diff G.toGoodGrid j2 i2 j4 i4
  have hdI := is_self hd
  have sqe : sqDist2 (exactR a) (exactR b) = ((((b1 - a1) * (b1 - a1) + (b2 - a2) * (b2 - a2) : ℤ) * pow2 (s + s) : ℚ) : ℝ) := by
    unfold sqDist2 exactR
    simp only
    rw [i1.2, i2.2, j1.2, j2.2, pow2_add]
    push_cast
    ring
  by_cases hz : (b1 - a1) * (b1 - a1) + (b2 - a2) * (b2 - a2) = 0
  · -- a point
    have hx0 : b1 - a1 = 0 := by nlinarith [mul_self_nonneg (b1 - a1), mul_self_nonneg (b2 - a2)]
    have hy0 : b2 - a2 = 0 := by nlinarith [mul_self_nonneg (b1 - a1), mul_self_nonneg (b2 - a2)]
    have hsq : Is (V2.magSq (V2.sub b a)) 0 := by
      rw [hx0, Int.cast_zero, zero_mul] at dx
      rw [hy0, Int.cast_zero, zero_mul] at dy
      have p0 : |roundQ f (0 * 0)| < pow2 f.emax := by rw [zero_mul, roundQ_zero, abs_zero]; exact pow2_pos _
      have m1 := is_mul dx dx p0
      have m2 := is_mul dy dy p0
      rw [zero_mul, roundQ_zero] at m1 m2
      have m3 := is_add m1 m2 (by rw [add_zero, roundQ_zero, abs_zero]; exact pow2_pos _)
      rw [add_zero, roundQ_zero] at m3
      exact m3
    have hpts : segPoints ops2 d a b = [V2.add a (V2.smul V2.zero (Scalar.ofUsize 0))] :=
      segPoints_zero ops2 (sqrt_of_zero hsq)
    rw [hpts]
    have eab : exactR a = exactR b := by
      unfold exactR
      rw [i1.2, i2.2, j1.2, j2.2, show a1 = b1 by omega, show a2 = b2 by omega]
    constructor
    · rw [sqe, hz]
      refine ⟨le_rfl, ?_, Or.inl rfl⟩
      simp
      have := G.pos
      exact_mod_cast this.le
    · intro i x hx
      cases i with
      | succ i => simp at hx
      | zero =>
        simp only [List.getElem?_cons_zero, Option.some.injEq] at hx
        subst hx
        have c1 := coord_zero i1
        have c2 := coord_zero i2
        have ex : exact (V2.add a (V2.smul V2.zero (Scalar.ofUsize 0))) = exact a := by
          unfold exact
          rw [i1.2, i2.2]
          exact congrArg₂ V2.mk c1.2 c2.2
        have exR : exactR (V2.add a (V2.smul V2.zero (Scalar.ofUsize 0))) = exactR a := by
          show castV (exact _) = castV (exact _)
          rw [ex]
        refine ⟨⟨c1.1, c2.1, ?_, ?_⟩, fun _ => ex⟩
        · rw [exR]; simp [lerp2]; exact stepError_nonneg f s hB0
        · rw [exR]; simp [lerp2]; exact stepError_nonneg f s hB0
  · have hB : 1 ≤ B := by
      by_contra hcon
      have : B = 0 := by omega
      rw [this, mul_zero, abs_nonpos_iff] at bx by'
      apply hz
      rw [bx, by']; rfl
    have hN1 : 1 ≤ (b1 - a1) * (b1 - a1) + (b2 - a2) * (b2 - a2) := by
      have := mul_self_nonneg (b1 - a1)
      have := mul_self_nonneg (b2 - a2)
      omega
    obtain ⟨hM, hMb⟩ := dot_exact G.toGoodGrid hB (v := V2.sub b a) (w := V2.sub b a) ⟨dx, dy⟩ ⟨dx, dy⟩ bx by' bx by'
    have hN4 : (b1 - a1) * (b1 - a1) + (b2 - a2) * (b2 - a2) ≤ 16 * (B * B) := by
      have h1 := abs_mul_le bx bx
      have h2 := abs_mul_le by' by'
      have h3 := le_abs_self ((b1 - a1) * (b1 - a1))
      have h4 := le_abs_self ((b2 - a2) * (b2 - a2))
      have : 0 ≤ B * B := mul_self_nonneg B
      have e : 2 * B * (2 * B) = 4 * (B * B) := by ring
      rw [e] at h1 h2
      linarith
    have hNp : (b1 - a1) * (b1 - a1) + (b2 - a2) * (b2 - a2) ≤ 2 ^ f.prec := by
      have h := pow_split f
      have : (0 : ℤ) < 2 ^ (f.prec - 3) := by positivity
      have := le_abs_self ((b1 - a1) * (b1 - a1) + (b2 - a2) * (b2 - a2))
      omega
    obtain ⟨hpos, n, hnI, hnU, hnp, hcnt⟩ := step_count G hB hM hN1 hNp hN4 hdI
    have hpts := segPoints_pos ops2 (d := d) (a := a) (b := b) hpos hnU
    have hlen : (segPoints ops2 d a b).length = n := by rw [hpts]; simp
    rw [hlen]
    refine ⟨by rw [sqe]; exact hcnt, ?_⟩
    intro i x hx
    rw [hpts] at hx
    obtain ⟨hin, rfl⟩ := range_map_get hx
    obtain ⟨x1, x2, x3⟩ := coord_near G.toGoodGrid G.low hB i1 j1 hnI i3 j3 hin hnp
    obtain ⟨y1, y2, y3⟩ := coord_near G.toGoodGrid G.low hB i2 j2 hnI i4 j4 hin hnp
    exact ⟨⟨x1, y1, x2, y2⟩, fun h => congrArg₂ V2.mk (x3 h) (y3 h)⟩

/-- the same in space -/
theorem segment3 {s B : ℤ} {d : Flt f} (hd : d.isFin = true) (G : StepGrid f s B d.val) {a b : V3 (Flt f)} (ha : OnGrid3 s B a)
    (hb : OnGrid3 s B b) :
    StepCountWithin (countError f) (Real.sqrt (sqDist3 (exactR3 a) (exactR3 b))) d.val (segPoints ops3 d a b).length ∧
    ∀ (i : ℕ) (x : V3 (Flt f)), getElem? (segPoints ops3 d a b) i = some x →
      Within3 (stepError f s B) x (lerp3 (exactR3 a) (exactR3 b) ((i : ℝ) / (segPoints ops3 d a b).length)) ∧
      (i = 0 → exact3 x = exact3 a) := by
  obtain ⟨a1, a2, a3, i1, i2, i3, i4, i5, i6⟩ := coords3 ha
  obtain ⟨b1, b2, b3, j1, j2, j3, j4, j5, j6⟩ := coords3 hb
  have hB0 : 0 ≤ B := (abs_nonneg _).trans i4
  obtain ⟨dx, bx⟩ := grid_diff G.toGoodGrid j1 i1 j4 i4
  obtain ⟨dy, by'⟩ := grid_diff G.toGoodGrid j2 i2 j5 i5
  obtain ⟨dz, bz⟩ := grid_diff G.toGoodGrid j3 i3 j6 i6
  have hdI := is_self hd
  obtain ⟨N, hN⟩ : ∃ N : ℤ, N = (b1 - a1) * (b1 - a1) + (b2 - a2) * (b2 - a2) + (b3 - a3) * (b3 - a3) := ⟨_, rfl⟩
  have sqe : sqDist3 (exactR3 a) (exactR3 b) = ((N * pow2 (s + s) : ℚ) : ℝ) := by
    unfold sqDist3 exactR3
    simp only
    rw [i1.2, i2.2, i3.2, j1.2, j2.2, j3.2, pow2_add, hN]
    push_cast
    ring
  by_cases hz : N = 0
  · have hnn1 := mul_self_nonneg (b1 - a1)
    have hnn2 := mul_self_nonneg (b2 - a2)
    have hnn3 := mul_self_nonneg (b3 - a3)
    have hx0 : b1 - a1 = 0 := mul_self_eq_zero.1 (by omega)
    have hy0 : b2 - a2 = 0 := mul_self_eq_zero.1 (by omega)
    have hz0 : b3 - a3 = 0 := mul_self_eq_zero.1 (by omega)
    have hsq : Is (V3.magSq (V3.sub b a)) 0 := by
      rw [hx0, Int.cast_zero, zero_mul] at dx
      rw [hy0, Int.cast_zero, zero_mul] at dy
      rw [hz0, Int.cast_zero, zero_mul] at dz
      have p0 : |roundQ f (0 * 0)| < pow2 f.emax := by rw [zero_mul, roundQ_zero, abs_zero]; exact pow2_pos _
      have p1 : |roundQ f (0 + 0)| < pow2 f.emax := by rw [add_zero, roundQ_zero, abs_zero]; exact pow2_pos _
      have m1 := is_mul dx dx p0
      have m2 := is_mul dy dy p0
      have m3 := is_mul dz dz p0
      rw [zero_mul, roundQ_zero] at m1 m2 m3
      have m4 := is_add m1 m2 p1
      rw [add_zero, roundQ_zero] at m4
      have m5 := is_add m4 m3 p1
      rw [add_zero, roundQ_zero] at m5
      exact m5
    have hpts : segPoints ops3 d a b = [V3.add a (V3.smul V3.zero (Scalar.ofUsize 0))] :=
      segPoints_zero ops3 (sqrt_of_zero hsq)
    rw [hpts]
    have eab : exactR3 a = exactR3 b := by
      unfold exactR3
      rw [i1.2, i2.2, i3.2, j1.2, j2.2, j3.2, show a1 = b1 by omega, show a2 = b2 by omega, show a3 = b3 by omega]
    constructor
    · rw [sqe, hz]
      refine ⟨le_rfl, ?_, Or.inl rfl⟩
      simp
      have := G.pos
      exact_mod_cast this.le
    · intro i x hx
      cases i with
      | succ i => simp at hx
      | zero =>
        simp only [List.getElem?_cons_zero, Option.some.injEq] at hx
        subst hx
        have c1 := coord_zero i1
        have c2 := coord_zero i2
        have c3 := coord_zero i3
        have ex : exact3 (V3.add a (V3.smul V3.zero (Scalar.ofUsize 0))) = exact3 a := by
          unfold exact3
          rw [V3.mk.injEq, i1.2, i2.2, i3.2]
          exact ⟨c1.2, c2.2, c3.2⟩
        have exR : exactR3 (V3.add a (V3.smul V3.zero (Scalar.ofUsize 0))) = exactR3 a := by
          have e : ∀ p : V3 (Flt f), exactR3 p = ⟨((exact3 p).x : ℝ), ((exact3 p).y : ℝ), ((exact3 p).z : ℝ)⟩ := fun _ => rfl
          rw [e, e, ex]
        have h0 := stepError_nonneg f s hB0
        refine ⟨⟨⟨c1.1, c2.1, c3.1⟩, ?_, ?_, ?_⟩, fun _ => ex⟩ <;> rw [exR] <;> simpa [lerp3] using h0
  · have hB : 1 ≤ B := by
      by_contra hcon
      have : B = 0 := by omega
      rw [this, mul_zero, abs_nonpos_iff] at bx by' bz
      apply hz
      rw [hN, bx, by', bz]; rfl
    have hN1 : 1 ≤ N := by
      have := mul_self_nonneg (b1 - a1)
      have := mul_self_nonneg (b2 - a2)
      have := mul_self_nonneg (b3 - a3)
      omega
    obtain ⟨hM, hMb⟩ := sum3_exact G.toGoodGrid hB dx dy dz bx by' bz
    rw [← hN] at hM hMb
    have hN4 : N ≤ 16 * (B * B) := by
      have h1 := abs_mul_le bx bx
      have h2 := abs_mul_le by' by'
      have h5 := abs_mul_le bz bz
      have h3 := le_abs_self ((b1 - a1) * (b1 - a1))
      have h4 := le_abs_self ((b2 - a2) * (b2 - a2))
      have h6 := le_abs_self ((b3 - a3) * (b3 - a3))
      have : 0 ≤ B * B := mul_self_nonneg B
      have e : 2 * B * (2 * B) = 4 * (B * B) := by ring
      rw [e] at h1 h2 h5
      linarith
    have hNp : N ≤ 2 ^ f.prec := by
      have h : (2 : ℤ) ^ (f.prec - 1) ≤ 2 ^ f.prec := pow_le_pow_right₀ (by norm_num) (by omega)
      omega
    obtain ⟨hpos, n, hnI, hnU, hnp, hcnt⟩ := step_count G hB hM hN1 hNp hN4 hdI
    have hpts := segPoints_pos ops3 (d := d) (a := a) (b := b) hpos hnU
    have hlen : (segPoints ops3 d a b).length = n := by rw [hpts]; simp
    rw [hlen]
    refine ⟨by rw [sqe]; exact hcnt, ?_⟩
    intro i x hx
    rw [hpts] at hx
    obtain ⟨hin, rfl⟩ := range_map_get hx
    obtain ⟨x1, x2, x3⟩ := coord_near G.toGoodGrid G.low hB i1 j1 hnI i4 j4 hin hnp
    obtain ⟨y1, y2, y3⟩ := coord_near G.toGoodGrid G.low hB i2 j2 hnI i5 j5 hin hnp
    obtain ⟨z1, z2, z3⟩ := coord_near G.toGoodGrid G.low hB i3 j3 hnI i6 j6 hin hnp
    refine ⟨⟨⟨x1, y1, z1⟩, x2, y2, z2⟩, fun h => ?_⟩
    unfold exact3
    rw [V3.mk.injEq]
    exact ⟨x3 h, y3 h, z3 h⟩

/-! ## line strings -/

theorem divided_of_segments {P : Type} (o : VecOps P (Flt f)) (d : Flt f) {near : P → P → ℕ → ℕ → P → Prop} {count : P → P → ℕ → Prop} :
    ∀ {pts : List P}, pts ≠ [] → (∀ a ∈ pts, ∀ b ∈ pts, count a b (segPoints o d a b).length ∧
      ∀ (i : ℕ) (x : P), getElem? (segPoints o d a b) i = some x → near a b i (segPoints o d a b).length x) →
    DividedNear near count pts (allPoints o d pts)
  | [], h, _ => absurd rfl h
  | [p], _, _ => .last p
  | a :: b :: rest, _, h => by
    have h1 := h a (by simp) b (by simp)
    exact .seg a b rest _ _ h1.1 h1.2 (divided_of_segments o d (by simp) (fun a ha b hb => h a (List.mem_cons_of_mem _ ha) b (List.mem_cons_of_mem _ hb)))

section
variable {P Q : Type} {near : P → P → ℕ → ℕ → P → Prop} {count : P → P → ℕ → Prop} {E : P → Q}
  (hE : ∀ a b n x, near a b 0 n x → E x = E a) (hc : ∀ a b n, count a b n → 1 ≤ n)
include hE hc

theorem dividedNear_head {pts out : List P} (h : DividedNear near count pts out) : (out.map E).head? = (pts.map E).head? := by
  cases h with
  | last p => rfl
  | seg a b rest xs out hn hx h =>
    have := hc _ _ _ hn
    cases xs with
    | nil => simp at this
    | cons x xs => simp [hE _ _ _ _ (hx 0 x rfl)]

theorem dividedNear_sublist {pts out : List P} (h : DividedNear near count pts out) :
    (pts.map E).Sublist (out.map E) ∧ out.getLast? = pts.getLast? := by
  induction h with
  | last p => exact ⟨List.Sublist.refl _, rfl⟩
  | seg a b rest xs out hn hx h ih =>
    have := hc _ _ _ hn
    constructor
    · cases xs with
      | nil => simp at this
      | cons x xs =>
        show (E a :: (b :: rest).map E).Sublist (E x :: (xs ++ out).map E)
        rw [List.map_append, hE _ _ _ _ (hx 0 x rfl)]
        exact (ih.1.trans (List.sublist_append_right _ _)).cons_cons _
    · rw [List.getLast?_append, ih.2]
      cases h2 : (b :: rest).getLast? with
      | none => simp at h2
      | some y =>
        rw [List.getLast?_cons_cons]
        simp [h2]

theorem dividedNear_adjacent {pts out : List P} (h : DividedNear near count pts out) : ∀ (i : ℕ) (p q : P),
    getElem? out i = some p → getElem? out (i + 1) = some q →
    ∃ (j : ℕ) (a b : P) (n k : ℕ), getElem? pts j = some a ∧ getElem? pts (j + 1) = some b ∧ count a b n ∧ k < n ∧
      near a b k n p ∧ (near a b (k + 1) n q ∨ (k + 1 = n ∧ E q = E b)) := by
  induction h with
  | last p => intro i p q hp hq; simp at hq
  | seg a b rest xs out hn hx h ih =>
    intro i p q hp hq
    rcases Nat.lt_or_ge i xs.length with hi | hi
    · rw [List.getElem?_append_left hi] at hp
      rcases Nat.lt_or_ge (i + 1) xs.length with hi1 | hi1
      · rw [List.getElem?_append_left hi1] at hq
        exact ⟨0, a, b, xs.length, i, rfl, rfl, hn, hi, hx _ _ hp, Or.inl (hx _ _ hq)⟩
      · have e : i + 1 = xs.length := by omega
        rw [List.getElem?_append_right hi1, e, Nat.sub_self] at hq
        refine ⟨0, a, b, xs.length, i, rfl, rfl, hn, hi, hx _ _ hp, Or.inr ⟨e, ?_⟩⟩
        have := dividedNear_head hE hc h
        rw [List.head?_map, List.head?_eq_getElem?, hq] at this
        simpa using this
    · rw [List.getElem?_append_right hi] at hp
      rw [List.getElem?_append_right (by omega), show i + 1 - xs.length = i - xs.length + 1 by omega] at hq
      obtain ⟨j, a', b', n, k, h1, h2, h3⟩ := ih _ _ _ hp hq
      exact ⟨j + 1, a', b', n, k, by simpa using h1, by simpa using h2, h3⟩

end

/-- C84 (2D): `discretize` on a grid.  Every segment is divided into equal parts: the number of parts is right for the
length up to a relative error of `3·2^-prec`, the i-th point is the exact one up to `6·max·2^-prec` in each coordinate, and
the first point is the start of the segment without error. -/
theorem C84_divided2 {s B : ℤ} {d : Flt f} (hd : d.isFin = true) (G : StepGrid f s B d.val) {pts out : List (V2 (Flt f))}
    (hg : ∀ p ∈ pts, OnGrid s B p) (hne : pts ≠ []) (h : Collects (discNext ops2) (discNew ops2 pts d) out) :
    DividedNear (fun a b i n x => Within (stepError f s B) x (lerp2 (exactR a) (exactR b) ((i : ℝ) / n)) ∧ (i = 0 → exact x = exact a))
      (fun a b n => StepCountWithin (3 * (2 : ℝ) ^ (-(f.prec : ℤ))) (Real.sqrt (sqDist2 (exactR a) (exactR b))) d.val n) pts out := by
  rw [collects_unique h (collects_all ops2 pts d)]
  exact divided_of_segments ops2 d hne (fun a ha b hb => segment2 hd G (hg a ha) (hg b hb))

/-- C84 (3D) -/
theorem C84_divided3 {s B : ℤ} {d : Flt f} (hd : d.isFin = true) (G : StepGrid f s B d.val) {pts out : List (V3 (Flt f))}
    (hg : ∀ p ∈ pts, OnGrid3 s B p) (hne : pts ≠ []) (h : Collects (discNext ops3) (discNew ops3 pts d) out) :
    DividedNear (fun a b i n x => Within3 (stepError f s B) x (lerp3 (exactR3 a) (exactR3 b) ((i : ℝ) / n)) ∧ (i = 0 → exact3 x = exact3 a))
      (fun a b n => StepCountWithin (3 * (2 : ℝ) ^ (-(f.prec : ℤ))) (Real.sqrt (sqDist3 (exactR3 a) (exactR3 b))) d.val n) pts out := by
  rw [collects_unique h (collects_all ops3 pts d)]
  exact divided_of_segments ops3 d hne (fun a ha b hb => segment3 hd G (hg a ha) (hg b hb))

/-- C84 (2D): all points of the line string are among the result, in order and with their exact values, and the last
one is the last one. -/
theorem C84_keeps_points2 {s B : ℤ} {d : Flt f} (hd : d.isFin = true) (G : StepGrid f s B d.val) {pts out : List (V2 (Flt f))}
    (hg : ∀ p ∈ pts, OnGrid s B p) (h : Collects (discNext ops2) (discNew ops2 pts d) out) :
    (pts.map exact).Sublist (out.map exact) ∧ out.getLast? = pts.getLast? := by
  by_cases hne : pts = []
  · subst hne
    rw [collects_unique h (collects_all ops2 [] d)]
    exact ⟨List.Sublist.refl _, rfl⟩
  · exact dividedNear_sublist (E := exact) (fun a b n x hx => hx.2 rfl) (fun a b n hn => hn.1) (C84_divided2 hd G hg hne h)

/-- C84 (3D) -/
theorem C84_keeps_points3 {s B : ℤ} {d : Flt f} (hd : d.isFin = true) (G : StepGrid f s B d.val) {pts out : List (V3 (Flt f))}
    (hg : ∀ p ∈ pts, OnGrid3 s B p) (h : Collects (discNext ops3) (discNew ops3 pts d) out) :
    (pts.map exact3).Sublist (out.map exact3) ∧ out.getLast? = pts.getLast? := by
  by_cases hne : pts = []
  · subst hne
    rw [collects_unique h (collects_all ops3 [] d)]
    exact ⟨List.Sublist.refl _, rfl⟩
  · exact dividedNear_sublist (E := exact3) (fun a b n x hx => hx.2 rfl) (fun a b n hn => hn.1) (C84_divided3 hd G hg hne h)

/-! ## the distance of neighbours -/

/-- the length of a sum of two vectors -/
theorem norm3_add (a b c x y z : ℝ) :
    Real.sqrt ((a + x) ^ 2 + (b + y) ^ 2 + (c + z) ^ 2) ≤ Real.sqrt (a ^ 2 + b ^ 2 + c ^ 2) + Real.sqrt (x ^ 2 + y ^ 2 + z ^ 2) := by
  have h1 := Real.sqrt_nonneg (a ^ 2 + b ^ 2 + c ^ 2)
  have h2 := Real.sqrt_nonneg (x ^ 2 + y ^ 2 + z ^ 2)
  have s1 := Real.sq_sqrt (show 0 ≤ a ^ 2 + b ^ 2 + c ^ 2 by positivity)
  have s2 := Real.sq_sqrt (show 0 ≤ x ^ 2 + y ^ 2 + z ^ 2 by positivity)
  apply Real.sqrt_le_iff.2
  refine ⟨by positivity, ?_⟩
  have hcs : a * x + b * y + c * z ≤ Real.sqrt (a ^ 2 + b ^ 2 + c ^ 2) * Real.sqrt (x ^ 2 + y ^ 2 + z ^ 2) := by
    rw [← Real.sqrt_mul (by positivity)]
    apply Real.le_sqrt_of_sq_le
    nlinarith [sq_nonneg (a * y - b * x), sq_nonneg (a * z - c * x), sq_nonneg (b * z - c * y)]
  nlinarith

theorem norm3_small {x y z δ : ℝ} (hδ : 0 ≤ δ) (hx : |x| ≤ 2 * δ) (hy : |y| ≤ 2 * δ) (hz : |z| ≤ 2 * δ) :
    Real.sqrt (x ^ 2 + y ^ 2 + z ^ 2) ≤ 4 * δ := by
  apply Real.sqrt_le_iff.2
  refine ⟨by positivity, ?_⟩
  have h : ∀ {w : ℝ}, |w| ≤ 2 * δ → w ^ 2 ≤ 4 * δ ^ 2 := by
    intro w hw
    have := sq_le_sq' (a := w) (b := 2 * δ) (by rw [abs_le] at hw; linarith) (by rw [abs_le] at hw; linarith)
    linarith
  have := h hx
  have := h hy
  have := h hz
  nlinarith

/-- two points near neighbouring points of a division -/
theorem step_dist {px py pz qx qy qz ax ay az bx bY bz δ d e : ℝ} {k n : ℕ} (hδ : 0 ≤ δ) (hd : 0 < d) (he : 0 ≤ e) (he4 : e ≤ 1 / 16)
    (hn : StepCountWithin (3 * e) (Real.sqrt ((ax - bx) ^ 2 + (ay - bY) ^ 2 + (az - bz) ^ 2)) d n)
    (h1 : |px - (ax + (k : ℝ) / n * (bx - ax))| ≤ δ) (h2 : |py - (ay + (k : ℝ) / n * (bY - ay))| ≤ δ)
    (h3 : |pz - (az + (k : ℝ) / n * (bz - az))| ≤ δ)
    (h4 : |qx - (ax + ((k + 1 : ℕ) : ℝ) / n * (bx - ax))| ≤ δ) (h5 : |qy - (ay + ((k + 1 : ℕ) : ℝ) / n * (bY - ay))| ≤ δ)
    (h6 : |qz - (az + ((k + 1 : ℕ) : ℝ) / n * (bz - az))| ≤ δ) :
    Real.sqrt ((px - qx) ^ 2 + (py - qy) ^ 2 + (pz - qz) ^ 2) ≤ (1 + 4 * e) * d + 4 * δ := by
  have hn0 : (0 : ℝ) < n := by exact_mod_cast hn.1
  obtain ⟨L, hL⟩ : ∃ L, L = Real.sqrt ((ax - bx) ^ 2 + (ay - bY) ^ 2 + (az - bz) ^ 2) := ⟨_, rfl⟩
  have hL0 : 0 ≤ L := hL ▸ Real.sqrt_nonneg _
  have hlen := hn.2.1
  rw [← hL] at hlen
  have hLn : L / n ≤ (1 + 4 * e) * d := by
    rw [div_le_iff₀ hn0]
    have h7 : (1 + 4 * e) * ((1 - 3 * e) * L) ≤ (1 + 4 * e) * (n * d) := mul_le_mul_of_nonneg_left hlen (by linarith)
    have h8 : L ≤ (1 + 4 * e) * ((1 - 3 * e) * L) := by
      have : 0 ≤ e * (1 - 12 * e) * L := mul_nonneg (mul_nonneg he (by linarith)) hL0
      nlinarith
    linarith
  have key : ∀ {p q a b : ℝ}, |p - (a + (k : ℝ) / n * (b - a))| ≤ δ → |q - (a + ((k + 1 : ℕ) : ℝ) / n * (b - a))| ≤ δ →
      ∃ x, p - q = (a - b) / n + x ∧ |x| ≤ 2 * δ := by
    intro p q a b h h'
    refine ⟨(p - (a + (k : ℝ) / n * (b - a))) - (q - (a + ((k + 1 : ℕ) : ℝ) / n * (b - a))), ?_, ?_⟩
    · push_cast; field_simp; ring
    · rw [abs_le] at *; constructor <;> linarith
  obtain ⟨x, ex, hx⟩ := key h1 h4
  obtain ⟨y, ey, hy⟩ := key h2 h5
  obtain ⟨z, ez, hz⟩ := key h3 h6
  rw [ex, ey, ez]
  refine (norm3_add _ _ _ _ _ _).trans ?_
  have hs := norm3_small hδ hx hy hz
  have e1 : Real.sqrt (((ax - bx) / n) ^ 2 + ((ay - bY) / n) ^ 2 + ((az - bz) / n) ^ 2) = L / n := by
    have : ((ax - bx) / n) ^ 2 + ((ay - bY) / n) ^ 2 + ((az - bz) / n) ^ 2 = ((ax - bx) ^ 2 + (ay - bY) ^ 2 + (az - bz) ^ 2) / (n : ℝ) ^ 2 := by
      field_simp
    rw [this, Real.sqrt_div' _ (by positivity), Real.sqrt_sq hn0.le, hL]
  rw [e1]
  linarith

theorem prec_le_16 (f : Fmt) : (2 : ℝ) ^ (-(f.prec : ℤ)) ≤ 1 / 16 := by
  have h := f.hprec
  calc (2 : ℝ) ^ (-(f.prec : ℤ)) ≤ (2 : ℝ) ^ (-4 : ℤ) := zpow_le_zpow_right₀ (by norm_num) (by omega)
    _ = 1 / 16 := by norm_num

/-- C84 (2D): consecutive points of the result are at most the distance apart, up to rounding. -/
theorem C84_step_length2 {s B : ℤ} {d : Flt f} (hd : d.isFin = true) (G : StepGrid f s B d.val) {pts out : List (V2 (Flt f))}
    (hg : ∀ p ∈ pts, OnGrid s B p) (h : Collects (discNext ops2) (discNew ops2 pts d) out) {i : ℕ} {p q : V2 (Flt f)}
    (hp : getElem? out i = some p) (hq : getElem? out (i + 1) = some q) :
    Real.sqrt (sqDist2 (exactR p) (exactR q)) ≤ (1 + 4 * (2 : ℝ) ^ (-(f.prec : ℤ))) * d.val + 4 * stepError f s B := by
  have hne : pts ≠ [] := by
    rintro rfl
    rw [collects_unique h (collects_all ops2 [] d)] at hp
    simp [allPoints] at hp
  obtain ⟨j, a, b, n, k, ha, hb, hn, hk, hnp, hnq⟩ := dividedNear_adjacent (E := exact) (fun a b n x hx => hx.2 rfl)
    (fun a b n hn => hn.1) (C84_divided2 hd G hg hne h) i p q hp hq
  have hB0 : 0 ≤ B := by
    obtain ⟨a1, a2, i1, i2, i3, i4⟩ := OnGrid.coords (hg a (List.mem_of_getElem? ha))
    exact (abs_nonneg _).trans i3
  have hδ := stepError_nonneg f s hB0
  have hd0 : (0 : ℝ) < d.val := by exact_mod_cast G.pos
  have hn0 : (0 : ℝ) < n := by exact_mod_cast hn.1
  have hq2 : |(exactR q).x - (lerp2 (exactR a) (exactR b) (((k + 1 : ℕ) : ℝ) / n)).x| ≤ stepError f s B ∧
      |(exactR q).y - (lerp2 (exactR a) (exactR b) (((k + 1 : ℕ) : ℝ) / n)).y| ≤ stepError f s B := by
    rcases hnq with hnq | ⟨e1, e2⟩
    · exact ⟨hnq.1.2.2.1, hnq.1.2.2.2⟩
    · have e3 : exactR q = exactR b := by
        show castV (exact _) = castV (exact _)
        rw [e2]
      rw [e3, e1, div_self hn0.ne']
      simp [lerp2, hδ]
  have hn' : StepCountWithin (3 * (2 : ℝ) ^ (-(f.prec : ℤ)))
      (Real.sqrt (((exactR a).x - (exactR b).x) ^ 2 + ((exactR a).y - (exactR b).y) ^ 2 + ((0 : ℝ) - 0) ^ 2)) d.val n := by
    have e : sqDist2 (exactR a) (exactR b) = ((exactR a).x - (exactR b).x) ^ 2 + ((exactR a).y - (exactR b).y) ^ 2 + ((0 : ℝ) - 0) ^ 2 := by
      unfold sqDist2; ring
    rw [← e]; exact hn
  have z0 : ∀ t : ℝ, |(0 : ℝ) - (0 + t * (0 - 0))| ≤ stepError f s B := by intro t; simpa using hδ
  have key := step_dist hδ hd0 (by positivity) (prec_le_16 f) hn' hnp.1.2.2.1 hnp.1.2.2.2 (z0 _) hq2.1 hq2.2 (z0 _)
  have e : sqDist2 (exactR p) (exactR q) = ((exactR p).x - (exactR q).x) ^ 2 + ((exactR p).y - (exactR q).y) ^ 2 + ((0 : ℝ) - 0) ^ 2 := by
    unfold sqDist2; ring
  rw [e]; exact key

/-- C84 (3D) -/
theorem C84_step_length3 {s B : ℤ} {d : Flt f} (hd : d.isFin = true) (G : StepGrid f s B d.val) {pts out : List (V3 (Flt f))}
    (hg : ∀ p ∈ pts, OnGrid3 s B p) (h : Collects (discNext ops3) (discNew ops3 pts d) out) {i : ℕ} {p q : V3 (Flt f)}
    (hp : getElem? out i = some p) (hq : getElem? out (i + 1) = some q) :
    Real.sqrt (sqDist3 (exactR3 p) (exactR3 q)) ≤ (1 + 4 * (2 : ℝ) ^ (-(f.prec : ℤ))) * d.val + 4 * stepError f s B := by
  have hne : pts ≠ [] := by
    rintro rfl
    rw [collects_unique h (collects_all ops3 [] d)] at hp
    simp [allPoints] at hp
  obtain ⟨j, a, b, n, k, ha, hb, hn, hk, hnp, hnq⟩ := dividedNear_adjacent (E := exact3) (fun a b n x hx => hx.2 rfl)
    (fun a b n hn => hn.1) (C84_divided3 hd G hg hne h) i p q hp hq
  have hB0 : 0 ≤ B := by
    obtain ⟨a1, a2, a3, i1, i2, i3, i4, i5, i6⟩ := coords3 (hg a (List.mem_of_getElem? ha))
    exact (abs_nonneg _).trans i4
  have hδ := stepError_nonneg f s hB0
  have hd0 : (0 : ℝ) < d.val := by exact_mod_cast G.pos
  have hn0 : (0 : ℝ) < n := by exact_mod_cast hn.1
  have hq2 : |(exactR3 q).x - (lerp3 (exactR3 a) (exactR3 b) (((k + 1 : ℕ) : ℝ) / n)).x| ≤ stepError f s B ∧
      |(exactR3 q).y - (lerp3 (exactR3 a) (exactR3 b) (((k + 1 : ℕ) : ℝ) / n)).y| ≤ stepError f s B ∧
      |(exactR3 q).z - (lerp3 (exactR3 a) (exactR3 b) (((k + 1 : ℕ) : ℝ) / n)).z| ≤ stepError f s B := by
    rcases hnq with hnq | ⟨e1, e2⟩
    · exact ⟨hnq.1.2.1, hnq.1.2.2.1, hnq.1.2.2.2⟩
    · have e3 : exactR3 q = exactR3 b := by
        have e : ∀ p : V3 (Flt f), exactR3 p = ⟨((exact3 p).x : ℝ), ((exact3 p).y : ℝ), ((exact3 p).z : ℝ)⟩ := fun _ => rfl
        rw [e, e, e2]
      rw [e3, e1, div_self hn0.ne']
      simp [lerp3, hδ]
  have e : ∀ a b : V3 ℝ, sqDist3 a b = (a.x - b.x) ^ 2 + (a.y - b.y) ^ 2 + (a.z - b.z) ^ 2 := by
    intro a b; unfold sqDist3; ring
  rw [e] at hn
  have key := step_dist hδ hd0 (by positivity) (prec_le_16 f) hn hnp.1.2.1 hnp.1.2.2.1 hnp.1.2.2.2 hq2.1 hq2.2.1 hq2.2.2
  rw [e]; exact key

/-! ## distances that are no distances -/

/-- the distances for which no point but the last is returned: NaN, an infinity, a negative number -/
def BadDistance (d : Flt f) : Prop := d.isFin = false ∨ d.val < 0

theorem toUsize_neg {x : Flt f} {s : Bool} {q : ℚ} (hq : q ≤ 0) (hx : x = Flt.ofQ s q) : Flt.toUsize (Flt.ceil x) = 0 := by
  have key : ∀ (t : Bool) (r : ℚ), r ≤ 0 → r ≠ 0 ∨ True → Flt.toUsize (Flt.ofQ t r : Flt f) = 0 := by
    intro t r hr _
    unfold Flt.ofQ
    split
    · split
      · rfl
      · rename_i h1 h2
        have h3 : roundQ f r ≤ 0 := by
          have := roundQ_nonneg f (q := -r) (by linarith)
          rw [roundQ_neg] at this
          linarith
        show min (roundQ f r).floor.toNat (2 ^ 64 - 1) = 0
        have h4 : (roundQ f r).floor ≤ 0 := by
          have : ((roundQ f r).floor : ℚ) ≤ 0 := le_trans (Rat.floor_le _) h3
          exact_mod_cast this
        rw [Int.toNat_of_nonpos h4]; rfl
    · rename_i h1
      have h2 : r < 0 := by
        rcases hr.lt_or_eq with h | h
        · exact h
        · rw [h, roundQ_zero, abs_zero] at h1
          exact absurd (pow2_pos _) h1
      show (if decide (r < 0) = true then 0 else 2 ^ 64 - 1) = 0
      rw [if_pos (by simpa using h2)]
  subst hx
  unfold Flt.ofQ
  split
  · split
    · rfl
    · rename_i h1 h2
      have h3 : roundQ f q ≤ 0 := by
        have := roundQ_nonneg f (q := -q) (by linarith)
        rw [roundQ_neg] at this
        linarith
      have h4 : ((roundQ f q).ceil : ℚ) ≤ 0 := by
        have : (roundQ f q).ceil ≤ 0 := Rat.ceil_le_iff.2 (by simpa using h3)
        exact_mod_cast this
      exact key _ _ h4 (Or.inr trivial)
  · rename_i h1
    have h2 : q < 0 := by
      rcases hq.lt_or_eq with h | h
      · exact h
      · rw [h, roundQ_zero, abs_zero] at h1
        exact absurd (pow2_pos _) h1
    show (if decide (q < 0) = true then 0 else 2 ^ 64 - 1) = 0
    rw [if_pos (by simpa using h2)]

theorem bad_count {d z : Flt f} {v : ℚ} (hd : BadDistance d) (hz : Is z v) (hv : 0 < v) :
    Scalar.toUsize (Scalar.ceil (Scalar.div z d)) = 0 := by
  show Flt.toUsize (Flt.ceil (Flt.div z d)) = 0
  rcases hd with hd | hd
  · obtain ⟨h1, h2⟩ := hz
    cases d with
    | nan => cases z <;> rfl
    | inf t =>
      cases z with
      | nan => cases h1
      | inf s => cases h1
      | zero s => rfl
      | fin q h => rfl
    | zero t => cases hd
    | fin q h => cases hd
  · have hf : d.isFin = true := by cases d <;> first | rfl | exact absurd hd (lt_irrefl _)
    have e := div_ofQ hz.1 hf hd.ne
    rw [hz.2] at e
    exact toUsize_neg (div_nonpos_of_nonneg_of_nonpos hv.le hd.le) e

theorem sqrt_pos {v : ℚ} {s : ℤ} {L : ℝ} (h1 : |(v : ℝ) - L| ≤ 65 / 64 * ((pow2 (-f.prec) : ℚ) : ℝ) * L)
    (h2 : ((pow2 s : ℚ) : ℝ) ≤ L) : 0 < v := by
  have hL : 0 < L := lt_of_lt_of_le (by exact_mod_cast pow2_pos s) h2
  have he : ((pow2 (-f.prec) : ℚ) : ℝ) ≤ 1 / 16 := by
    have := prec_le_16 f
    rw [pow2_eq]; push_cast; exact this
  have h3 : 65 / 64 * ((pow2 (-f.prec) : ℚ) : ℝ) * L ≤ 65 / 1024 * L := mul_le_mul_of_nonneg_right (by linarith) hL.le
  have h4 := (abs_le.1 (h1.trans h3)).1
  have : (0 : ℝ) < v := by linarith
  exact_mod_cast this

/-- the computed length of a segment between different grid points -/
theorem length_pos2 {s B : ℤ} (G : GoodGrid f s B) {a b : V2 (Flt f)} (ha : OnGrid s B a) (hb : OnGrid s B b)
    (hne : exact a ≠ exact b) : ∃ v, Is (V2.mag (V2.sub b a)) v ∧ 0 < v := by
  obtain ⟨a1, a2, i1, i2, i3, i4⟩ := OnGrid.coords ha
  obtain ⟨b1, b2, j1, j2, j3, j4⟩ := OnGrid.coords hb
  obtain ⟨dx, bx⟩ := grid_diff G j1 i1 j3 i3
  obtain ⟨dy, by'⟩ := grid_diff G j2 i2 j4 i4
  have hz : (b1 - a1) * (b1 - a1) + (b2 - a2) * (b2 - a2) ≠ 0 := by
    intro hz
    have hx0 : b1 - a1 = 0 := by nlinarith [mul_self_nonneg (b1 - a1), mul_self_nonneg (b2 - a2)]
    have hy0 : b2 - a2 = 0 := by nlinarith [mul_self_nonneg (b1 - a1), mul_self_nonneg (b2 - a2)]
    apply hne
    unfold exact
    rw [i1.2, i2.2, j1.2, j2.2, show a1 = b1 by omega, show a2 = b2 by omega]
  have hB0 : 0 ≤ B := (abs_nonneg _).trans i3
  have hB : 1 ≤ B := by
    by_contra hcon
    have : B = 0 := by omega
    rw [this, mul_zero, abs_nonpos_iff] at bx by'
    apply hz
    rw [bx, by']; rfl
  have hN1 : 1 ≤ (b1 - a1) * (b1 - a1) + (b2 - a2) * (b2 - a2) := by
    have := mul_self_nonneg (b1 - a1)
    have := mul_self_nonneg (b2 - a2)
    omega
  obtain ⟨hM, hMb⟩ := dot_exact G hB (v := V2.sub b a) (w := V2.sub b a) ⟨dx, dy⟩ ⟨dx, dy⟩ bx by' bx by'
  have hNp : (b1 - a1) * (b1 - a1) + (b2 - a2) * (b2 - a2) ≤ 2 ^ f.prec := by
    have h := pow_split f
    have : (0 : ℤ) < 2 ^ (f.prec - 3) := by positivity
    have := le_abs_self ((b1 - a1) * (b1 - a1) + (b2 - a2) * (b2 - a2))
    omega
  obtain ⟨v, hv, hverr, hvlow, -⟩ := sqrt_grid' G hB hM hN1 hNp
  exact ⟨v, hv, sqrt_pos hverr hvlow⟩

theorem length_pos3 {s B : ℤ} (G : GoodGrid f s B) {a b : V3 (Flt f)} (ha : OnGrid3 s B a) (hb : OnGrid3 s B b)
    (hne : exact3 a ≠ exact3 b) : ∃ v, Is (V3.mag (V3.sub b a)) v ∧ 0 < v := by
  obtain ⟨a1, a2, a3, i1, i2, i3, i4, i5, i6⟩ := coords3 ha
  obtain ⟨b1, b2, b3, j1, j2, j3, j4, j5, j6⟩ := coords3 hb
  have hB0 : 0 ≤ B := (abs_nonneg _).trans i4
  obtain ⟨dx, bx⟩ := grid_diff G j1 i1 j4 i4
  obtain ⟨dy, by'⟩ := grid_diff G j2 i2 j5 i5
  obtain ⟨dz, bz⟩ := grid_diff G j3 i3 j6 i6
  obtain ⟨N, hN⟩ : ∃ N : ℤ, N = (b1 - a1) * (b1 - a1) + (b2 - a2) * (b2 - a2) + (b3 - a3) * (b3 - a3) := ⟨_, rfl⟩
  have hnn1 := mul_self_nonneg (b1 - a1)
  have hnn2 := mul_self_nonneg (b2 - a2)
  have hnn3 := mul_self_nonneg (b3 - a3)
  have hz : N ≠ 0 := by
    intro hz
    have hx0 : b1 - a1 = 0 := mul_self_eq_zero.1 (by omega)
    have hy0 : b2 - a2 = 0 := mul_self_eq_zero.1 (by omega)
    have hz0 : b3 - a3 = 0 := mul_self_eq_zero.1 (by omega)
    apply hne
    unfold exact3
    rw [i1.2, i2.2, i3.2, j1.2, j2.2, j3.2, show a1 = b1 by omega, show a2 = b2 by omega, show a3 = b3 by omega]
  have hB : 1 ≤ B := by
    by_contra hcon
    have : B = 0 := by omega
    rw [this, mul_zero, abs_nonpos_iff] at bx by' bz
    apply hz
    rw [hN, bx, by', bz]; rfl
  obtain ⟨hM, hMb⟩ := sum3_exact G hB dx dy dz bx by' bz
  rw [← hN] at hM hMb
  have hNp : N ≤ 2 ^ f.prec := by
    have h : (2 : ℤ) ^ (f.prec - 1) ≤ 2 ^ f.prec := pow_le_pow_right₀ (by norm_num) (by omega)
    omega
  obtain ⟨v, hv, hverr, hvlow, -⟩ := sqrt_grid' G hB hM (by omega) hNp
  exact ⟨v, hv, sqrt_pos hverr hvlow⟩

theorem bad_all {P Q : Type} (o : VecOps P (Flt f)) {E : P → Q} {d : Flt f} (hd : BadDistance d) :
    ∀ {pts : List P}, (∀ a ∈ pts, ∀ b ∈ pts, E a ≠ E b → ∃ v, Is (o.mag (o.sub b a)) v ∧ 0 < v) →
    (pts.map E).IsChain (· ≠ ·) → allPoints o d pts = pts.getLast?.toList
  | [], _, _ => rfl
  | [p], _, _ => rfl
  | a :: b :: rest, hl, hc => by
    rw [List.map_cons, List.map_cons, List.isChain_cons_cons] at hc
    obtain ⟨v, hv, h0⟩ := hl a (by simp) b (by simp) hc.1
    have hlt : Scalar.lt Scalar.zero (o.mag (o.sub b a)) = true := by
      have := is_lt (is_zeroQ (f := f)) hv
      exact this.trans (by simpa using h0)
    have e := segPoints_pos o (d := d) hlt (bad_count hd hv h0)
    rw [List.range_zero, List.map_nil] at e
    show segPoints o d a b ++ allPoints o d (b :: rest) = _
    rw [e, List.nil_append, List.getLast?_cons_cons]
    exact bad_all o hd (fun x hx y hy => hl x (List.mem_cons_of_mem _ hx) y (List.mem_cons_of_mem _ hy)) hc.2

/-- C84: with a NaN, infinite or negative distance only the last point of a line string (of grid points, neighbours
different) is returned. -/
theorem C84_bad_distance2 {s B : ℤ} (G : GoodGrid f s B) {d : Flt f} (hd : d.isFin = false ∨ d.val < 0) {pts out : List (V2 (Flt f))}
    (hg : ∀ p ∈ pts, OnGrid s B p) (hne : (pts.map exact).IsChain (· ≠ ·))
    (h : Collects (discNext ops2) (discNew ops2 pts d) out) : out = pts.getLast?.toList := by
  rw [collects_unique h (collects_all ops2 pts d)]
  exact bad_all ops2 (E := exact) hd (fun a ha b hb hab => length_pos2 G (hg a ha) (hg b hb) hab) hne

/-- C84: the same in space -/
theorem C84_bad_distance3 {s B : ℤ} (G : GoodGrid f s B) {d : Flt f} (hd : d.isFin = false ∨ d.val < 0) {pts out : List (V3 (Flt f))}
    (hg : ∀ p ∈ pts, OnGrid3 s B p) (hne : (pts.map exact3).IsChain (· ≠ ·))
    (h : Collects (discNext ops3) (discNew ops3 pts d) out) : out = pts.getLast?.toList := by
  rw [collects_unique h (collects_all ops3 pts d)]
  exact bad_all ops3 (E := exact3) hd (fun a ha b hb hab => length_pos3 G (hg a ha) (hg b hb) hab) hne

/-- a coordinate of a segment divided into infinitely many parts -/
theorem coord_inf {p D : Flt f} {v w : ℚ} (he : 64 < f.emax) (hp : Is p v) (hD : Is D w) {i : ℕ} (hi : i < 2 ^ 64) (t : Bool) :
    Is (Scalar.add p (Scalar.mul (Scalar.div D (.inf t)) (Scalar.ofUsize i))) v := by
  have hr : Repr f v := is_repr hp
  have h0 : Is (Scalar.div D (.inf t)) 0 := by
    obtain ⟨h1, h2⟩ := hD
    cases D with
    | nan => cases h1
    | inf s => cases h1
    | zero s => exact ⟨rfl, rfl⟩
    | fin q h => exact ⟨rfl, rfl⟩
  have hi' : Is (Scalar.ofUsize i : Flt f) (roundQ f i) := by
    refine is_ofQ false ?_
    have h64 : Repr f (pow2 64) := by
      refine ⟨?_, 1, 64, by norm_num, ?_, ?_⟩
      · rw [abs_of_pos (pow2_pos _)]; exact pow2_lt he
      · have := f.hprec
        rw [abs_one]
        exact one_lt_pow₀ (by norm_num) (by omega)
      · have := f.hemin
        omega
    refine lt_of_le_of_lt (Proofs.FloatIntersect.abs_roundQ_le h64 ?_) (pow2_lt he)
    rw [abs_of_nonneg (by positivity), pow2_eq]
    have : (i : ℚ) ≤ 2 ^ 64 := by exact_mod_cast hi.le
    exact_mod_cast this
  have hm : Is (Scalar.mul (Scalar.div D (.inf t)) (Scalar.ofUsize i)) (roundQ f (0 * roundQ f i)) := is_mul h0 hi' (by
    rw [zero_mul, roundQ_zero, abs_zero]; exact pow2_pos _)
  rw [zero_mul, roundQ_zero] at hm
  have ha := is_add hp hm (by rw [add_zero, hr.fix]; exact hr.1)
  rw [add_zero, hr.fix] at ha
  exact ha

/-- C84: with the distance 0 the first `2^64 - 1` points are all equal to the first point. -/
theorem C84_zero_distance2 {s B : ℤ} (G : GoodGrid f s B) (he : 64 < f.emax) {a b : V2 (Flt f)} {rest out : List (V2 (Flt f))}
    (ha : OnGrid s B a) (hb : OnGrid s B b) (hne : exact a ≠ exact b)
    (h : Collects (discNext ops2) (discNew ops2 (a :: b :: rest) (.zero false)) out) (i : ℕ) (hi : i < 2 ^ 64 - 1) :
    ∃ x, getElem? out i = some x ∧ exact x = exact a ∧ x.x.isFin = true ∧ x.y.isFin = true := by
  rw [collects_unique h (collects_all ops2 _ _)]
  obtain ⟨v, hv, h0⟩ := length_pos2 G ha hb hne
  obtain ⟨a1, a2, i1, i2, i3, i4⟩ := OnGrid.coords ha
  obtain ⟨b1, b2, j1, j2, j3, j4⟩ := OnGrid.coords hb
  obtain ⟨dx, bx⟩ := grid_diff G j1 i1 j3 i3
  obtain ⟨dy, by'⟩ := grid_diff G j2 i2 j4 i4
  have hlt : Scalar.lt Scalar.zero (V2.mag (V2.sub b a)) = true := by
    have := is_lt (is_zeroQ (f := f)) hv
    exact this.trans (by simpa using h0)
  have hdiv : Scalar.div (V2.mag (V2.sub b a)) (.zero false) = .inf false := by
    have := div_zero_inf hv h0.ne' (b := .zero false) ⟨rfl, rfl⟩
    refine this.trans ?_
    rw [sign_pos hv h0]
    rfl
  have hceil : Scalar.ceil (Scalar.div (V2.mag (V2.sub b a)) (.zero false)) = .inf false := by rw [hdiv]; rfl
  have hn : Scalar.toUsize (Scalar.ceil (Scalar.div (V2.mag (V2.sub b a)) (.zero false))) = 2 ^ 64 - 1 := by rw [hceil]; rfl
  have e := segPoints_pos ops2 (a := a) (b := b) (d := .zero false) hlt hn
  have hlen : (segPoints ops2 (.zero false) a b).length = 2 ^ 64 - 1 := by rw [e, List.length_map, List.length_range]
  show ∃ x, getElem? (segPoints ops2 (.zero false) a b ++ allPoints ops2 (.zero false) (b :: rest)) i = some x ∧ _
  rw [List.getElem?_append_left (by rw [hlen]; exact hi), e, List.getElem?_map, List.getElem?_range hi]
  refine ⟨_, rfl, ?_⟩
  have c1 := coord_inf he i1 dx (i := i) (by omega) false
  have c2 := coord_inf he i2 dy (i := i) (by omega) false
  have e2 : ops2.add a (ops2.smul (ops2.sdiv (ops2.sub b a) (Scalar.ceil (Scalar.div (ops2.mag (ops2.sub b a)) (.zero false)))) (Scalar.ofUsize i))
      = V2.add a (V2.smul (V2.sdiv (V2.sub b a) (.inf false)) (Scalar.ofUsize i)) := by rw [← hceil]; rfl
  beta_reduce
  rw [e2]
  refine ⟨?_, c1.1, c2.1⟩
  unfold exact
  rw [i1.2, i2.2]
  exact congrArg₂ V2.mk c1.2 c2.2

/-! ## coordinates that are too large -/

theorem pow2_repr {k : ℤ} (h1 : f.emin ≤ k) (h2 : k < f.emax) : Repr f (pow2 k) := by
  refine ⟨?_, 1, k, by norm_num, ?_, h1⟩
  · rw [abs_of_pos (pow2_pos _)]; exact pow2_lt h2
  · have := f.hprec
    rw [abs_one]
    exact one_lt_pow₀ (by norm_num) (by omega)

theorem round_ge {k : ℤ} {q : ℚ} (h1 : f.emin ≤ k) (h : pow2 k ≤ |q|) : pow2 k ≤ |roundQ f q| := by
  have hf : roundQ f (pow2 k) = pow2 k := by
    have := roundQ_fix f 1 k (by rw [abs_one]; exact one_le_pow₀ (by norm_num)) h1
    rwa [Int.cast_one, one_mul] at this
  rcases abs_choice q with e | e
  · rw [e] at h
    have := roundQ_mono f h
    rw [hf] at this
    exact this.trans (le_abs_self _)
  · rw [e] at h
    have := roundQ_mono f h
    rw [hf, roundQ_neg] at this
    exact this.trans (neg_le_abs _)

/-- a square is not negative -/
theorem square_cases {x : Flt f} (hx : x.isFin = true) : Flt.mul x x = .inf false ∨ ∃ v, Is (Flt.mul x x) v ∧ 0 ≤ v := by
  by_cases h : |roundQ f (x.val * x.val)| < pow2 f.emax
  · exact Or.inr ⟨_, is_mul (is_self hx) (is_self hx) h, roundQ_nonneg f (mul_self_nonneg _)⟩
  · left
    rw [mul_ofQ hx hx]
    unfold Flt.ofQ
    rw [dif_neg h, decide_eq_false (not_lt.2 (mul_self_nonneg _))]

theorem square_large {x : Flt f} {k : ℤ} (hx : x.isFin = true) (hk : f.emax ≤ 2 * k) (h : pow2 k ≤ |x.val|) :
    Flt.mul x x = .inf false := by
  have h2 : pow2 f.emax ≤ |x.val * x.val| := by
    rw [abs_mul]
    calc pow2 f.emax ≤ pow2 (k + k) := pow2_le (by omega)
      _ = pow2 k * pow2 k := pow2_add _ _
      _ ≤ |x.val| * |x.val| := mul_le_mul h h (pow2_pos _).le (abs_nonneg _)
  have h3 := round_ge (f := f) (by have := f.hemin; have := f.hemax; omega) h2
  rw [mul_ofQ hx hx]
  unfold Flt.ofQ
  rw [dif_neg (not_lt.2 h3), decide_eq_false (not_lt.2 (mul_self_nonneg _))]

theorem inf_add {x : Flt f} (h : x = .inf false ∨ ∃ v, Is x v ∧ 0 ≤ v) : Flt.add (.inf false) x = .inf false := by
  rcases h with rfl | ⟨v, h, -⟩
  · rfl
  · obtain ⟨h1, -⟩ := h
    cases x with
    | nan => cases h1
    | inf s => cases h1
    | zero s => rfl
    | fin q h => rfl

theorem add_inf {x : Flt f} (h : x = .inf false ∨ ∃ v, Is x v ∧ 0 ≤ v) : Flt.add x (.inf false) = .inf false := by
  rcases h with rfl | ⟨v, h, -⟩
  · rfl
  · obtain ⟨h1, -⟩ := h
    cases x with
    | nan => cases h1
    | inf s => cases h1
    | zero s => rfl
    | fin q h => rfl

/-- the computed length of a long vector is infinite -/
theorem mag_inf {x y : Flt f} {k : ℤ} (hx : x.isFin = true) (hy : y.isFin = true) (hk : f.emax ≤ 2 * k)
    (h : pow2 k ≤ |x.val| ∨ pow2 k ≤ |y.val|) : V2.mag (⟨x, y⟩ : V2 (Flt f)) = .inf false := by
  have e : V2.magSq (⟨x, y⟩ : V2 (Flt f)) = .inf false := by
    show Flt.add (Flt.mul x x) (Flt.mul y y) = _
    rcases h with h | h
    · rw [square_large hx hk h]; exact inf_add (square_cases hy)
    · rw [square_large hy hk h]; exact add_inf (square_cases hx)
  show Scalar.sqrt (V2.magSq (⟨x, y⟩ : V2 (Flt f))) = _
  rw [e]; rfl

theorem inf_div {d : Flt f} (hd : d.isFin = true) (h : 0 < d.val) : Flt.div (.inf false) d = .inf false := by
  cases d with
  | nan => cases hd
  | inf s => cases hd
  | zero s => exact absurd h (lt_irrefl _)
  | fin q hq =>
    show (Flt.inf (false != decide (q < 0)) : Flt f) = _
    have h' : 0 < q := h
    rw [decide_eq_false (not_lt.2 h'.le)]; rfl

/-- C84: the coordinates need a bound.  If two neighbours are so far apart that the square of their distance is not
a float (about `2^512` in `f64`, `2^64` in `f32`), the computed length is infinite and, whatever the distance asked for,
`2^64 - 1` copies of the first point are returned. -/
theorem C84_huge_coordinates2 (he : 64 < f.emax) {k : ℤ} (hk : f.emax ≤ 2 * k) {d : Flt f} (hd : d.isFin = true) (hd0 : 0 < d.val)
    {a b : V2 (Flt f)} {rest out : List (V2 (Flt f))}
    (ha : a.x.isFin = true ∧ a.y.isFin = true) (hb : b.x.isFin = true ∧ b.y.isFin = true)
    (hfit : |b.x.val - a.x.val| ≤ (2 : ℚ) ^ (f.emax - 1) ∧ |b.y.val - a.y.val| ≤ (2 : ℚ) ^ (f.emax - 1))
    (hfar : (2 : ℚ) ^ k ≤ |b.x.val - a.x.val| ∨ (2 : ℚ) ^ k ≤ |b.y.val - a.y.val|)
    (h : Collects (discNext ops2) (discNew ops2 (a :: b :: rest) d) out) (i : ℕ) (hi : i < 2 ^ 64 - 1) :
    ∃ x, getElem? out i = some x ∧ exact x = exact a ∧ x.x.isFin = true ∧ x.y.isFin = true := by
  rw [collects_unique h (collects_all ops2 _ _)]
  rw [← pow2_eq] at hfar
  rw [← pow2_eq] at hfit
  have hm1 := f.hemin
  have hm2 := f.hemax
  have hlt : ∀ {q : ℚ}, |q| ≤ pow2 (f.emax - 1) → |roundQ f q| < pow2 f.emax := by
    intro q hq
    exact lt_of_le_of_lt (Proofs.FloatIntersect.abs_roundQ_le (pow2_repr (by omega) (by omega)) hq) (pow2_lt (by omega))
  have dx := is_sub (is_self hb.1) (is_self ha.1) (hlt hfit.1)
  have dy := is_sub (is_self hb.2) (is_self ha.2) (hlt hfit.2)
  have hmag : V2.mag (V2.sub b a) = .inf false := by
    refine mag_inf dx.1 dy.1 hk ?_
    have hk0 : f.emin ≤ k := by omega
    rcases hfar with h | h
    · left
      show pow2 k ≤ |(Flt.sub b.x a.x).val|
      rw [dx.2]; exact round_ge hk0 h
    · right
      show pow2 k ≤ |(Flt.sub b.y a.y).val|
      rw [dy.2]; exact round_ge hk0 h
  have hpos : Scalar.lt Scalar.zero (V2.mag (V2.sub b a)) = true := by rw [hmag]; rfl
  have hdiv : Scalar.div (V2.mag (V2.sub b a)) d = .inf false := by rw [hmag]; exact inf_div hd hd0
  have hceil : Scalar.ceil (Scalar.div (V2.mag (V2.sub b a)) d) = .inf false := by rw [hdiv]; rfl
  have hn : Scalar.toUsize (Scalar.ceil (Scalar.div (V2.mag (V2.sub b a)) d)) = 2 ^ 64 - 1 := by rw [hceil]; rfl
  have e := segPoints_pos ops2 (a := a) (b := b) (d := d) hpos hn
  have hlen : (segPoints ops2 d a b).length = 2 ^ 64 - 1 := by rw [e, List.length_map, List.length_range]
  show ∃ x, getElem? (segPoints ops2 d a b ++ allPoints ops2 d (b :: rest)) i = some x ∧ _
  rw [List.getElem?_append_left (by rw [hlen]; exact hi), e, List.getElem?_map, List.getElem?_range hi]
  refine ⟨_, rfl, ?_⟩
  have c1 := coord_inf he (is_self ha.1) dx (i := i) (by omega) false
  have c2 := coord_inf he (is_self ha.2) dy (i := i) (by omega) false
  have e2 : ops2.add a (ops2.smul (ops2.sdiv (ops2.sub b a) (Scalar.ceil (Scalar.div (ops2.mag (ops2.sub b a)) d))) (Scalar.ofUsize i))
      = V2.add a (V2.smul (V2.sdiv (V2.sub b a) (.inf false)) (Scalar.ofUsize i)) := by rw [← hceil]; rfl
  beta_reduce
  rw [e2]
  refine ⟨?_, c1.1, c2.1⟩
  exact congrArg₂ V2.mk c1.2 c2.2

end

/-! ## the hypotheses can be met -/

/-- `f64`, integers up to 2^23: the distance may be anything between `2^-20` and `2^1000` -/
theorem stepGrid64 {d : ℚ} (h1 : 1 / 2 ^ 20 ≤ d) (h2 : d ≤ 2 ^ 1000) : StepGrid b64 0 (2 ^ 23) d := by
  refine ⟨goodGrid64, by norm_num [b64], lt_of_lt_of_le (by norm_num) h1, ?_, ?_⟩
  · have e : min (b64.prec - 2) 62 = 51 := by decide
    rw [e]
    norm_num
    linarith
  · have e : (0 : ℤ) - b64.emin - b64.prec = ((1021 : ℕ) : ℤ) := by norm_num [b64]
    rw [e, zpow_natCast]
    exact h2.trans (pow_le_pow_right₀ (by norm_num) (by norm_num))

/-- `f32`, integers up to 511: the distance may be anything between `2^-10` and `2^100` -/
theorem stepGrid32 {d : ℚ} (h1 : 1 / 2 ^ 10 ≤ d) (h2 : d ≤ 2 ^ 100) : StepGrid b32 0 511 d := by
  refine ⟨goodGrid32, by norm_num [b32], lt_of_lt_of_le (by norm_num) h1, ?_, ?_⟩
  · have e : min (b32.prec - 2) 62 = 22 := by decide
    rw [e]
    norm_num
    linarith
  · have e : (0 : ℤ) - b32.emin - b32.prec = ((125 : ℕ) : ℤ) := by norm_num [b32]
    rw [e, zpow_natCast]
    exact h2.trans (pow_le_pow_right₀ (by norm_num) (by norm_num))

/-- the line string (0,0), (3,4), (3,4), (1000000,4) in `f64` -/
def discLine64 : List (V2 F64) := [ipt b64 0 0, ipt b64 3 4, ipt b64 3 4, ipt b64 1000000 4]

theorem discLine64_onGrid : ∀ p ∈ discLine64, OnGrid 0 (2 ^ 23) p := by
  intro p hp
  simp only [discLine64, List.mem_cons, List.not_mem_nil, or_false] at hp
  rcases hp with rfl | rfl | rfl | rfl <;> exact (onGrid_ipt goodGrid64 (by norm_num) (by norm_num)).1

/-- the hypotheses of `C84_divided2`, `C84_keeps_points2` and `C84_step_length2` are met -/
theorem example84_2 [Libm b64] : ∃ out, Collects (discNext ops2) (discNew ops2 discLine64 (Flt.ofQ false 2)) out ∧
    (discLine64.map exact).Sublist (out.map exact) ∧ out.getLast? = some (ipt b64 1000000 4) := by
  have h2 : Is (Flt.ofQ false 2 : F64) 2 := by
    have := is_ofQ_repr (f := b64) false (repr_int b64 2 (by norm_num [b64]))
    exact_mod_cast this
  refine ⟨_, collects_all ops2 _ _, ?_⟩
  have G : StepGrid b64 0 (2 ^ 23) (Flt.ofQ false 2 : F64).val := by
    rw [h2.2]; exact stepGrid64 (by norm_num) (le_self_pow₀ (by norm_num) (by norm_num))
  have := C84_keeps_points2 h2.1 G discLine64_onGrid (collects_all ops2 _ _)
  exact ⟨this.1, this.2.trans rfl⟩

/-- in space -/
def discLine32 : List (V3 F32) := [ipt3 b32 0 0 0, ipt3 b32 3 4 12, ipt3 b32 (-100) 7 511]

theorem discLine32_onGrid : ∀ p ∈ discLine32, OnGrid3 0 511 p := by
  intro p hp
  simp only [discLine32, List.mem_cons, List.not_mem_nil, or_false] at hp
  rcases hp with rfl | rfl | rfl <;> exact (onGrid3_ipt goodGrid32 (by norm_num) (by norm_num) (by norm_num)).1

theorem example84_3 [Libm b32] : ∃ out, Collects (discNext ops3) (discNew ops3 discLine32 (Flt.ofQ false 2)) out ∧
    (discLine32.map exact3).Sublist (out.map exact3) ∧ out.getLast? = some (ipt3 b32 (-100) 7 511) := by
  have h2 : Is (Flt.ofQ false 2 : F32) 2 := by
    have := is_ofQ_repr (f := b32) false (repr_int b32 2 (by norm_num [b32]))
    exact_mod_cast this
  refine ⟨_, collects_all ops3 _ _, ?_⟩
  have G : StepGrid b32 0 511 (Flt.ofQ false 2 : F32).val := by
    rw [h2.2]; exact stepGrid32 (by norm_num) (by norm_num)
  have := C84_keeps_points3 h2.1 G discLine32_onGrid (collects_all ops3 _ _)
  exact ⟨this.1, this.2.trans rfl⟩

/-- the hypotheses of `C84_bad_distance2` and `C84_zero_distance2` are met -/
theorem example84_bad [Libm b64] (d : F64) (hd : d.isFin = false ∨ d.val < 0) :
    Collects (discNext ops2) (discNew ops2 [ipt b64 0 0, ipt b64 3 4, ipt b64 7 4] d) [ipt b64 7 4] := by
  have hg : ∀ p ∈ [ipt b64 0 0, ipt b64 3 4, ipt b64 7 4], OnGrid 0 (2 ^ 23) p := by
    intro p hp
    simp only [List.mem_cons, List.not_mem_nil, or_false] at hp
    rcases hp with rfl | rfl | rfl <;> exact (onGrid_ipt goodGrid64 (by norm_num) (by norm_num)).1
  have h := collects_all ops2 [ipt b64 0 0, ipt b64 3 4, ipt b64 7 4] d
  have e := C84_bad_distance2 goodGrid64 hd hg (by
    simp only [List.map_cons, List.map_nil]
    rw [(onGrid_ipt goodGrid64 (by norm_num) (by norm_num)).2, (onGrid_ipt goodGrid64 (by norm_num) (by norm_num)).2,
      (onGrid_ipt goodGrid64 (by norm_num) (by norm_num)).2]
    simp) h
  rw [e] at h
  exact h

/-- the hypotheses of `C84_huge_coordinates2` are met: from (0,0) to (2^600,0) in steps of 2^590 -/
theorem example84_huge [Libm b64] : ∃ out, Collects (discNext ops2)
    (discNew ops2 [(⟨.zero false, .zero false⟩ : V2 F64), ⟨Flt.ofQ false (pow2 600), .zero false⟩] (Flt.ofQ false (pow2 590))) out ∧
    ∃ x, getElem? out 1000000 = some x ∧ exact x = ⟨0, 0⟩ := by
  have r : ∀ k : ℤ, 0 ≤ k → k < 1024 → Is (Flt.ofQ false (pow2 k) : F64) (pow2 k) := fun k h1 h2 =>
    is_ofQ_repr false (pow2_repr (f := b64) (by show (-1074 : ℤ) ≤ k; omega) (by show k < (1024 : ℤ); omega))
  have h600 := r 600 (by norm_num) (by norm_num)
  have h590 := r 590 (by norm_num) (by norm_num)
  generalize (Flt.ofQ false (pow2 600) : F64) = w at *
  generalize (Flt.ofQ false (pow2 590) : F64) = d at *
  refine ⟨_, collects_all ops2 _ _, ?_⟩
  obtain ⟨x, h1, h2, -⟩ := C84_huge_coordinates2 (f := b64) (by norm_num [b64]) (k := 600) (by norm_num [b64]) h590.1
    (by rw [h590.2]; exact pow2_pos _) (a := ⟨.zero false, .zero false⟩) (b := ⟨w, .zero false⟩) (rest := [])
    ⟨rfl, rfl⟩ ⟨h600.1, rfl⟩ (by
      have e : (Flt.zero false : F64).val = 0 := rfl
      rw [e, h600.2, sub_zero, sub_zero, abs_zero, abs_of_pos (pow2_pos _), ← pow2_eq]
      exact ⟨pow2_le (by show (600 : ℤ) ≤ 1024 - 1; norm_num), (pow2_pos _).le⟩)
    (by
      left
      have e : (Flt.zero false : F64).val = 0 := rfl
      rw [e, h600.2, sub_zero, abs_of_pos (pow2_pos _), ← pow2_eq])
    (collects_all ops2 _ _) 1000000 (by norm_num)
  exact ⟨x, h1, h2⟩

/-- C84: the number of steps can differ from the exact one.  In `f64` the number nearest to 0.3 is a little less than
0.3, so ten steps do not suffice for the length 3, but the computed quotient is 10. -/
theorem C84_count_is_rounded :
    let _ : Libm b64 := ⟨fun _ _ => .nan⟩
    (allPoints ops2 (Flt.ofQ false (3 / 10) : F64) [ipt b64 0 0, ipt b64 3 0]).length = 11 ∧
      10 * (Flt.ofQ false (3 / 10) : F64).val < 3 := by
  decide +kernel

/-- C84: the last point of a line string is not an issue, but a start point is lost if the quotient of length and distance
is less than the least positive float. -/
theorem C84_underflow_drops_points :
    let _ : Libm b64 := ⟨fun _ _ => .nan⟩
    allPoints ops2 (Flt.ofQ false (Fl.pow2 1000) : F64) [⟨.zero false, .zero false⟩, ⟨Flt.ofQ false (Fl.pow2 (-100)), .zero false⟩] =
      [⟨Flt.ofQ false (Fl.pow2 (-100)), .zero false⟩] := by
  decide +kernel

end Verif.Props
