import Verif.Props.Discretize
import Verif.Spec.Similar
import Mathlib.Tactic.LinearCombination
/-!
# C94: `discretize` commutes with similarity maps and with reversing the line
-/
namespace Verif.Props.Discretize
open Verif Verif.Model Verif.Spec Scalar
set_option linter.unusedSectionVars false

section
variable {K : Type} [Field K] [LinearOrder K] [IsStrictOrderedRing K]

theorem step_unique {sq d : K} (hd : 0 < d) {n m : Nat} (hn : IsStepCount sq d n) (hm : IsStepCount sq d m) : n = m := by
  have key : ∀ {n m : Nat}, IsStepCount sq d n → IsStepCount sq d m → ¬ n < m := by
    intro n m hn hm hlt
    rcases hm.2.2 with h | h
    · have := hn.1; omega
    · have h1 : (n : K) ≤ (m : K) - 1 := by
        have : ((n + 1 : Nat) : K) ≤ (m : K) := by exact_mod_cast hlt
        push_cast at this
        linarith
      have h2 : (n : K) * d ≤ ((m : K) - 1) * d := mul_le_mul_of_nonneg_right h1 hd.le
      have h3 : (0 : K) ≤ (n : K) * d := by positivity
      have h4 := pow_le_pow_left₀ h3 h2 2
      have := hn.2.1
      linarith
  have := key hn hm
  have := key hm hn
  omega

theorem step_scale {sq d c : K} (hc : 0 < c) {n : Nat} : IsStepCount (c ^ 2 * sq) (c * d) n ↔ IsStepCount sq d n := by
  have hc2 : 0 < c ^ 2 := by positivity
  unfold IsStepCount
  rw [show ((n : K) * (c * d)) ^ 2 = c ^ 2 * ((n : K) * d) ^ 2 by ring,
    show (((n : K) - 1) * (c * d)) ^ 2 = c ^ 2 * (((n : K) - 1) * d) ^ 2 by ring,
    mul_le_mul_iff_right₀ hc2, mul_lt_mul_iff_right₀ hc2]

/-- a division is determined by the line when the numbers of steps are -/
theorem divided_unique {P : Type} {lerp : P → P → K → P} {count : P → P → Nat → Prop}
    {pts out out' : List P} (h : Divided lerp count pts out) (h' : Divided lerp count pts out')
    (hc : ∀ a b n m, count a b n → count a b m → n = m) : out = out' := by
  induction h generalizing out' with
  | last p => cases h'; rfl
  | seg a b rest out n hn h ih =>
    cases h' with
    | seg _ _ _ out2 m hm h2 =>
      rw [hc a b n m hn hm, ih h2]

theorem divided_map {P : Type} {lerp : P → P → K → P} {count count' : P → P → Nat → Prop} (f : P → P)
    (hl : ∀ a b t, f (lerp a b t) = lerp (f a) (f b) t) (hc : ∀ a b n, count a b n → count' (f a) (f b) n)
    {pts out : List P} (h : Divided lerp count pts out) : Divided lerp count' (pts.map f) (out.map f) := by
  induction h with
  | last p => exact .last (f p)
  | seg a b rest out n hn h ih =>
    rw [List.map_append, List.map_map]
    have : ((List.range n).map (f ∘ fun i : Nat => lerp a b ((i : K) / (n : K)))) =
        (List.range n).map (fun i : Nat => lerp (f a) (f b) ((i : K) / (n : K))) := by
      refine List.map_congr_left fun i _ => ?_
      exact hl a b _
    rw [this]
    exact .seg (f a) (f b) (rest.map f) (out.map f) n (hc a b n hn) ih

/-- similarity maps keep the points that divide a segment in a ratio (Stewart's theorem) -/
theorem similar_lerp2 {c : K} {f : V2 K → V2 K} (hf : IsSimilarity2 c f) (a b : V2 K) (t : K) :
    f (lerp2 a b t) = lerp2 (f a) (f b) t := by
  obtain ⟨hc, hf⟩ := hf
  have e1 := hf a (lerp2 a b t)
  have e2 := hf (lerp2 a b t) b
  have e3 := hf a b
  generalize f (lerp2 a b t) = q at *
  generalize f a = a' at *
  generalize f b = b' at *
  have stewart : sqDist2 q (lerp2 a' b' t) = (1 - t) * sqDist2 a' q + t * sqDist2 q b' - t * (1 - t) * sqDist2 a' b' := by
    simp only [sqDist2, lerp2]; ring
  have z : sqDist2 q (lerp2 a' b' t) = 0 := by
    rw [stewart, e1, e2, e3]; simp only [sqDist2, lerp2]; ring
  unfold sqDist2 at z
  have h1 := sq_nonneg (q.x - (lerp2 a' b' t).x)
  have h2 := sq_nonneg (q.y - (lerp2 a' b' t).y)
  have z1 : (q.x - (lerp2 a' b' t).x) ^ 2 = 0 := by linarith
  have z2 : (q.y - (lerp2 a' b' t).y) ^ 2 = 0 := by linarith
  rw [sq_eq_zero_iff, sub_eq_zero] at z1 z2
  generalize lerp2 a' b' t = r at *
  cases q; cases r
  simp only at z1 z2
  rw [z1, z2]

theorem similar_lerp3 {c : K} {f : V3 K → V3 K} (hf : IsSimilarity3 c f) (a b : V3 K) (t : K) :
    f (lerp3 a b t) = lerp3 (f a) (f b) t := by
  obtain ⟨hc, hf⟩ := hf
  have e1 := hf a (lerp3 a b t)
  have e2 := hf (lerp3 a b t) b
  have e3 := hf a b
  generalize f (lerp3 a b t) = q at *
  generalize f a = a' at *
  generalize f b = b' at *
  have stewart : sqDist3 q (lerp3 a' b' t) = (1 - t) * sqDist3 a' q + t * sqDist3 q b' - t * (1 - t) * sqDist3 a' b' := by
    simp only [sqDist3, lerp3]; ring
  have z : sqDist3 q (lerp3 a' b' t) = 0 := by
    rw [stewart, e1, e2, e3]; simp only [sqDist3, lerp3]; ring
  unfold sqDist3 at z
  have h1 := sq_nonneg (q.x - (lerp3 a' b' t).x)
  have h2 := sq_nonneg (q.y - (lerp3 a' b' t).y)
  have h3 := sq_nonneg (q.z - (lerp3 a' b' t).z)
  have z1 : (q.x - (lerp3 a' b' t).x) ^ 2 = 0 := by linarith
  have z2 : (q.y - (lerp3 a' b' t).y) ^ 2 = 0 := by linarith
  have z3 : (q.z - (lerp3 a' b' t).z) ^ 2 = 0 := by linarith
  rw [sq_eq_zero_iff, sub_eq_zero] at z1 z2 z3
  generalize lerp3 a' b' t = r at *
  cases q; cases r
  simp only at z1 z2 z3
  rw [z1, z2, z3]

/-- a segment more at the end of a division -/
theorem divided_snoc {P : Type} {lerp : P → P → K → P} {count : P → P → Nat → Prop}
    (h1 : ∀ a b, lerp a b 1 = b) (h0 : ∀ a b, lerp a b 0 = a) (pos : ∀ a b n, count a b n → 1 ≤ n) {pts out : List P} {a b : P} {n : Nat} (h : Divided lerp count (pts ++ [a]) out)
    (hn : count a b n) :
    Divided lerp count (pts ++ [a, b]) (out ++ ((List.range n).map fun i : Nat => lerp a b (((i + 1 : Nat) : K) / (n : K)))) := by
  generalize e : pts ++ [a] = l at h
  induction h generalizing pts with
  | last p =>
    have hp : pts = [] ∧ a = p := by
      cases pts with
      | nil => simpa using e
      | cons x xs => have := congrArg List.length e; simp at this
    obtain ⟨rfl, rfl⟩ := hp
    have hpos := pos a b n hn
    have hn0 : (n : K) ≠ 0 := by exact_mod_cast (by omega : n ≠ 0)
    have := Divided.seg (lerp := lerp) (count := count) a b [] [b] n hn (.last b)
    have e2 : [a] ++ ((List.range n).map fun i : Nat => lerp a b (((i + 1 : Nat) : K) / (n : K))) =
        ((List.range n).map fun i : Nat => lerp a b ((i : K) / (n : K))) ++ [b] := by
      have g : (List.range (n + 1)).map (fun i : Nat => lerp a b ((i : K) / (n : K))) =
          ((List.range n).map fun i : Nat => lerp a b ((i : K) / (n : K))) ++ [b] := by
        rw [List.range_succ, List.map_append]
        simp [div_self hn0, h1]
      rw [← g, List.range_succ_eq_map, List.map_cons, List.map_map]
      simp [h0, Function.comp_def]
    rw [e2]
    exact this
  | seg x y rest out m hm h ih =>
    match pts, e with
    | [], e => have := congrArg List.length e; simp at this
    | p :: ps, e =>
      simp only [List.cons_append, List.cons.injEq] at e
      obtain ⟨rfl, e'⟩ := e
      have := ih e'
      clear e
      have e := e'
      clear e'
      rw [List.append_assoc]
      match ps, e, this with
      | [], e, this =>
        simp only [List.nil_append, List.cons.injEq] at e this
        obtain ⟨rfl, rfl⟩ := e
        exact .seg p a [b] _ m hm this
      | q :: qs, e, this =>
        simp only [List.cons_append, List.cons.injEq] at e this
        obtain ⟨rfl, rfl⟩ := e
        exact .seg p q (qs ++ [a, b]) _ m hm this

theorem divided_reverse {P : Type} {lerp : P → P → K → P} {count : P → P → Nat → Prop}
    (h1 : ∀ a b, lerp a b 1 = b) (h0 : ∀ a b, lerp a b 0 = a) (hr : ∀ a b t, lerp b a t = lerp a b (1 - t))
    (pos : ∀ a b n, count a b n → 1 ≤ n) (hs : ∀ a b n, count a b n → count b a n) {pts out : List P}
    (h : Divided lerp count pts out) : Divided lerp count pts.reverse out.reverse := by
  induction h with
  | last p => exact .last p
  | seg a b rest out n hn h ih =>
    have := divided_snoc h1 h0 pos (pts := rest.reverse) (a := b) (b := a) (n := n) (out := out.reverse)
      (by rw [← List.reverse_cons]; exact ih) (hs a b n hn)
    have hn0 : (n : K) ≠ 0 := by
      have := pos a b n hn
      exact_mod_cast (by omega : n ≠ 0)
    have e : ((List.range n).map fun i : Nat => lerp b a (((i + 1 : Nat) : K) / (n : K))) =
        ((List.range n).map fun i : Nat => lerp a b ((i : K) / (n : K))).reverse := by
      refine List.ext_getElem (by simp) fun i hi hi' => ?_
      simp only [List.length_map, List.length_range] at hi
      rw [List.getElem_reverse]
      simp only [List.getElem_map, List.getElem_range, List.length_map, List.length_range]
      rw [hr a b]
      congr 1
      have : ((n - 1 - i : Nat) : K) = (n : K) - ((i + 1 : Nat) : K) := by
        rw [show n - 1 - i = n - (i + 1) by omega, Nat.cast_sub (by omega)]
      rw [this, sub_div, div_self hn0]
    rw [e] at this
    rw [List.reverse_cons, List.reverse_cons, List.append_assoc, List.reverse_append]
    exact this

end

section exact
variable {K : Type} [Scalar K] [Field K] [LinearOrder K] [ExactScalar K] [ExactSqrt K]

/-- **C94** `discretize` commutes with every map that scales all distances by `c`, when the step is scaled too (2D). -/
theorem C94_discretize2 {c : K} {f : V2 K → V2 K} (hf : IsSimilarity2 c f) (pts out : List (V2 K)) (d : K) (hd : 0 < d)
    (h : Collects (discNext ops2) (discNew ops2 pts d) out) :
    Collects (discNext ops2) (discNew ops2 (pts.map f) (c * d)) (out.map f) := by
  have := ExactScalar.toIsStrictOrderedRing (K := K)
  obtain ⟨out', h', -⟩ := C26_always_ends ops2 (pts.map f) (c * d)
  by_cases hne : pts = []
  · subst hne
    rw [collects_unique h (collects_all ops2 [] d)]
    exact collects_all ops2 [] (c * d)
  · have hcd : 0 < c * d := mul_pos hf.1 hd
    have D := divided_map (count' := fun a b n => IsStepCount (sqDist2 a b) (c * d) n) f (similar_lerp2 hf)
      (fun a b n hn => by rw [hf.2]; exact (step_scale hf.1).2 hn) (C27_divided2 pts out d hd hne h)
    have D' := C27_divided2 (pts.map f) out' (c * d) hcd (by simpa using hne) h'
    rw [divided_unique D D' (fun a b n m hn hm => step_unique hcd hn hm)]
    exact h'

/-- **C94** the same in space. -/
theorem C94_discretize3 {c : K} {f : V3 K → V3 K} (hf : IsSimilarity3 c f) (pts out : List (V3 K)) (d : K) (hd : 0 < d)
    (h : Collects (discNext ops3) (discNew ops3 pts d) out) :
    Collects (discNext ops3) (discNew ops3 (pts.map f) (c * d)) (out.map f) := by
  have := ExactScalar.toIsStrictOrderedRing (K := K)
  obtain ⟨out', h', -⟩ := C26_always_ends ops3 (pts.map f) (c * d)
  by_cases hne : pts = []
  · subst hne
    rw [collects_unique h (collects_all ops3 [] d)]
    exact collects_all ops3 [] (c * d)
  · have hcd : 0 < c * d := mul_pos hf.1 hd
    have D := divided_map (count' := fun a b n => IsStepCount (sqDist3 a b) (c * d) n) f (similar_lerp3 hf)
      (fun a b n hn => by rw [hf.2]; exact (step_scale hf.1).2 hn) (C27_divided3 pts out d hd hne h)
    have D' := C27_divided3 (pts.map f) out' (c * d) hcd (by simpa using hne) h'
    rw [divided_unique D D' (fun a b n m hn hm => step_unique hcd hn hm)]
    exact h'

/-- **C94** the discretization of the reversed line is the reversed discretization (2D). -/
theorem C94_discretize_reverse2 (pts out : List (V2 K)) (d : K) (hd : 0 < d)
    (h : Collects (discNext ops2) (discNew ops2 pts d) out) :
    Collects (discNext ops2) (discNew ops2 pts.reverse d) out.reverse := by
  have := ExactScalar.toIsStrictOrderedRing (K := K)
  obtain ⟨out', h', -⟩ := C26_always_ends ops2 pts.reverse d
  by_cases hne : pts = []
  · subst hne
    rw [collects_unique h (collects_all ops2 [] d)]
    exact collects_all ops2 [] d
  · have D := divided_reverse lerp2_one lerp2_zero (fun a b t => by simp only [lerp2, V2.mk.injEq]; constructor <;> ring)
      (fun _ _ _ h => h.1) (fun a b n hn => by
        rw [show sqDist2 b a = sqDist2 a b by simp only [sqDist2]; ring]; exact hn) (C27_divided2 pts out d hd hne h)
    have D' := C27_divided2 pts.reverse out' d hd (by simpa using hne) h'
    rw [divided_unique D D' (fun a b n m hn hm => step_unique hd hn hm)]
    exact h'

/-- **C94** the same in space. -/
theorem C94_discretize_reverse3 (pts out : List (V3 K)) (d : K) (hd : 0 < d)
    (h : Collects (discNext ops3) (discNew ops3 pts d) out) :
    Collects (discNext ops3) (discNew ops3 pts.reverse d) out.reverse := by
  have := ExactScalar.toIsStrictOrderedRing (K := K)
  obtain ⟨out', h', -⟩ := C26_always_ends ops3 pts.reverse d
  by_cases hne : pts = []
  · subst hne
    rw [collects_unique h (collects_all ops3 [] d)]
    exact collects_all ops3 [] d
  · have D := divided_reverse lerp3_one lerp3_zero (fun a b t => by
        simp only [lerp3, V3.mk.injEq]; refine ⟨?_, ?_, ?_⟩ <;> ring)
      (fun _ _ _ h => h.1) (fun a b n hn => by
        rw [show sqDist3 b a = sqDist3 a b by simp only [sqDist3]; ring]; exact hn) (C27_divided3 pts out d hd hne h)
    have D' := C27_divided3 pts.reverse out' d hd (by simpa using hne) h'
    rw [divided_unique D D' (fun a b n m hn hm => step_unique hd hn hm)]
    exact h'

end exact

/-- every line has a discretization, so the hypotheses are met; a rotation by a right angle with a doubling -/
example (pts : List (V2 ℝ)) : ∃ out, Collects (discNext ops2) (discNew ops2 pts 3) out ∧
    Collects (discNext ops2) (discNew ops2 (pts.map fun p => ⟨-2 * p.y, 2 * p.x⟩) (2 * 3)) (out.map fun p => ⟨-2 * p.y, 2 * p.x⟩) ∧
    Collects (discNext ops2) (discNew ops2 pts.reverse 3) out.reverse := by
  obtain ⟨out, h, -⟩ := C26_always_ends ops2 pts 3
  exact ⟨out, h, C94_discretize2 (c := 2) ⟨by norm_num, fun p q => by simp only [sqDist2]; ring⟩ pts out 3 (by norm_num) h,
    C94_discretize_reverse2 pts out 3 (by norm_num) h⟩

end Verif.Props.Discretize
