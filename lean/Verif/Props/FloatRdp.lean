import Verif.Proofs.FloatSimplify
import Verif.Props.Rdp
import Verif.Props.FloatContain
/-!
# C80: `simplify_rdp` in floating point

The coordinates are integers (times a power of two) of at most half the precision.  Then the differences, the
products and the decision which end of the segment is nearer are exact; the squared distance is the quotient of
two rounded numbers.  So the algorithm is the textbook algorithm for distances with a relative error of a few
units in the last place, and what it drops is within the tolerance up to that error.
-/
set_option linter.unusedSectionVars false
set_option linter.unusedVariables false
namespace Verif.Props
open Verif Verif.Spec Verif.Model Fl Flt Verif.Proofs.FloatHull Verif.Proofs.FloatIntersect Verif.Proofs.FloatSimplify
open Verif.Proofs.Rdp
variable {f : Fmt} [Libm f]

/-- a run of the textbook algorithm is a simplification -/
theorem RdpKeeps.simplification {P : Type} {far : P → P → P → Prop} {le lt : P → P → P → P → Prop} {s : P} {mid : List P}
    {e : P} {kept : List P} (h : RdpKeeps far le lt s mid e kept) :
    Simplification (fun a b p => ¬ far a b p) (s :: (mid ++ [e])) (s :: (kept ++ [e])) := by
  induction h with
  | near s mid e h => exact .step s e mid [] [] h (.single e)
  | split s m1 x m2 e k1 k2 hfar h1 h2 l r ihl ihr =>
    have := Simplification.append ihl (x := x) (L := m2 ++ [e]) (O2 := k2 ++ [e]) (by rw [← List.cons_append, List.getLast?_concat]) ihr
    simpa using this

theorem Simplification.mono_mem {P : Type} {ok ok' : P → P → P → Prop} {A O : List P} (h : Simplification ok A O)
    (hm : ∀ a ∈ A, ∀ b ∈ A, ∀ p ∈ A, ok a b p → ok' a b p) : Simplification ok' A O := by
  induction h with
  | single a => exact .single a
  | step a b dropped rest out hok h ih =>
    refine .step a b dropped rest out (fun p hp => hm _ (by simp) _ (by simp) _ (by simp [hp]) (hok p hp)) (ih ?_)
    intro x hx y hy z hz
    have k : ∀ w, w ∈ b :: rest → w ∈ a :: (dropped ++ b :: rest) := fun w hw => by
      simp only [List.mem_cons, List.mem_append] at hw ⊢; tauto
    exact hm x (k x hx) y (k y hy) z (k z hz)

/-- every comparison with a float is a comparison with a rational -/
theorem thr_any (thr : Flt f) : ∃ T : ℚ, ∀ x : Flt f, x.isFin = true → Scalar.le x thr = decide (x.val ≤ T) := by
  have lim : ∀ x : Flt f, x.isFin = true → |x.val| < pow2 f.emax := fun x hx => (is_repr (is_self hx)).1
  by_cases ht : thr.isFin = true
  · exact ⟨thr.val, fun x hx => is_le (is_self hx) (is_self ht)⟩
  · cases thr with
    | nan =>
      refine ⟨-pow2 f.emax, fun x hx => ?_⟩
      rw [decide_eq_false (by have := (abs_lt.1 (lim x hx)).1; linarith)]
      cases x <;> rfl
    | inf s =>
      cases s with
      | true =>
        refine ⟨-pow2 f.emax, fun x hx => ?_⟩
        rw [decide_eq_false (by have := (abs_lt.1 (lim x hx)).1; linarith)]
        cases x <;> simp [isFin] at hx <;> rfl
      | false =>
        refine ⟨pow2 f.emax, fun x hx => ?_⟩
        rw [decide_eq_true (by have := (abs_lt.1 (lim x hx)).2; linarith)]
        cases x <;> simp [isFin] at hx <;> rfl
    | zero s => exact absurd rfl ht
    | fin q h => exact absurd rfl ht

section generic
variable {P : Type} (dist : P → P → P → Flt f) (E : P → P → P → ℚ) (good : P → Prop) (c : ℚ)
  (hrel : ∀ a b p, good a → good b → good p → ∃ v, Is (dist a b p) v ∧ Rel f c v (E a b p) ∧
    (v = 0 ∨ pow2 (f.emin + f.prec - 1) < v))
include hrel

theorem rdp_textbook (s : P) (mid : List P) (e : P) (d : Flt f) (hd : d.isFin = true)
    (hg : ∀ p ∈ s :: (mid ++ [e]), good p) :
    ∃ (T : ℚ) (kept : List P), |T - d.val ^ 2| ≤ pow2 (-f.prec) * d.val ^ 2 ∧
      rdpTop (fun a b p => .ok (dist a b p)) d (s :: (mid ++ [e])) = .ok (s :: (kept ++ [e])) ∧
      RdpKeeps (fun a b p => T < (dist a b p).val) (fun a b x y => (dist a b x).val ≤ (dist a b y).val)
        (fun a b x y => (dist a b x).val < (dist a b y).val) s mid e kept := by
  obtain ⟨T, hT0, hT, hle⟩ := thr_exists hd
  obtain ⟨kept, h1, hk⟩ := Props.Rdp.rdpRec_textbook (fun a b p => (dist a b p).val) T s mid e
  refine ⟨T, kept, hT, ?_, hk⟩
  by_cases hl : (s :: (mid ++ [e])).length ≤ 2
  · rw [rdpTop, if_pos hl]
    have : mid = [] := List.length_eq_zero_iff.1 (by
      simp only [List.length_cons, List.length_append, List.length_nil] at hl; omega)
    generalize hm : mid = mid' at hk
    cases hk with
    | near => subst hm this; rfl
    | split => subst this; simp at hm
  · rw [rdpTop, if_neg hl, rdpRec_val dist (Scalar.mul d d) T _ ?_ ?_, h1]; rfl
    · intro a ha b hb p hp
      obtain ⟨v, h1, -⟩ := hrel a b p (hg a ha) (hg b hb) (hg p hp)
      exact h1.1
    · intro a ha b hb p hp
      obtain ⟨v, h1, -, h3⟩ := hrel a b p (hg a ha) (hg b hb) (hg p hp)
      rw [hle _ v h1 h3, h1.2]

theorem rdp_error (hE : ∀ a b p, 0 ≤ E a b p) (hc : c ≤ 5) (points : List P) (hne : points ≠ []) (d : Flt f)
    (hd : d.isFin = true) (hg : ∀ p ∈ points, good p) :
    ∃ out, rdpTop (fun a b p => .ok (dist a b p)) d points = .ok out ∧
      Simplification (fun a b p => E a b p ≤ (1 + 8 * pow2 (-f.prec)) * d.val ^ 2) points out := by
  by_cases h1 : ∃ a, points = [a]
  · obtain ⟨a, rfl⟩ := h1
    exact ⟨[a], rfl, .single a⟩
  have hlen : 2 ≤ points.length := by
    match points, hne, h1 with
    | [a], _, h => exact absurd ⟨a, rfl⟩ h
    | a :: b :: l, _, _ => simp
  have hform := list_ends points hlen
  obtain ⟨s, mid, e, hp⟩ : ∃ s mid e, points = s :: (mid ++ [e]) := ⟨_, _, _, hform⟩
  subst hp
  obtain ⟨T, kept, hT, hr, hk⟩ := rdp_textbook dist E good c hrel s mid e d hd hg
  refine ⟨_, hr, Simplification.mono_mem (RdpKeeps.simplification hk) ?_⟩
  intro a ha b hb p hp hnear
  obtain ⟨v, h1, h2, -⟩ := hrel a b p (hg a ha) (hg b hb) (hg p hp)
  rw [h1.2, not_lt] at hnear
  have h0 := hE a b p
  unfold Proofs.FloatSimplify.Rel at h2
  rw [abs_of_nonneg h0] at h2
  have h3 := (abs_le.1 h2).1
  have h4 := (abs_le.1 hT).2
  have hε := pow2_pos (-(f.prec : ℤ))
  have h6 := eps_small f
  obtain ⟨ε, hεd⟩ : ∃ ε, ε = pow2 (-(f.prec : ℤ)) := ⟨_, rfl⟩
  obtain ⟨S, hS⟩ : ∃ S, S = d.val ^ 2 := ⟨_, rfl⟩
  obtain ⟨m, hm⟩ : ∃ m, m = E a b p := ⟨_, rfl⟩
  have hS0 : 0 ≤ S := by rw [hS]; positivity
  rw [← hεd] at h3 h4 hε h6 ⊢
  rw [← hS] at h4 ⊢
  rw [← hm] at h3 h0 ⊢
  -- m (1 - 5 ε) ≤ S (1 + ε)
  have k1 : m - 5 * ε * m ≤ S + ε * S := by
    have : c * ε * m ≤ 5 * ε * m := by
      have := mul_nonneg hε.le h0
      nlinarith
    linarith
  have k2 : (1 - 5 * ε) * m ≤ (1 - 5 * ε) * ((1 + 8 * ε) * S) := by
    have : (1 + ε) * S ≤ (1 - 5 * ε) * (1 + 8 * ε) * S := by
      apply mul_le_mul_of_nonneg_right _ hS0
      nlinarith
    nlinarith
  exact le_of_mul_le_mul_left k2 (by linarith)

theorem rdp_idem (points out : List P) (d : Flt f) (hg : ∀ p ∈ points, good p)
    (h : rdpTop (fun a b p => .ok (dist a b p)) d points = .ok out) :
    rdpTop (fun a b p => .ok (dist a b p)) d out = .ok out := by
  match points with
  | [] => simp only [rdpTop, Except.ok.injEq] at h; subst h; rfl
  | p :: rest =>
    by_cases hl : (p :: rest).length ≤ 2
    · rw [rdpTop, if_pos hl, Except.ok.injEq] at h
      subst h
      rw [rdpTop, if_pos hl]
    · rw [rdpTop, if_neg hl] at h
      obtain ⟨T, hT⟩ := thr_any (f := f) (Scalar.mul d d)
      have fin : ∀ l : List P, (∀ p ∈ l, good p) → ∀ a ∈ l, ∀ b ∈ l, ∀ p ∈ l, (dist a b p).isFin = true := by
        intro l hl a ha b hb p hp
        obtain ⟨v, h1, -⟩ := hrel a b p (hl a ha) (hl b hb) (hl p hp)
        exact h1.1
      have val : ∀ l : List P, (∀ p ∈ l, good p) →
          rdpRec (fun a b p => .ok (dist a b p)) (Scalar.mul d d) l = rdpRec (fun a b p => .ok (dist a b p).val) T l :=
        fun l hl => rdpRec_val dist _ T l (fin l hl) (fun a ha b hb p hp => hT _ (fin l hl a ha b hb p hp))
      rw [val _ hg] at h
      obtain ⟨o, ho, hi⟩ := rdpRec_idem (fun a b p => (dist a b p).val) T (p :: rest) (by simp)
      rw [ho] at h
      simp only [Except.map, Except.ok.injEq] at h
      subst h
      obtain ⟨h1, -, h2⟩ := hi (by simp only [List.length_cons] at hl ⊢; omega) p rfl
      rw [rdpTop]
      split_ifs with hl2
      · rfl
      · rw [val _ (fun q hq => hg q (h1.subset hq)), h2]; rfl

end generic

/-! ## The plane -/

/-- C80: on a grid `simplify_rdp` in floating point is the textbook algorithm, for distances that have a relative
error of at most `3 * 2^-prec` and a threshold that differs from `d²` by a relative error of at most `2^-prec`. -/
theorem C80_rdp2_is_textbook {s B : ℤ} (G : SquareGrid f s B) (hB : 1 ≤ B) (a : V2 (Flt f)) (mid : List (V2 (Flt f)))
    (e : V2 (Flt f)) (hg : ∀ p ∈ a :: (mid ++ [e]), OnGrid s B p) (d : Flt f) (hd : d.isFin = true) :
    ∃ (D : V2 (Flt f) → V2 (Flt f) → V2 (Flt f) → ℚ) (T : ℚ) (kept : List (V2 (Flt f))),
      (∀ a b p, OnGrid s B a → OnGrid s B b → OnGrid s B p →
        ∃ m, IsMinSqDist sqDist2 (exact p) (OnSegment2 (exact a) (exact b)) m ∧
          |D a b p - m| ≤ 3 * (2 : ℚ) ^ (-f.prec : ℤ) * m) ∧
      |T - d.val ^ 2| ≤ (2 : ℚ) ^ (-f.prec : ℤ) * d.val ^ 2 ∧
      simplifyRdp2 (a :: (mid ++ [e])) d = .ok (a :: (kept ++ [e])) ∧
      RdpKeeps (fun a b p => T < D a b p) (fun a b x y => D a b x ≤ D a b y) (fun a b x y => D a b x < D a b y)
        a mid e kept := by
  obtain ⟨T, kept, h1, h2, h3⟩ := rdp_textbook distToLineSqSafe2
    (fun a b p => distToLineSqSafe2 (exact a) (exact b) (exact p)) (OnGrid s B) 3
    (fun a b p ha hb hp => dist2_rel G hB ha hb hp) a mid e d hd hg
  refine ⟨fun a b p => (distToLineSqSafe2 a b p).val, T, kept, ?_, ?_, h2, h3⟩
  · intro a b p ha hb hp
    obtain ⟨v, h1, h2, -⟩ := dist2_rel G hB ha hb hp
    have hm := Props.Dist.C16_dist2_safe_is_min (exact a) (exact b) (exact p)
    refine ⟨_, hm, ?_⟩
    unfold Proofs.FloatSimplify.Rel at h2
    have h0 : 0 ≤ distToLineSqSafe2 (exact a) (exact b) (exact p) := by
      obtain ⟨⟨q, -, he⟩, -⟩ := hm
      rw [he]; unfold sqDist2; positivity
    rw [abs_of_nonneg h0, pow2_eq] at h2
    beta_reduce; rw [h1.2]; exact h2
  · rw [pow2_eq] at h1; exact h1

/-- C80: on a grid every point that `simplify_rdp` drops is within the tolerance of the segment that replaces it,
up to the factor `1 + 8 * 2^-prec` (for the square). -/
theorem C80_rdp2_error_bound {s B : ℤ} (G : SquareGrid f s B) (hB : 1 ≤ B) (points : List (V2 (Flt f))) (hne : points ≠ [])
    (hg : ∀ p ∈ points, OnGrid s B p) (d : Flt f) (hd : d.isFin = true) :
    ∃ out, simplifyRdp2 points d = .ok out ∧
      Simplification (fun a b p => ∃ q, OnSegment2 (exact a) (exact b) q ∧
        sqDist2 (exact p) q ≤ (1 + 8 * (2 : ℚ) ^ (-f.prec : ℤ)) * d.val ^ 2) points out := by
  obtain ⟨out, h1, h2⟩ := rdp_error distToLineSqSafe2
    (fun a b p => distToLineSqSafe2 (exact a) (exact b) (exact p)) (OnGrid s B) 3
    (fun a b p ha hb hp => dist2_rel G hB ha hb hp) (by
      intro a b p
      obtain ⟨⟨q, -, he⟩, -⟩ := Props.Dist.C16_dist2_safe_is_min (exact a) (exact b) (exact p)
      rw [he]; unfold sqDist2; positivity) (by norm_num) points hne d hd hg
  refine ⟨out, h1, Simplification.mono ?_ h2⟩
  intro a b p hp
  obtain ⟨⟨q, hq, he⟩, -⟩ := Props.Dist.C16_dist2_safe_is_min (exact a) (exact b) (exact p)
  exact ⟨q, hq, by rw [← he, ← pow2_eq]; exact hp⟩

/-- C80: and simplifying again changes nothing, whatever the tolerance (also infinite or NaN). -/
theorem C80_rdp2_idempotent {s B : ℤ} (G : SquareGrid f s B) (hB : 1 ≤ B) (points out : List (V2 (Flt f)))
    (hg : ∀ p ∈ points, OnGrid s B p) (d : Flt f) (h : simplifyRdp2 points d = .ok out) :
    simplifyRdp2 out d = .ok out :=
  rdp_idem distToLineSqSafe2 (fun a b p => distToLineSqSafe2 (exact a) (exact b) (exact p)) (OnGrid s B) 3
    (fun a b p ha hb hp => dist2_rel G hB ha hb hp) points out d hg h

/-! ## Space -/

/-- C80, 3D: the textbook algorithm for distances from the infinite line with a relative error of at most
`5 * 2^-prec`. -/
theorem C80_rdp3_is_textbook {s B : ℤ} (G : SquareGrid f s B) (hB : 1 ≤ B) (a : V3 (Flt f)) (mid : List (V3 (Flt f)))
    (e : V3 (Flt f)) (hg : ∀ p ∈ a :: (mid ++ [e]), OnGrid3 s B p) (d : Flt f) (hd : d.isFin = true) :
    ∃ (D : V3 (Flt f) → V3 (Flt f) → V3 (Flt f) → ℚ) (T : ℚ) (kept : List (V3 (Flt f))),
      (∀ a b p, OnGrid3 s B a → OnGrid3 s B b → OnGrid3 s B p →
        ∃ m, IsMinSqDist sqDist3 (exact3 p) (OnLine3 (exact3 a) (exact3 b)) m ∧
          |D a b p - m| ≤ 5 * (2 : ℚ) ^ (-f.prec : ℤ) * m) ∧
      |T - d.val ^ 2| ≤ (2 : ℚ) ^ (-f.prec : ℤ) * d.val ^ 2 ∧
      simplifyRdp3 (a :: (mid ++ [e])) d = .ok (a :: (kept ++ [e])) ∧
      RdpKeeps (fun a b p => T < D a b p) (fun a b x y => D a b x ≤ D a b y) (fun a b x y => D a b x < D a b y)
        a mid e kept := by
  obtain ⟨T, kept, h1, h2, h3⟩ := rdp_textbook distToLineSqSafe3
    (fun a b p => distToLineSqSafe3 (exact3 a) (exact3 b) (exact3 p)) (OnGrid3 s B) 5
    (fun a b p ha hb hp => dist3_rel G hB ha hb hp) a mid e d hd hg
  refine ⟨fun a b p => (distToLineSqSafe3 a b p).val, T, kept, ?_, ?_, h2, h3⟩
  · intro a b p ha hb hp
    obtain ⟨v, h1, h2, -⟩ := dist3_rel G hB ha hb hp
    have hm := Props.Dist.C17_dist3_safe_is_min (exact3 a) (exact3 b) (exact3 p)
    refine ⟨_, hm, ?_⟩
    unfold Proofs.FloatSimplify.Rel at h2
    have h0 : 0 ≤ distToLineSqSafe3 (exact3 a) (exact3 b) (exact3 p) := by
      obtain ⟨⟨q, -, he⟩, -⟩ := hm
      rw [he]; unfold sqDist3; positivity
    rw [abs_of_nonneg h0, pow2_eq] at h2
    beta_reduce; rw [h1.2]; exact h2
  · rw [pow2_eq] at h1; exact h1

/-- C80, 3D: every dropped point is within the tolerance of the line, up to the factor `1 + 8 * 2^-prec`. -/
theorem C80_rdp3_error_bound {s B : ℤ} (G : SquareGrid f s B) (hB : 1 ≤ B) (points : List (V3 (Flt f))) (hne : points ≠ [])
    (hg : ∀ p ∈ points, OnGrid3 s B p) (d : Flt f) (hd : d.isFin = true) :
    ∃ out, simplifyRdp3 points d = .ok out ∧
      Simplification (fun a b p => ∃ q, OnLine3 (exact3 a) (exact3 b) q ∧
        sqDist3 (exact3 p) q ≤ (1 + 8 * (2 : ℚ) ^ (-f.prec : ℤ)) * d.val ^ 2) points out := by
  obtain ⟨out, h1, h2⟩ := rdp_error distToLineSqSafe3
    (fun a b p => distToLineSqSafe3 (exact3 a) (exact3 b) (exact3 p)) (OnGrid3 s B) 5
    (fun a b p ha hb hp => dist3_rel G hB ha hb hp) (by
      intro a b p
      obtain ⟨⟨q, -, he⟩, -⟩ := Props.Dist.C17_dist3_safe_is_min (exact3 a) (exact3 b) (exact3 p)
      rw [he]; unfold sqDist3; positivity) (by norm_num) points hne d hd hg
  refine ⟨out, h1, Simplification.mono ?_ h2⟩
  intro a b p hp
  obtain ⟨⟨q, hq, he⟩, -⟩ := Props.Dist.C17_dist3_safe_is_min (exact3 a) (exact3 b) (exact3 p)
  exact ⟨q, hq, by rw [← he, ← pow2_eq]; exact hp⟩

/-- C80, 3D: simplifying again changes nothing. -/
theorem C80_rdp3_idempotent {s B : ℤ} (G : SquareGrid f s B) (hB : 1 ≤ B) (points out : List (V3 (Flt f)))
    (hg : ∀ p ∈ points, OnGrid3 s B p) (d : Flt f) (h : simplifyRdp3 points d = .ok out) :
    simplifyRdp3 out d = .ok out :=
  rdp_idem distToLineSqSafe3 (fun a b p => distToLineSqSafe3 (exact3 a) (exact3 b) (exact3 p)) (OnGrid3 s B) 5
    (fun a b p ha hb hp => dist3_rel G hB ha hb hp) points out d hg h

/-! ## Examples -/

/-- integers as float points in space -/
def ipt3 (f : Fmt) (k l m : ℤ) : V3 (Flt f) := ⟨Flt.ofQ false k, Flt.ofQ false l, Flt.ofQ false m⟩

theorem onGrid3_ipt {f : Fmt} {B : ℤ} (G : GoodGrid f 0 B) {k l m : ℤ} (hk : |k| ≤ B) (hl : |l| ≤ B) (hm : |m| ≤ B) :
    OnGrid3 0 B (ipt3 f k l m) ∧ exact3 (ipt3 f k l m) = ⟨k, l, m⟩ := by
  have hP : B ≤ 2 ^ f.prec := by
    have h1 := G.small
    have h2 := pow_split f
    have h3 : 0 ≤ B := (abs_nonneg k).trans hk
    nlinarith
  have h1 := is_int (f := f) (k := k) (hk.trans hP)
  have h2 := is_int (f := f) (k := l) (hl.trans hP)
  have h3 := is_int (f := f) (k := m) (hm.trans hP)
  refine ⟨⟨h1.1, h2.1, h3.1, k, l, m, ?_, ?_, ?_, hk, hl, hm⟩, ?_⟩
  · show (Flt.ofQ false (k : ℚ) : Flt f).val = _
    simpa using h1.2
  · show (Flt.ofQ false (l : ℚ) : Flt f).val = _
    simpa using h2.2
  · show (Flt.ofQ false (m : ℚ) : Flt f).val = _
    simpa using h3.2
  · unfold exact3; exact V3.mk.injEq .. ▸ ⟨h1.2, h2.2, h3.2⟩

/-- the line of the documentation of `simplify_rdp`, in `f64` -/
def rdpLine64 : List (V2 F64) := [ipt b64 0 3, ipt b64 1 2, ipt b64 4 1, ipt b64 0 0]

theorem rdpLine64_grid : ∀ p ∈ rdpLine64, OnGrid 0 (2 ^ 23) p := by
  intro p hp
  simp only [rdpLine64, List.mem_cons, List.not_mem_nil, or_false] at hp
  rcases hp with rfl | rfl | rfl | rfl <;> exact (onGrid_ipt goodGrid64 (by norm_num) (by norm_num)).1

/-- the hypotheses of the theorems are met, and a point is dropped -/
example [Libm b64] : ∃ out, simplifyRdp2 rdpLine64 (Flt.ofQ false 1) = .ok out ∧
    Simplification (fun a b p => ∃ q, OnSegment2 (exact a) (exact b) q ∧
      sqDist2 (exact p) q ≤ (1 + 8 * (2 : ℚ) ^ (-b64.prec : ℤ)) * (Flt.ofQ false 1 : F64).val ^ 2) rdpLine64 out :=
  C80_rdp2_error_bound squareGrid64 (by norm_num) rdpLine64 (by simp [rdpLine64]) rdpLine64_grid _ (by decide +kernel)

example : (let _ : Libm b64 := ⟨fun _ _ => .nan⟩; simplifyRdp2 rdpLine64 (Flt.ofQ false 1)) =
    .ok [ipt b64 0 3, ipt b64 4 1, ipt b64 0 0] := by decide +kernel

example [Libm b32] : ∃ out, simplifyRdp3 [ipt3 b32 0 0 0, ipt3 b32 1 0 1, ipt3 b32 5 0 0] (Flt.ofQ false 2) = .ok out ∧
    Simplification (fun a b p => ∃ q, OnLine3 (exact3 a) (exact3 b) q ∧
      sqDist3 (exact3 p) q ≤ (1 + 8 * (2 : ℚ) ^ (-b32.prec : ℤ)) * (Flt.ofQ false 2 : F32).val ^ 2)
      [ipt3 b32 0 0 0, ipt3 b32 1 0 1, ipt3 b32 5 0 0] out :=
  C80_rdp3_error_bound squareGrid32 (by norm_num) _ (by simp) (by
    intro p hp
    simp only [List.mem_cons, List.not_mem_nil, or_false] at hp
    rcases hp with rfl | rfl | rfl <;> exact (onGrid3_ipt goodGrid32 (by norm_num) (by norm_num) (by norm_num)).1)
    _ (by decide +kernel)

/-- C80: without the hypothesis about the grid the bound can fail: squares below the least positive float are
rounded to zero, so a point is dropped that is twice the tolerance away. -/
theorem C80_underflow_exceeds_tolerance : let _ : Libm b64 := ⟨fun _ _ => .nan⟩
    simplifyRdp2 ([⟨.zero false, .zero false⟩, ⟨Flt.ofQ false (1 / 2), Flt.ofQ false (pow2 (-540))⟩,
      ⟨Flt.ofQ false 1, .zero false⟩] : List (V2 F64)) (Flt.ofQ false (pow2 (-541))) =
    .ok [⟨.zero false, .zero false⟩, ⟨Flt.ofQ false 1, .zero false⟩] := by
  decide +kernel

end Verif.Props
