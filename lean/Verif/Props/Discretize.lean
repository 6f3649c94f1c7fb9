import Verif.Model.Discretize
import Verif.Spec.Discretize
import Verif.Spec.Intersect
import Verif.Spec.Instances
/-!
# C26, C27: discretize
-/
namespace Verif.Props.Discretize
open Verif Verif.Model Verif.Spec Scalar
set_option linter.unusedSectionVars false
set_option linter.unusedSimpArgs false

section lawless
variable {α : Type} [Scalar α] {P : Type} (o : VecOps P α)

theorem collects_congr {S I : Type} {next : S → Except Err (Option I × S)} {s s' : S} {l : List I}
    (h : Collects next s' l) (e : next s = next s') : Collects next s l := by
  cases h with
  | done _ t h => exact .done _ t (e ▸ h)
  | step _ t i is h r => exact .step _ t i is (e ▸ h) r

/-- the points yielded for a segment -/
def segPoints (d : α) (a b : P) : List P :=
  let r := segSteps o d a b
  (List.range r.1).map (fun i => o.add a (o.smul r.2 (Scalar.ofUsize i)))

/-- the points yielded for a line -/
def allPoints (d : α) : List P → List P
  | [] => []
  | [p] => [p]
  | a :: b :: rest => segPoints o d a b ++ allPoints d (b :: rest)

theorem next_last (pts : List P) (d : α) (n : Nat) (st : P) (ci : Nat) (hne : pts ≠ []) (h : ci = pts.length - 1) :
    Collects (discNext o) ⟨pts, d, ci, 0, n, st⟩ [pts.getLast hne] := by
  have hl : pts.isEmpty = false := by simpa using hne
  refine .step _ ⟨pts, d, ci + 1, 0, n, st⟩ _ _ ?_ (.done _ ⟨pts, d, ci + 1, 0, n, st⟩ ?_)
  · rw [discNext]
    simp only [hl, Bool.false_eq_true, if_false, h, lt_irrefl, dif_neg, not_false_eq_true, if_true]
    rw [List.getLast?_eq_some_getLast hne]
  · rw [discNext]
    have h1 : ¬ (ci + 1 < pts.length - 1) := by omega
    have h2 : ¬ (ci + 1 = pts.length - 1) := by omega
    simp only [hl, Bool.false_eq_true, if_false, h1, dif_neg, not_false_eq_true, h2]

/-- one segment, from substep `k ≥ 1` on -/
theorem next_seg (pts : List P) (d : α) (ci n : Nat) (st a : P) (out : List P) (hci : ci < pts.length - 1)
    (ha : pts[ci]? = some a)
    (hnext : Collects (discNext o) ⟨pts, d, ci + 1, 0, n, st⟩ out) :
    ∀ m k, k ≠ 0 → m + k = n → Collects (discNext o) ⟨pts, d, ci, k, n, st⟩
      ((List.range' k m).map (fun i => o.add a (o.smul st (Scalar.ofUsize i))) ++ out) := by
  have hl : pts.isEmpty = false := by
    cases pts with
    | nil => simp at hci
    | cons => rfl
  intro m
  induction m with
  | zero =>
    intro k hk e
    refine collects_congr hnext ?_
    rw [discNext]
    have h1 : ¬ (k < n) := by omega
    simp only [hl, Bool.false_eq_true, if_false, hci, dif_pos, hk, h1]
  | succ m ih =>
    intro k hk e
    rw [List.range'_succ, List.map_cons, List.cons_append]
    refine .step _ ⟨pts, d, ci, k + 1, n, st⟩ _ _ ?_ (ih (k + 1) (by omega) (by omega))
    rw [discNext]
    have h1 : k < n := by omega
    simp only [hl, Bool.false_eq_true, if_false, hci, dif_pos, hk, h1, if_true, ha]

theorem next_all (d : α) : ∀ (m : Nat) (pts : List P) (ci n : Nat) (st : P), ci + m = pts.length → m ≠ 0 →
    Collects (discNext o) ⟨pts, d, ci, 0, n, st⟩ (allPoints o d (pts.drop ci)) := by
  intro m
  induction m with
  | zero => intro _ _ _ _ _ h; exact absurd rfl h
  | succ m ih =>
    intro pts ci n st e _
    have hne : pts ≠ [] := by rintro rfl; simp at e
    have hl : pts.isEmpty = false := by simpa using hne
    cases m with
    | zero =>
      have hd : pts.drop ci = [pts.getLast hne] := by
        have e1 : ci = pts.length - 1 := by omega
        rw [e1]
        conv_lhs => rw [← List.dropLast_append_getLast hne]
        rw [List.drop_append_of_le_length (by simp)]
        simp
      rw [hd]
      exact next_last o pts d n st ci hne (by omega)
    | succ m =>
      have hci : ci < pts.length - 1 := by omega
      obtain ⟨a, ha⟩ : ∃ a, pts[ci]? = some a := ⟨_, List.getElem?_eq_getElem (by omega)⟩
      obtain ⟨b, hb⟩ : ∃ b, pts[ci + 1]? = some b := ⟨_, List.getElem?_eq_getElem (by omega)⟩
      have hd1 : pts.drop (ci + 1) = b :: pts.drop (ci + 2) := by
        rw [List.drop_eq_getElem_cons (by omega)]
        rw [List.getElem?_eq_getElem (by omega)] at hb
        simp only [Option.some.injEq] at hb
        rw [hb]
      have hd : pts.drop ci = a :: b :: pts.drop (ci + 2) := by
        rw [List.drop_eq_getElem_cons (by omega), hd1]
        rw [List.getElem?_eq_getElem (by omega)] at ha
        simp only [Option.some.injEq] at ha
        rw [ha]
      have ih' := fun n st => ih pts (ci + 1) n st (by omega) (by omega)
      rw [hd, allPoints]
      rw [hd1] at ih'
      obtain ⟨r, hr⟩ : ∃ r, r = segSteps o d a b := ⟨_, rfl⟩
      unfold segPoints
      rw [← hr]
      simp only
      by_cases hz : r.1 = 0
      · rw [hz]
        simp only [List.range_zero, List.map_nil, List.nil_append]
        refine collects_congr (ih' r.1 r.2) ?_
        rw [discNext]
        have h1 : ¬ (0 < r.1) := by omega
        simp only [hl, Bool.false_eq_true, if_false, hci, dif_pos, if_true, discInit, ha, hb, ← hr, h1]
      · obtain ⟨k, hk⟩ : ∃ k, r.1 = k + 1 := ⟨r.1 - 1, by omega⟩
        rw [List.range_eq_range', hk, List.range'_succ, List.map_cons, List.cons_append]
        refine .step _ ⟨pts, d, ci, 1, r.1, r.2⟩ _ _ ?_ ?_
        · rw [discNext]
          have h1 : 0 < r.1 := by omega
          simp only [hl, Bool.false_eq_true, if_false, hci, dif_pos, if_true, discInit, ha, hb, ← hr, h1]
        · exact next_seg o pts d ci r.1 r.2 a _ hci ha (ih' r.1 r.2) k 1 (by omega) (by omega)

/-- the whole run of the iterator -/
theorem collects_all (pts : List P) (d : α) :
    Collects (discNext o) (discNew o pts d) (allPoints o d pts) := by
  cases pts with
  | nil => exact .done _ (discNew o [] d) (by rw [discNext]; rfl)
  | cons p pts => exact next_all o d _ (p :: pts) 0 0 o.zero (Nat.zero_add _) (by simp)

theorem collects_unique {S I : Type} {next : S → Except Err (Option I × S)} {s : S} {l l' : List I}
    (h : Collects next s l) (h' : Collects next s l') : l = l' := by
  induction h generalizing l' with
  | done s t h =>
    cases h' with
    | done => rfl
    | step _ t' i is h' r' => rw [h] at h'; simp at h'
  | step s t i is h r ih =>
    cases h' with
    | done _ t' h' => rw [h] at h'; simp at h'
    | step _ t' i' is' h' r' =>
      rw [h] at h'
      simp only [Except.ok.injEq, Prod.mk.injEq, Option.some.injEq] at h'
      obtain ⟨rfl, rfl⟩ := h'
      rw [ih r']

/-- C26, whatever the arithmetic does (NaN, overflow, negative distance): `discretize` ends, never
fails, yields nothing for an empty line and otherwise the last point as its last item. -/
theorem C26_always_ends (pts : List P) (d : α) :
    ∃ out, Collects (discNext o) (discNew o pts d) out ∧ out.getLast? = pts.getLast? ∧
      (pts.length ≤ 1 → out = pts) := by
  refine ⟨_, collects_all o pts d, ?_, ?_⟩
  · induction pts with
    | nil => rfl
    | cons a pts ih =>
      cases pts with
      | nil => rfl
      | cons b rest =>
        rw [allPoints, List.getLast?_append, ih, List.getLast?_cons_cons,
          List.getLast?_eq_some_getLast (List.cons_ne_nil b rest)]
        rfl
  · intro h
    match pts, h with
    | [], _ => rfl
    | [p], _ => rfl
    | _ :: _ :: _, h => simp at h

end lawless

/-! ### consequences of `Divided` -/
section divided
variable {K P : Type} [Field K] {lerp : P → P → K → P} {count : P → P → Nat → Prop}

theorem divided_sublist (h0 : ∀ a b, lerp a b 0 = a) (hc : ∀ a b n, count a b n → 1 ≤ n) {pts out : List P}
    (h : Divided lerp count pts out) : pts.Sublist out ∧ out.head? = pts.head? ∧ out.getLast? = pts.getLast? := by
  induction h with
  | last p => exact ⟨List.Sublist.refl _, rfl, rfl⟩
  | seg a b rest out n hn h ih =>
    obtain ⟨k, rfl⟩ : ∃ k, n = k + 1 := ⟨n - 1, by have := hc a b n hn; omega⟩
    rw [List.range_succ_eq_map]
    simp only [List.map_cons, Nat.cast_zero, zero_div, h0, List.cons_append]
    refine ⟨List.Sublist.cons_cons a (ih.1.trans (List.sublist_append_right _ _)), rfl, ?_⟩
    rw [← List.cons_append, List.getLast?_append, ih.2.2, List.getLast?_cons_cons,
      List.getLast?_eq_some_getLast (List.cons_ne_nil b rest)]
    rfl

end divided

section exact
variable {K : Type} [Scalar K] [Field K] [LinearOrder K] [ExactScalar K] [ExactSqrt K]

theorem lerp2_zero (a b : V2 K) : lerp2 a b 0 = a := by simp [lerp2]
theorem lerp2_one (a b : V2 K) : lerp2 a b 1 = b := by simp [lerp2]
theorem lerp3_zero (a b : V3 K) : lerp3 a b 0 = a := by simp [lerp3]
theorem lerp3_one (a b : V3 K) : lerp3 a b 1 = b := by simp [lerp3]

/-- the number of steps of a segment whose direction has the magnitude `sqrt sq` -/
theorem stepCount (sq d : K) (hsq : 0 ≤ sq) (hd : 0 < d) :
    (0 < Scalar.sqrt sq → IsStepCount sq d (Scalar.toUsize (Scalar.ceil (Scalar.sqrt sq / d))) ∧
      (Scalar.ceil (Scalar.sqrt sq / d) : K) = (Scalar.toUsize (Scalar.ceil (Scalar.sqrt sq / d)) : K)) ∧
    (¬ 0 < Scalar.sqrt sq → sq = 0) := by
  have hr := ExactSqrt.sqrt_sq sq hsq
  have h0 := ExactSqrt.sqrt_nonneg sq
  constructor
  · intro hpos
    have hq : 0 < Scalar.sqrt sq / d := div_pos hpos hd
    have e := ExactScalar.ceil_eq _ hq
    have ge := ExactScalar.ceil_ge _ hq
    have lt := ExactScalar.ceil_lt _ hq
    refine ⟨?_, e⟩
    rw [e] at ge lt
    obtain ⟨n, hn⟩ : ∃ n, n = Scalar.toUsize (Scalar.ceil (Scalar.sqrt sq / d)) := ⟨_, rfl⟩
    rw [← hn] at ge lt ⊢
    have h1 : Scalar.sqrt sq ≤ n * d := (div_le_iff₀ hd).1 ge
    have h2 : ((n : K) - 1) * d < Scalar.sqrt sq := (lt_div_iff₀ hd).1 (by linarith)
    refine ⟨?_, ?_, ?_⟩
    · by_contra hc
      have : n = 0 := by omega
      rw [this] at h1
      simp only [Nat.cast_zero, zero_mul] at h1
      linarith
    · rw [← hr]; nlinarith
    · by_cases h : n = 1
      · exact Or.inl h
      · right
        have hn1 : 1 ≤ n := by
          by_contra hc
          have : n = 0 := by omega
          rw [this] at h1
          simp only [Nat.cast_zero, zero_mul] at h1
          linarith
        have : (0 : K) ≤ (n : K) - 1 := by
          have : (1 : K) ≤ n := by exact_mod_cast hn1
          linarith
        have h3 : 0 ≤ ((n : K) - 1) * d := mul_nonneg this hd.le
        rw [← hr]; nlinarith
  · intro h
    have : Scalar.sqrt sq = 0 := le_antisymm (not_lt.1 h) h0
    rw [← hr, this, zero_mul]

theorem segPoints2 (d : K) (hd : 0 < d) (a b : V2 K) :
    ∃ n, IsStepCount (sqDist2 a b) d n ∧
      segPoints ops2 d a b = (List.range n).map (fun i : Nat => lerp2 a b ((i : K) / (n : K))) := by
  have esq : V2.magSq (b.sub a) = sqDist2 a b := by
    simp only [exact_simp, sqDist2]; ring
  have hsq : 0 ≤ sqDist2 a b := by unfold sqDist2; positivity
  obtain ⟨hA, hB⟩ := stepCount (sqDist2 a b) d hsq hd
  unfold segPoints segSteps
  simp only [ops2, V2.mag, esq, gt_decide, decide_eq_true_eq, ExactScalar.zero_eq, ExactScalar.div_eq]
  by_cases h : 0 < Scalar.sqrt (sqDist2 a b)
  · obtain ⟨hc, he⟩ := hA h
    refine ⟨_, hc, ?_⟩
    rw [if_pos h]
    simp only
    generalize Scalar.toUsize (Scalar.ceil (Scalar.sqrt (sqDist2 a b) / d)) = n at he
    refine List.map_congr_left (fun i _ => ?_)
    rw [he]
    simp only [exact_simp, lerp2, V2.mk.injEq]
    constructor <;> ring
  · have h0 := hB h
    rw [h0] at hsq ⊢
    rw [if_neg (h0 ▸ h)]
    refine ⟨1, ⟨le_rfl, sq_nonneg _, Or.inl rfl⟩, ?_⟩
    simp [List.range_succ, exact_simp, lerp2]

theorem segPoints3 (d : K) (hd : 0 < d) (a b : V3 K) :
    ∃ n, IsStepCount (sqDist3 a b) d n ∧
      segPoints ops3 d a b = (List.range n).map (fun i : Nat => lerp3 a b ((i : K) / (n : K))) := by
  have esq : V3.magSq (b.sub a) = sqDist3 a b := by
    simp only [exact_simp, sqDist3]; ring
  have hsq : 0 ≤ sqDist3 a b := by unfold sqDist3; positivity
  obtain ⟨hA, hB⟩ := stepCount (sqDist3 a b) d hsq hd
  unfold segPoints segSteps
  simp only [ops3, V3.mag, esq, gt_decide, decide_eq_true_eq, ExactScalar.zero_eq, ExactScalar.div_eq]
  by_cases h : 0 < Scalar.sqrt (sqDist3 a b)
  · obtain ⟨hc, he⟩ := hA h
    refine ⟨_, hc, ?_⟩
    rw [if_pos h]
    simp only
    generalize Scalar.toUsize (Scalar.ceil (Scalar.sqrt (sqDist3 a b) / d)) = n at he
    refine List.map_congr_left (fun i _ => ?_)
    rw [he]
    simp only [exact_simp, lerp3, V3.mk.injEq]
    refine ⟨?_, ?_, ?_⟩ <;> ring
  · have h0 := hB h
    rw [h0] at hsq ⊢
    rw [if_neg (h0 ▸ h)]
    refine ⟨1, ⟨le_rfl, sq_nonneg _, Or.inl rfl⟩, ?_⟩
    simp [List.range_succ, exact_simp, lerp3]

/-- C27 (2D): every segment is divided into equal steps, their number being the least `n ≥ 1` with
`length ≤ n·distance` (that is `⌈length/distance⌉`, or 1 for a segment of length 0), followed by the
last point. -/
theorem C27_divided2 (pts out : List (V2 K)) (d : K) (hd : 0 < d) (hne : pts ≠ [])
    (h : Collects (discNext ops2) (discNew ops2 pts d) out) :
    Divided lerp2 (fun a b n => IsStepCount (sqDist2 a b) d n) pts out := by
  rw [collects_unique h (collects_all ops2 pts d)]
  clear h
  induction pts with
  | nil => exact absurd rfl hne
  | cons a pts ih =>
    cases pts with
    | nil => exact .last a
    | cons b rest =>
      obtain ⟨n, hn, e⟩ := segPoints2 d hd a b
      rw [allPoints, e]
      exact .seg a b rest _ n hn (ih (by simp))

/-- C27 (3D) -/
theorem C27_divided3 (pts out : List (V3 K)) (d : K) (hd : 0 < d) (hne : pts ≠ [])
    (h : Collects (discNext ops3) (discNew ops3 pts d) out) :
    Divided lerp3 (fun a b n => IsStepCount (sqDist3 a b) d n) pts out := by
  rw [collects_unique h (collects_all ops3 pts d)]
  clear h
  induction pts with
  | nil => exact absurd rfl hne
  | cons a pts ih =>
    cases pts with
    | nil => exact .last a
    | cons b rest =>
      obtain ⟨n, hn, e⟩ := segPoints3 d hd a b
      rw [allPoints, e]
      exact .seg a b rest _ n hn (ih (by simp))

/-- C26 (2D): all original points occur, in order; the first and the last item are the first and
the last point. -/
theorem C26_keeps_points2 (pts out : List (V2 K)) (d : K) (hd : 0 < d)
    (h : Collects (discNext ops2) (discNew ops2 pts d) out) :
    pts.Sublist out ∧ out.head? = pts.head? ∧ out.getLast? = pts.getLast? := by
  by_cases hne : pts = []
  · subst hne
    rw [collects_unique h (collects_all ops2 [] d)]
    exact ⟨List.Sublist.refl _, rfl, rfl⟩
  · exact divided_sublist lerp2_zero (fun _ _ _ h => h.1) (C27_divided2 pts out d hd hne h)

/-- C26 (3D) -/
theorem C26_keeps_points3 (pts out : List (V3 K)) (d : K) (hd : 0 < d)
    (h : Collects (discNext ops3) (discNew ops3 pts d) out) :
    pts.Sublist out ∧ out.head? = pts.head? ∧ out.getLast? = pts.getLast? := by
  by_cases hne : pts = []
  · subst hne
    rw [collects_unique h (collects_all ops3 [] d)]
    exact ⟨List.Sublist.refl _, rfl, rfl⟩
  · exact divided_sublist lerp3_zero (fun _ _ _ h => h.1) (C27_divided3 pts out d hd hne h)

/-- consecutive points of a division -/
theorem divided_adjacent {P : Type} {lerp : P → P → K → P} {count : P → P → Nat → Prop}
    (h0 : ∀ a b, lerp a b 0 = a) (h1 : ∀ a b, lerp a b 1 = b) (hc : ∀ a b n, count a b n → 1 ≤ n)
    {pts out : List P} (h : Divided lerp count pts out) (i : Nat) (p q : P)
    (hp : out[i]? = some p) (hq : out[i + 1]? = some q) :
    ∃ (j : Nat) (a b : P) (n k : Nat), pts[j]? = some a ∧ pts[j + 1]? = some b ∧ count a b n ∧ k < n ∧
      p = lerp a b ((k : K) / n) ∧ q = lerp a b (((k + 1 : Nat) : K) / n) := by
  induction h generalizing i with
  | last p => simp at hq
  | seg a b rest out n hn h ih =>
    have hn1 := hc a b n hn
    have hnK : (n : K) ≠ 0 := by exact_mod_cast (by omega : n ≠ 0)
    obtain ⟨-, hhead, -⟩ := divided_sublist h0 hc h
    by_cases hi : i + 1 < n
    · rw [List.getElem?_append_left (by simpa using (by omega : i < n))] at hp
      rw [List.getElem?_append_left (by simpa using hi)] at hq
      rw [List.getElem?_map, List.getElem?_range (by omega)] at hp
      rw [List.getElem?_map, List.getElem?_range hi] at hq
      simp only [Option.map_some, Option.some.injEq] at hp hq
      exact ⟨0, a, b, n, i, rfl, rfl, hn, by omega, hp.symm, hq.symm⟩
    · by_cases hi2 : i + 1 = n
      · rw [List.getElem?_append_left (by simpa using (by omega : i < n))] at hp
        rw [List.getElem?_append_right (by simp [hi2])] at hq
        rw [List.getElem?_map, List.getElem?_range (by omega)] at hp
        simp only [Option.map_some, Option.some.injEq] at hp
        have hq' : q = b := by
          rw [List.head?_eq_getElem?] at hhead
          simp only [List.length_map, List.length_range, hi2, Nat.sub_self] at hq
          rw [hq] at hhead
          simpa using hhead
        refine ⟨0, a, b, n, i, rfl, rfl, hn, by omega, hp.symm, ?_⟩
        rw [hi2, div_self hnK, h1, hq']
      · rw [List.getElem?_append_right (by simp; omega)] at hp
        rw [List.getElem?_append_right (by simp; omega)] at hq
        simp only [List.length_map, List.length_range] at hp hq
        have e : i + 1 - n = (i - n) + 1 := by omega
        rw [e] at hq
        obtain ⟨j, a', b', n', k, r1, r2, r3⟩ := ih (i - n) hp hq
        exact ⟨j + 1, a', b', n', k, by simpa using r1, by simpa using r2, r3⟩

theorem step_le (sq d : K) (n : Nat) (h : IsStepCount sq d n) : sq / (n : K) ^ 2 ≤ d ^ 2 := by
  have hn : (0 : K) < n := by exact_mod_cast h.1
  rw [div_le_iff₀ (by positivity)]
  have := h.2.1
  rw [mul_pow] at this
  linarith

/-- C27 (2D): consecutive points are at most `distance` apart. -/
theorem C27_step_length2 (pts out : List (V2 K)) (d : K) (hd : 0 < d)
    (h : Collects (discNext ops2) (discNew ops2 pts d) out) (i : Nat) (p q : V2 K)
    (hp : out[i]? = some p) (hq : out[i + 1]? = some q) : sqDist2 p q ≤ d ^ 2 := by
  have hne : pts ≠ [] := by
    rintro rfl
    rw [collects_unique h (collects_all ops2 [] d)] at hp
    simp [allPoints] at hp
  obtain ⟨j, a, b, n, k, ha, hb, hn, hk, rfl, rfl⟩ := divided_adjacent lerp2_zero lerp2_one
    (fun _ _ _ h => h.1) (C27_divided2 pts out d hd hne h) i p q hp hq
  refine le_trans (le_of_eq ?_) (step_le _ d n hn)
  have hnK : (n : K) ≠ 0 := by
    have := hn.1
    exact_mod_cast (by omega : n ≠ 0)
  simp only [sqDist2, lerp2, Nat.cast_add, Nat.cast_one]
  field_simp
  ring

/-- C27 (3D) -/
theorem C27_step_length3 (pts out : List (V3 K)) (d : K) (hd : 0 < d)
    (h : Collects (discNext ops3) (discNew ops3 pts d) out) (i : Nat) (p q : V3 K)
    (hp : out[i]? = some p) (hq : out[i + 1]? = some q) : sqDist3 p q ≤ d ^ 2 := by
  have hne : pts ≠ [] := by
    rintro rfl
    rw [collects_unique h (collects_all ops3 [] d)] at hp
    simp [allPoints] at hp
  obtain ⟨j, a, b, n, k, ha, hb, hn, hk, rfl, rfl⟩ := divided_adjacent lerp3_zero lerp3_one
    (fun _ _ _ h => h.1) (C27_divided3 pts out d hd hne h) i p q hp hq
  refine le_trans (le_of_eq ?_) (step_le _ d n hn)
  have hnK : (n : K) ≠ 0 := by
    have := hn.1
    exact_mod_cast (by omega : n ≠ 0)
  simp only [sqDist3, lerp3, Nat.cast_add, Nat.cast_one]
  field_simp
  ring

theorem divided_on {P : Type} {lerp : P → P → K → P} {count : P → P → Nat → Prop} {pts out : List P}
    (h : Divided lerp count pts out) (q : P) (hq : q ∈ out) (h2 : 2 ≤ pts.length) (h1 : ∀ a b, lerp a b 1 = b) :
    ∃ (j : Nat) (a b : P) (t : K), pts[j]? = some a ∧ pts[j + 1]? = some b ∧ 0 ≤ t ∧ t ≤ 1 ∧ q = lerp a b t := by
  induction h with
  | last p => simp at h2
  | seg a b rest out n hn h ih =>
    rw [List.mem_append, List.mem_map] at hq
    rcases hq with ⟨i, hi, rfl⟩ | hq
    · rw [List.mem_range] at hi
      have hn0 : (0 : K) < n := by exact_mod_cast (by omega : 0 < n)
      refine ⟨0, a, b, _, rfl, rfl, by positivity, ?_, rfl⟩
      rw [div_le_one hn0]
      exact_mod_cast hi.le
    · cases rest with
      | nil =>
        cases h
        rw [List.mem_singleton] at hq
        subst hq
        exact ⟨0, a, q, 1, rfl, rfl, zero_le_one, le_rfl, (h1 _ _).symm⟩
      | cons c rest =>
        obtain ⟨j, a', b', t, r1, r2, r3⟩ := ih hq (by simp)
        exact ⟨j + 1, a', b', t, by simpa using r1, by simpa using r2, r3⟩

/-- C27 (2D): all yielded points lie on the line string. -/
theorem C27_on_line2 (pts out : List (V2 K)) (d : K) (hd : 0 < d) (h2 : 2 ≤ pts.length)
    (h : Collects (discNext ops2) (discNew ops2 pts d) out) (q : V2 K) (hq : q ∈ out) : OnPolyline pts q := by
  have hne : pts ≠ [] := by rintro rfl; simp at h2
  obtain ⟨j, a, b, t, ha, hb, h0, h1, e⟩ := divided_on (C27_divided2 pts out d hd hne h) q hq h2 lerp2_one
  exact ⟨j, a, b, ha, hb, t, h0, h1, e⟩

/-- C27 (3D): all yielded points lie on the line string. -/
theorem C27_on_line3 (pts out : List (V3 K)) (d : K) (hd : 0 < d) (h2 : 2 ≤ pts.length)
    (h : Collects (discNext ops3) (discNew ops3 pts d) out) (q : V3 K) (hq : q ∈ out) :
    ∃ (j : Nat) (a b : V3 K), pts[j]? = some a ∧ pts[j + 1]? = some b ∧ OnSegment3 a b q := by
  have hne : pts ≠ [] := by rintro rfl; simp at h2
  obtain ⟨j, a, b, t, ha, hb, h0, h1, e⟩ := divided_on (C27_divided3 pts out d hd hne h) q hq h2 lerp3_one
  exact ⟨j, a, b, ha, hb, t, h0, h1, e⟩

end exact

/-- the example in the documentation of `discretize` (its square roots are rational) -/
example : allPoints ops2 (4/5 : ℚ) [⟨1/2, 0⟩, ⟨1, 0⟩, ⟨2, 0⟩, ⟨3, 0⟩] =
    [⟨1/2, 0⟩, ⟨1, 0⟩, ⟨3/2, 0⟩, ⟨2, 0⟩, ⟨5/2, 0⟩, ⟨3, 0⟩] := by decide +kernel

/-- the laws assumed in C26, C27 hold for the real numbers, and a run exists for every input -/
example (pts : List (V2 ℝ)) : ∃ out, Collects (discNext ops2) (discNew ops2 pts 1) out ∧ pts.Sublist out := by
  obtain ⟨out, h, -⟩ := C26_always_ends ops2 pts (1 : ℝ)
  exact ⟨out, h, (C26_keeps_points2 pts out 1 one_pos h).1⟩

/-- C26 does need exact arithmetic: if the quotient length/distance underflows or the distance is
infinite, the number of steps is 0 and the start point of the segment is lost. -/
theorem C26_infinite_distance_drops_points : allPoints ops2 FQ.pinf
    [(⟨.fin 0, .fin 0⟩ : V2 FQ), ⟨.fin 3, .fin 4⟩, ⟨.fin 6, .fin 8⟩] = [⟨.fin 6, .fin 8⟩] := by
  decide +kernel

end Verif.Props.Discretize
