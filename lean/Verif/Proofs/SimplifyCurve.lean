import Verif.Spec.Geom
import Verif.Spec.Simplify
import Mathlib.Tactic.LinearCombination
import Mathlib.Tactic.Linarith
import Mathlib.Tactic.Ring
import Mathlib.Tactic.FieldSimp
import Mathlib.Tactic.Positivity
/-!
# A simplification and the original as curves
-/
set_option linter.unusedSectionVars false
namespace Verif.Proofs.SimplifyCurve
open Verif.Spec

section lists
variable {P : Type}

/-- `u` and `v` are consecutive in the list -/
def Next (l : List P) (u v : P) : Prop := ∃ i : Nat, l[i]? = some u ∧ l[i + 1]? = some v

theorem next_cons {l : List P} {a u v : P} (h : Next l u v) : Next (a :: l) u v := by
  obtain ⟨i, h1, h2⟩ := h
  exact ⟨i + 1, h1, h2⟩

theorem next_cons_iff {l : List P} {a u v : P} : Next (a :: l) u v ↔ (a = u ∧ l.head? = some v) ∨ Next l u v := by
  constructor
  · rintro ⟨i, h1, h2⟩
    cases i with
    | zero =>
      left
      simp only [List.getElem?_cons_zero, Option.some.injEq] at h1
      rw [List.getElem?_cons_succ] at h2
      exact ⟨h1, by rw [List.head?_eq_getElem?]; exact h2⟩
    | succ i => exact Or.inr ⟨i, h1, h2⟩
  · rintro (⟨rfl, h⟩ | h)
    · exact ⟨0, rfl, by rw [List.head?_eq_getElem?] at h; exact h⟩
    · exact next_cons h

theorem next_append_right {l m : List P} {u v : P} (h : Next m u v) : Next (l ++ m) u v := by
  induction l with
  | nil => exact h
  | cons a l ih => exact next_cons ih

theorem next_append_left {l m : List P} {u v : P} (h : Next l u v) : Next (l ++ m) u v := by
  obtain ⟨i, h1, h2⟩ := h
  have l1 := (List.getElem?_eq_some_iff.1 h1).1
  have l2 := (List.getElem?_eq_some_iff.1 h2).1
  exact ⟨i, by rw [List.getElem?_append_left l1]; exact h1, by rw [List.getElem?_append_left l2]; exact h2⟩

/-- every two consecutive points of the original belong to two consecutive points of the simplification -/
theorem forward {ok : P → P → P → Prop} (h1 : ∀ a b, ok a b a) (h2 : ∀ a b, ok a b b) {l o : List P} (h : Simplification ok l o) :
    ∀ u v, Next l u v → ∃ a b, Next o a b ∧ ok a b u ∧ ok a b v := by
  induction h with
  | single a =>
    rintro u v ⟨i, -, h⟩
    simp at h
  | step a b dropped rest out hok h ih =>
    intro u v huv
    have key : ∀ (dropped : List P) (a' : P), ok a b a' → (∀ p ∈ dropped, ok a b p) → Next (a' :: (dropped ++ b :: rest)) u v →
        (ok a b u ∧ ok a b v) ∨ Next (b :: rest) u v := by
      intro dropped
      induction dropped with
      | nil =>
        intro a' ha' _ h
        rcases next_cons_iff.1 h with ⟨rfl, e⟩ | h
        · simp only [List.nil_append, List.head?_cons, Option.some.injEq] at e
          subst e
          exact Or.inl ⟨ha', h2 a b⟩
        · exact Or.inr h
      | cons x dropped ih =>
        intro a' ha' hd h
        rcases next_cons_iff.1 h with ⟨rfl, e⟩ | h
        · simp only [List.cons_append, List.head?_cons, Option.some.injEq] at e
          subst e
          exact Or.inl ⟨ha', hd x (by simp)⟩
        · exact ih x (hd x (by simp)) (fun p hp => hd p (by simp [hp])) h
    rcases key dropped a (h1 a b) hok huv with k | k
    · exact ⟨a, b, ⟨0, rfl, rfl⟩, k⟩
    · obtain ⟨a', b', n, k⟩ := ih u v k
      exact ⟨a', b', next_cons n, k⟩

/-- two consecutive points of the simplification are the ends of a stretch of the original -/
theorem backward {ok : P → P → P → Prop} {l o : List P} (h : Simplification ok l o) :
    ∀ a b, Next o a b → ∃ dropped, (∀ p ∈ dropped, ok a b p) ∧ ∀ u v, Next (a :: (dropped ++ [b])) u v → Next l u v := by
  induction h with
  | single a =>
    rintro u v ⟨i, -, h⟩
    simp at h
  | step a b dropped rest out hok h ih =>
    intro x y hxy
    rcases next_cons_iff.1 hxy with ⟨rfl, e⟩ | n
    · simp only [List.head?_cons, Option.some.injEq] at e
      subst e
      refine ⟨dropped, hok, fun u v n => ?_⟩
      have : a :: (dropped ++ b :: rest) = (a :: (dropped ++ [b])) ++ rest := by simp
      rw [this]
      exact next_append_left n
    · obtain ⟨dr, k1, k2⟩ := ih x y n
      refine ⟨dr, k1, fun u v n => ?_⟩
      rw [← List.cons_append]
      exact next_append_right (k2 u v n)

/-- somewhere a value is passed -/
theorem passes {K : Type} [LinearOrder K] (f : P → K) (t : K) : ∀ (l : List P) (a b : P), f a ≤ t → t ≤ f b →
    ∃ u v, Next (a :: (l ++ [b])) u v ∧ f u ≤ t ∧ t ≤ f v
  | [], a, b, ha, hb => ⟨a, b, ⟨0, rfl, rfl⟩, ha, hb⟩
  | x :: l, a, b, ha, hb => by
    rcases le_total (f x) t with h | h
    · obtain ⟨u, v, n, k⟩ := passes f t l x b h hb
      exact ⟨u, v, next_cons n, k⟩
    · exact ⟨a, x, ⟨0, rfl, rfl⟩, ha, h⟩

end lists

section space
variable {K : Type} [Field K] [LinearOrder K] [IsStrictOrderedRing K]

theorem convex {s x y : K} (h0 : 0 ≤ s) (h1 : s ≤ 1) : ((1 - s) * x + s * y) ^ 2 ≤ (1 - s) * x ^ 2 + s * y ^ 2 := by
  have : 0 ≤ s * (1 - s) * (x - y) ^ 2 := mul_nonneg (mul_nonneg h0 (by linarith)) (sq_nonneg _)
  linarith [show (1 - s) * x ^ 2 + s * y ^ 2 - ((1 - s) * x + s * y) ^ 2 = s * (1 - s) * (x - y) ^ 2 by ring]

theorem between {s x y e : K} (h0 : 0 ≤ s) (h1 : s ≤ 1) (hx : x ≤ e) (hy : y ≤ e) : (1 - s) * x + s * y ≤ e := by
  have a := mul_le_mul_of_nonneg_left hx (show 0 ≤ 1 - s by linarith)
  have b := mul_le_mul_of_nonneg_left hy h0
  linarith [show (1 - s) * e + s * e = e by ring]

/-- the squared distance of two points that move along two segments at the same pace is convex -/
theorem dist_convex (u v q r : V3 K) {s : K} (h0 : 0 ≤ s) (h1 : s ≤ 1) :
    sqDist3 (lerp3 u v s) (lerp3 q r s) ≤ (1 - s) * sqDist3 u q + s * sqDist3 v r := by
  unfold sqDist3 lerp3
  have cx := convex (x := u.x - q.x) (y := v.x - r.x) h0 h1
  have cy := convex (x := u.y - q.y) (y := v.y - r.y) h0 h1
  have cz := convex (x := u.z - q.z) (y := v.z - r.z) h0 h1
  have ex : u.x + s * (v.x - u.x) - (q.x + s * (r.x - q.x)) = (1 - s) * (u.x - q.x) + s * (v.x - r.x) := by ring
  have ey : u.y + s * (v.y - u.y) - (q.y + s * (r.y - q.y)) = (1 - s) * (u.y - q.y) + s * (v.y - r.y) := by ring
  have ez : u.z + s * (v.z - u.z) - (q.z + s * (r.z - q.z)) = (1 - s) * (u.z - q.z) + s * (v.z - r.z) := by ring
  dsimp only
  rw [ex, ey, ez]
  linarith

theorem dist_between {u v q r : V3 K} {s e : K} (h0 : 0 ≤ s) (h1 : s ≤ 1) (hu : sqDist3 u q ≤ e) (hv : sqDist3 v r ≤ e) :
    sqDist3 (lerp3 u v s) (lerp3 q r s) ≤ e :=
  (dist_convex u v q r h0 h1).trans (between h0 h1 hu hv)

theorem lerp_lerp (a b : V3 K) (x y s : K) : lerp3 (lerp3 a b x) (lerp3 a b y) s = lerp3 a b ((1 - s) * x + s * y) := by
  unfold lerp3
  congr 1 <;> ring

/-- (a) points between two points near the segment are near the segment -/
theorem near_segment {a b u v p : V3 K} {e : K} (hu : ∃ q, OnSegment3 a b q ∧ sqDist3 u q ≤ e)
    (hv : ∃ q, OnSegment3 a b q ∧ sqDist3 v q ≤ e) (hp : OnSegment3 u v p) : ∃ q, OnSegment3 a b q ∧ sqDist3 p q ≤ e := by
  obtain ⟨_, ⟨x, x0, x1, rfl⟩, hu⟩ := hu
  obtain ⟨_, ⟨y, y0, y1, rfl⟩, hv⟩ := hv
  obtain ⟨s, s0, s1, rfl⟩ := hp
  refine ⟨_, ⟨(1 - s) * x + s * y, ?_, between s0 s1 x1 y1, rfl⟩, ?_⟩
  · exact add_nonneg (mul_nonneg (by linarith) x0) (mul_nonneg s0 y0)
  · rw [← lerp_lerp]
    exact dist_between s0 s1 hu hv

/-- (a) for lines -/
theorem near_line {a b u v p : V3 K} {e : K} (hu : ∃ q, OnLine3 a b q ∧ sqDist3 u q ≤ e)
    (hv : ∃ q, OnLine3 a b q ∧ sqDist3 v q ≤ e) (hp : OnSegment3 u v p) : ∃ q, OnLine3 a b q ∧ sqDist3 p q ≤ e := by
  obtain ⟨_, ⟨x, rfl⟩, hu⟩ := hu
  obtain ⟨_, ⟨y, rfl⟩, hv⟩ := hv
  obtain ⟨s, s0, s1, rfl⟩ := hp
  refine ⟨_, ⟨(1 - s) * x + s * y, rfl⟩, ?_⟩
  rw [← lerp_lerp]
  exact dist_between s0 s1 hu hv

/-- how far along the line through `a` and `b` the point is -/
def foot (a b p : V3 K) : K :=
  ((p.x - a.x) * (b.x - a.x) + (p.y - a.y) * (b.y - a.y) + (p.z - a.z) * (b.z - a.z)) / sqDist3 b a

theorem foot_nearest {a b p : V3 K} (hab : sqDist3 b a ≠ 0) (t : K) : sqDist3 p (lerp3 a b (foot a b p)) ≤ sqDist3 p (lerp3 a b t) := by
  have pos : 0 < sqDist3 b a := lt_of_le_of_ne (by unfold sqDist3; positivity) (Ne.symm hab)
  have hf : foot a b p * sqDist3 b a =
      (p.x - a.x) * (b.x - a.x) + (p.y - a.y) * (b.y - a.y) + (p.z - a.z) * (b.z - a.z) := by
    unfold foot
    rw [div_mul_cancel₀ _ hab]
  generalize foot a b p = f at hf ⊢
  have : 0 ≤ (t - f) ^ 2 * sqDist3 b a := mul_nonneg (sq_nonneg _) pos.le
  have e : sqDist3 p (lerp3 a b t) - sqDist3 p (lerp3 a b f) = (t - f) ^ 2 * sqDist3 b a := by
    unfold sqDist3 lerp3 at *
    dsimp only at *
    linear_combination (2 * (t - f)) * hf
  linarith

theorem foot_lerp {a b u v : V3 K} (s : K) : foot a b (lerp3 u v s) = (1 - s) * foot a b u + s * foot a b v := by
  unfold foot lerp3
  dsimp only
  ring

theorem foot_start (a b : V3 K) : foot a b a = 0 := by
  unfold foot
  simp

theorem foot_end {a b : V3 K} (h : sqDist3 b a ≠ 0) : foot a b b = 1 := by
  unfold foot
  rw [div_eq_one_iff_eq h]
  unfold sqDist3
  ring

/-- a value between the values at the ends is taken -/
theorem takes {x y t : K} (hx : x ≤ t) (hy : t ≤ y) : ∃ s, 0 ≤ s ∧ s ≤ 1 ∧ (1 - s) * x + s * y = t := by
  by_cases h : x = y
  · subst h
    exact ⟨0, le_refl _, zero_le_one, by linarith⟩
  · have hlt : x < y := lt_of_le_of_ne (hx.trans hy) h
    have pos : 0 < y - x := by linarith
    refine ⟨(t - x) / (y - x), div_nonneg (by linarith) pos.le, (div_le_one pos).2 (by linarith), ?_⟩
    have : (t - x) / (y - x) * (y - x) = t - x := div_mul_cancel₀ _ pos.ne'
    linear_combination this

/-- (b) every point of the segment is near a point of the path, if the path is near the line -/
theorem near_path {a b q : V3 K} {e : K} (he : 0 ≤ e) (dropped : List (V3 K)) (hd : ∀ p ∈ dropped, ∃ r, OnLine3 a b r ∧ sqDist3 p r ≤ e)
    (hq : OnSegment3 a b q) : ∃ u v, Next (a :: (dropped ++ [b])) u v ∧ ∃ p, OnSegment3 u v p ∧ sqDist3 p q ≤ e := by
  obtain ⟨t, t0, t1, rfl⟩ := hq
  by_cases hab : sqDist3 b a = 0
  · obtain ⟨v, hv⟩ : ∃ v, Next (a :: (dropped ++ [b])) a v := by
      cases dropped with
      | nil => exact ⟨b, 0, rfl, rfl⟩
      | cons x l => exact ⟨x, 0, rfl, rfl⟩
    refine ⟨a, v, hv, a, ⟨0, le_refl _, zero_le_one, by unfold lerp3; simp⟩, ?_⟩
    have : sqDist3 a (lerp3 a b t) = t ^ 2 * sqDist3 b a := by unfold sqDist3 lerp3; dsimp only; ring
    rw [this, hab, mul_zero]
    exact he
  · obtain ⟨u, v, n, hu, hv⟩ := passes (foot a b) t dropped a b (by rw [foot_start]; exact t0) (by rw [foot_end hab]; exact t1)
    have near : ∀ w, w ∈ a :: (dropped ++ [b]) → sqDist3 w (lerp3 a b (foot a b w)) ≤ e := by
      have line : ∀ w, (∃ r, OnLine3 a b r ∧ sqDist3 w r ≤ e) → sqDist3 w (lerp3 a b (foot a b w)) ≤ e := by
        rintro w ⟨_, ⟨x, rfl⟩, hx⟩
        exact (foot_nearest hab x).trans hx
      intro w hw
      apply line
      rcases List.mem_cons.1 hw with rfl | hw
      · exact ⟨_, ⟨0, rfl⟩, by unfold sqDist3 lerp3; simpa using he⟩
      rcases List.mem_append.1 hw with hw | hw
      · exact hd w hw
      · rw [List.mem_singleton.1 hw]
        exact ⟨_, ⟨1, rfl⟩, by unfold sqDist3 lerp3; simpa using he⟩
    obtain ⟨s, s0, s1, hs⟩ := takes hu hv
    refine ⟨u, v, n, _, ⟨s, s0, s1, rfl⟩, ?_⟩
    obtain ⟨i, n1, n2⟩ := n
    have := dist_between s0 s1 (near u (List.mem_of_getElem? n1)) (near v (List.mem_of_getElem? n2))
    rw [lerp_lerp, hs] at this
    exact this

end space

section plane
variable {K : Type} [Field K] [LinearOrder K] [IsStrictOrderedRing K]

/-- the plane in space -/
def flat (p : V2 K) : V3 K := ⟨p.x, p.y, 0⟩

theorem flat_lerp (a b : V2 K) (t : K) : flat (lerp2 a b t) = lerp3 (flat a) (flat b) t := by
  unfold flat lerp2 lerp3
  simp

theorem flat_dist (p q : V2 K) : sqDist3 (flat p) (flat q) = sqDist2 p q := by
  unfold sqDist3 sqDist2 flat
  simp

theorem flat_segment {a b q : V2 K} (h : OnSegment2 a b q) : OnSegment3 (flat a) (flat b) (flat q) := by
  obtain ⟨t, h0, h1, rfl⟩ := h
  exact ⟨t, h0, h1, flat_lerp a b t⟩

theorem of_flat_segment {a b : V2 K} {q : V3 K} (h : OnSegment3 (flat a) (flat b) q) : ∃ r, OnSegment2 a b r ∧ q = flat r := by
  obtain ⟨t, h0, h1, rfl⟩ := h
  exact ⟨_, ⟨t, h0, h1, rfl⟩, (flat_lerp a b t).symm⟩

theorem near_segment2 {a b u v p : V2 K} {e : K} (hu : ∃ q, OnSegment2 a b q ∧ sqDist2 u q ≤ e)
    (hv : ∃ q, OnSegment2 a b q ∧ sqDist2 v q ≤ e) (hp : OnSegment2 u v p) : ∃ q, OnSegment2 a b q ∧ sqDist2 p q ≤ e := by
  have up : ∀ w, (∃ q, OnSegment2 a b q ∧ sqDist2 w q ≤ e) → ∃ q, OnSegment3 (flat a) (flat b) q ∧ sqDist3 (flat w) q ≤ e := by
    rintro w ⟨q, h1, h2⟩
    exact ⟨flat q, flat_segment h1, by rw [flat_dist]; exact h2⟩
  obtain ⟨q, h1, h2⟩ := near_segment (up u hu) (up v hv) (flat_segment hp)
  obtain ⟨r, hr, rfl⟩ := of_flat_segment h1
  exact ⟨r, hr, by rw [← flat_dist]; exact h2⟩

theorem next_map {A B : Type} {f : A → B} {l : List A} {u v : B} (h : Next (l.map f) u v) : ∃ x y, Next l x y ∧ u = f x ∧ v = f y := by
  obtain ⟨i, h1, h2⟩ := h
  rw [List.getElem?_map, Option.map_eq_some_iff] at h1 h2
  obtain ⟨x, hx, rfl⟩ := h1
  obtain ⟨y, hy, rfl⟩ := h2
  exact ⟨x, y, ⟨i, hx, hy⟩, rfl, rfl⟩

theorem near_path2 {a b q : V2 K} {e : K} (he : 0 ≤ e) (dropped : List (V2 K)) (hd : ∀ p ∈ dropped, ∃ r, OnSegment2 a b r ∧ sqDist2 p r ≤ e)
    (hq : OnSegment2 a b q) : ∃ u v, Next (a :: (dropped ++ [b])) u v ∧ ∃ p, OnSegment2 u v p ∧ sqDist2 p q ≤ e := by
  obtain ⟨u, v, n, p, hp, h⟩ := near_path (a := flat a) (b := flat b) (q := flat q) he (dropped.map flat) (by
    intro p hp
    obtain ⟨p, hp', rfl⟩ := List.mem_map.1 hp
    obtain ⟨r, ⟨t, -, -, rfl⟩, hr⟩ := hd p hp'
    exact ⟨_, ⟨t, rfl⟩, by rw [← flat_lerp, flat_dist]; exact hr⟩) (flat_segment hq)
  have e1 : flat a :: (dropped.map flat ++ [flat b]) = (a :: (dropped ++ [b])).map flat := by simp
  rw [e1] at n
  obtain ⟨x, y, n', rfl, rfl⟩ := next_map n
  obtain ⟨r, hr, rfl⟩ := of_flat_segment hp
  exact ⟨x, y, n', r, hr, by rw [← flat_dist]; exact h⟩

theorem dist_convex2 (u v q r : V2 K) {s : K} (h0 : 0 ≤ s) (h1 : s ≤ 1) :
    sqDist2 (lerp2 u v s) (lerp2 q r s) ≤ (1 - s) * sqDist2 u q + s * sqDist2 v r := by
  have := dist_convex (flat u) (flat v) (flat q) (flat r) h0 h1
  rw [← flat_lerp, ← flat_lerp, flat_dist, flat_dist, flat_dist] at this
  exact this

end plane
end Verif.Proofs.SimplifyCurve
