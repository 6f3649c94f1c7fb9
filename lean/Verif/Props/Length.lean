import Verif.Spec.Length
import Verif.Props.DiscretizeSim
import Verif.Props.Aabb
import Verif.Props.Rdp
import Verif.Props.Vw
import Mathlib.Tactic.Positivity
import Mathlib.Tactic.Linarith
import Mathlib.Tactic.LinearCombination
/-!
# C95: length, extent and size of simplified and discretized line strings
-/
namespace Verif.Props.Length
open Verif Verif.Model Verif.Spec Verif.Props.Discretize Scalar
set_option linter.unusedSectionVars false

/-! ## lengths of subsequences -/
section path
variable {P : Type} {d : P → P → ℝ}

theorem path_skip (ht : ∀ a b c, d a c ≤ d a b + d b c) (hp : ∀ a b, 0 ≤ d a b) (a b : P) (l : List P) :
    pathLength d (a :: l) ≤ d a b + pathLength d (b :: l) := by
  cases l with
  | nil => simpa [pathLength] using hp a b
  | cons c l =>
    simp only [pathLength]
    have := ht a b c
    linarith

theorem path_cons (ht : ∀ a b c, d a c ≤ d a b + d b c) (hp : ∀ a b, 0 ≤ d a b) {l m : List P} (h : l.Sublist m) :
    ∀ a, pathLength d (a :: l) ≤ pathLength d (a :: m) := by
  induction h with
  | slnil => intro a; exact le_rfl
  | cons b h ih => exact fun a => (path_skip ht hp a b _).trans (by simp only [pathLength]; linarith [ih b])
  | cons_cons b h ih => exact fun a => by simp only [pathLength]; linarith [ih b]

theorem path_tail (hp : ∀ a b, 0 ≤ d a b) (a : P) (l : List P) : pathLength d l ≤ pathLength d (a :: l) := by
  cases l with
  | nil => simp [pathLength]
  | cons b l => simp only [pathLength]; linarith [hp a b]

/-- leaving out points does not make a line string longer -/
theorem path_sublist (ht : ∀ a b c, d a c ≤ d a b + d b c) (hp : ∀ a b, 0 ≤ d a b) {l m : List P} (h : l.Sublist m) :
    pathLength d l ≤ pathLength d m := by
  induction h with
  | slnil => exact le_rfl
  | cons b h ih => exact ih.trans (path_tail hp b _)
  | cons_cons b h ih => exact path_cons ht hp h b

/-- the distance of the ends is at most the length -/
theorem ends_le (hz : ∀ {a}, d a a = 0) (ht : ∀ a b c, d a c ≤ d a b + d b c) (hp : ∀ a b, 0 ≤ d a b) {l : List P} {a b : P}
    (h1 : l.head? = some a) (h2 : l.getLast? = some b) : d a b ≤ pathLength d l := by
  cases l with
  | nil => simp at h1
  | cons x l =>
    simp only [List.head?_cons, Option.some.injEq] at h1
    subst h1
    rcases List.eq_nil_or_concat' l with rfl | ⟨m, y, rfl⟩
    · simp only [List.getLast?_singleton, Option.some.injEq] at h2
      subst h2
      simp [pathLength, hz]
    · rw [← List.cons_append, List.getLast?_concat, Option.some.injEq] at h2
      subst h2
      have := path_sublist ht hp (List.Sublist.cons_cons x (List.sublist_append_right m [y]))
      simpa [pathLength] using this

/-- equal steps add up -/
theorem path_steps (f : Nat → P) (s : ℝ) (rest : List P) : ∀ (k i : Nat), (∀ j, i ≤ j → j < i + k → d (f j) (f (j + 1)) = s) →
    pathLength d ((List.range' i k).map f ++ f (i + k) :: rest) = k * s + pathLength d (f (i + k) :: rest) := by
  intro k
  induction k with
  | zero => intro i _; simp
  | succ k ih =>
    intro i h
    have e : i + (k + 1) = i + 1 + k := by omega
    have h1 := ih (i + 1) (fun j h1 h2 => h j (by omega) (by omega))
    have h0 := h i le_rfl (by omega)
    rw [List.range'_succ, List.map_cons, e]
    cases k with
    | zero => simp only [List.range'_zero, List.map_nil, List.nil_append, Nat.add_zero, List.cons_append, pathLength, h0]; push_cast; ring
    | succ k =>
      rw [List.range'_succ, List.map_cons] at h1 ⊢
      simp only [List.cons_append, pathLength] at h1 ⊢
      rw [h0, h1]; push_cast; ring

end path

/-! ## the Euclidean distances -/

theorem triangle (x y z u v w : ℝ) : Real.sqrt ((x + u) ^ 2 + (y + v) ^ 2 + (z + w) ^ 2) ≤
    Real.sqrt (x ^ 2 + y ^ 2 + z ^ 2) + Real.sqrt (u ^ 2 + v ^ 2 + w ^ 2) := by
  have hp : 0 ≤ x ^ 2 + y ^ 2 + z ^ 2 := by positivity
  have hq : 0 ≤ u ^ 2 + v ^ 2 + w ^ 2 := by positivity
  have h1 := Real.sq_sqrt hp
  have h2 := Real.sq_sqrt hq
  have p0 := Real.sqrt_nonneg (x ^ 2 + y ^ 2 + z ^ 2)
  have q0 := Real.sqrt_nonneg (u ^ 2 + v ^ 2 + w ^ 2)
  have hc : x * u + y * v + z * w ≤ Real.sqrt (x ^ 2 + y ^ 2 + z ^ 2) * Real.sqrt (u ^ 2 + v ^ 2 + w ^ 2) := by
    rw [← Real.sqrt_mul hp]
    refine Real.le_sqrt_of_sq_le ?_
    nlinarith [sq_nonneg (x * v - y * u), sq_nonneg (y * w - z * v), sq_nonneg (z * u - x * w)]
  rw [Real.sqrt_le_left (by positivity)]
  nlinarith

theorem dist3_triangle (a b c : V3 ℝ) : dist3 a c ≤ dist3 a b + dist3 b c := by
  have := triangle (a.x - b.x) (a.y - b.y) (a.z - b.z) (b.x - c.x) (b.y - c.y) (b.z - c.z)
  simpa only [dist3, sqDist3, sub_add_sub_cancel] using this

theorem dist2_triangle (a b c : V2 ℝ) : dist2 a c ≤ dist2 a b + dist2 b c := by
  have := triangle (a.x - b.x) (a.y - b.y) 0 (b.x - c.x) (b.y - c.y) 0
  simpa [dist2, sqDist2, sub_add_sub_cancel] using this

theorem dist2_nonneg (a b : V2 ℝ) : 0 ≤ dist2 a b := Real.sqrt_nonneg _
theorem dist3_nonneg (a b : V3 ℝ) : 0 ≤ dist3 a b := Real.sqrt_nonneg _

theorem dist2_lerp (a b : V2 ℝ) (s t : ℝ) (h : s ≤ t) : dist2 (lerp2 a b s) (lerp2 a b t) = (t - s) * dist2 a b := by
  have e : sqDist2 (lerp2 a b s) (lerp2 a b t) = (t - s) ^ 2 * sqDist2 a b := by simp only [sqDist2, lerp2]; ring
  rw [dist2, e, Real.sqrt_mul (by positivity), Real.sqrt_sq (by linarith), dist2]

theorem dist3_lerp (a b : V3 ℝ) (s t : ℝ) (h : s ≤ t) : dist3 (lerp3 a b s) (lerp3 a b t) = (t - s) * dist3 a b := by
  have e : sqDist3 (lerp3 a b s) (lerp3 a b t) = (t - s) ^ 2 * sqDist3 a b := by simp only [sqDist3, lerp3]; ring
  rw [dist3, e, Real.sqrt_mul (by positivity), Real.sqrt_sq (by linarith), dist3]

/-! ## dividing keeps the length -/
section divide
variable {P : Type} {d : P → P → ℝ} {lerp : P → P → ℝ → P} {count : P → P → Nat → Prop}

theorem divided_length (h0 : ∀ a b, lerp a b 0 = a) (h1 : ∀ a b, lerp a b 1 = b) (hc : ∀ a b n, count a b n → 1 ≤ n)
    (hd : ∀ a b (s t : ℝ), s ≤ t → d (lerp a b s) (lerp a b t) = (t - s) * d a b)
    {pts out : List P} (h : Divided lerp count pts out) : pathLength d out = pathLength d pts := by
  induction h with
  | last p => rfl
  | seg a b rest out n hn h ih =>
    have hn1 := hc a b n hn
    have hnK : (n : ℝ) ≠ 0 := by exact_mod_cast (by omega : n ≠ 0)
    have hnP : (0 : ℝ) < n := by exact_mod_cast hn1
    obtain ⟨-, hhead, -⟩ := divided_sublist h0 hc h
    obtain ⟨rest', rfl⟩ : ∃ r, out = b :: r := by
      cases out with
      | nil => simp at hhead
      | cons x r => simp only [List.head?_cons, Option.some.injEq] at hhead; exact ⟨r, by rw [hhead]⟩
    have key := path_steps (d := d) (fun i : Nat => lerp a b ((i : ℝ) / n)) (d a b / n) rest' n 0 (fun j _ _ => by
      rw [hd a b _ _ (by gcongr; exact Nat.le_succ j)]
      push_cast
      field_simp
      ring)
    rw [Nat.zero_add, div_self hnK, h1, ← List.range_eq_range'] at key
    rw [key, ih]
    simp only [pathLength]
    field_simp

/-- the number of points of a division -/
theorem divided_size (s : ℝ) (hc : ∀ a b n, count a b n → d a b ≤ n * s ∧ (n : ℝ) * s ≤ d a b + s)
    {pts out : List P} (h : Divided lerp count pts out) :
    pathLength d pts ≤ ((out.length : ℝ) - 1) * s ∧ ((out.length : ℝ) - 1) * s ≤ pathLength d pts + ((pts.length : ℝ) - 1) * s := by
  induction h with
  | last p => simp [pathLength]
  | seg a b rest out n hn h ih =>
    obtain ⟨h1, h2⟩ := hc a b n hn
    simp only [List.length_append, List.length_map, List.length_range, List.length_cons, pathLength] at ih ⊢
    push_cast at ih ⊢
    constructor <;> nlinarith [ih.1, ih.2]

end divide

/-- a line string whose segments need no division is divided into itself -/
theorem divided_self {K P : Type} [Field K] {lerp : P → P → K → P} {count : P → P → Nat → Prop} (h0 : ∀ a b, lerp a b 0 = a) {pts : List P} (hne : pts ≠ [])
    (hc : ∀ (i : Nat) a b, pts[i]? = some a → pts[i + 1]? = some b → count a b 1) : Divided lerp count pts pts := by
  induction pts with
  | nil => exact absurd rfl hne
  | cons a rest ih =>
    cases rest with
    | nil => exact .last a
    | cons b rest =>
      have D := ih (List.cons_ne_nil _ _) (fun i x y hx hy => hc (i + 1) x y (by simpa using hx) (by simpa using hy))
      have := Divided.seg (lerp := lerp) a b rest (b :: rest) 1 (hc 0 a b rfl rfl) D
      simpa [h0] using this


theorem step_bounds {sq s : ℝ} (hs : 0 < s) {n : Nat} (h : IsStepCount sq s n) :
    Real.sqrt sq ≤ n * s ∧ (n : ℝ) * s ≤ Real.sqrt sq + s := by
  obtain ⟨h1, h2, h3⟩ := h
  have n1 : (1 : ℝ) ≤ n := by exact_mod_cast h1
  refine ⟨Real.sqrt_le_iff.2 ⟨by positivity, h2⟩, ?_⟩
  rcases h3 with rfl | h3
  · have := Real.sqrt_nonneg sq; push_cast; linarith
  · have := Real.le_sqrt_of_sq_le h3.le
    linarith

/-! ## bounding boxes -/
section box
variable {K : Type} [Scalar K] [LinearOrder K] [OrderedScalar K]

theorem box2_sub {pts out : List (V2 K)} (h : ∀ p ∈ out, p ∈ pts) (hne : out ≠ []) :
    (Aabb2.withPoints pts).containsAabb (Aabb2.withPoints out) = true :=
  Props.Aabb.C30_box2_minimal (.withPoints out) hne _ (fun p hp => Props.Aabb.C30_box2_contains_fed (.withPoints pts) p (h p hp))

theorem box3_sub {pts out : List (V3 K)} (h : ∀ p ∈ out, p ∈ pts) (hne : out ≠ []) :
    (Aabb3.withPoints pts).containsAabb (Aabb3.withPoints out) = true :=
  Props.Aabb.C30_box3_minimal (.withPoints out) hne _ (fun p hp => Props.Aabb.C30_box3_contains_fed (.withPoints pts) p (h p hp))

end box

section fill
variable {K : Type} [Scalar K] [Field K] [LinearOrder K] [ExactScalar K]

/-- adding values between existing ones keeps the range -/
theorem range_fill {lo hi : K} {xs ys : List K} (h : IsRange lo hi xs) (hs : ∀ x ∈ xs, x ∈ ys)
    (hb : ∀ y ∈ ys, ∃ a ∈ xs, ∃ b ∈ xs, ∃ t : K, 0 ≤ t ∧ t ≤ 1 ∧ y = a + t * (b - a)) : IsRange lo hi ys := by
  have := ExactScalar.toIsStrictOrderedRing (K := K)
  refine ⟨hs _ h.1, hs _ h.2.1, fun y hy => ?_⟩
  obtain ⟨a, ha, b, hb, t, t0, t1, rfl⟩ := hb y hy
  obtain ⟨a1, a2⟩ := h.2.2 a ha
  obtain ⟨b1, b2⟩ := h.2.2 b hb
  constructor
  · nlinarith [mul_nonneg t0 (sub_nonneg.2 b1), mul_nonneg (sub_nonneg.2 t1) (sub_nonneg.2 a1)]
  · nlinarith [mul_nonneg t0 (sub_nonneg.2 b2), mul_nonneg (sub_nonneg.2 t1) (sub_nonneg.2 a2)]

/-- every point of a division is between two points of the line -/
theorem divided_between [ExactSqrt K] {P : Type} {lerp : P → P → K → P} {count : P → P → Nat → Prop} {pts out : List P}
    (h : Divided lerp count pts out) (h1 : ∀ a b, lerp a b 1 = b) (q : P) (hq : q ∈ out) :
    ∃ a ∈ pts, ∃ b ∈ pts, ∃ t : K, 0 ≤ t ∧ t ≤ 1 ∧ q = lerp a b t := by
  by_cases h2 : 2 ≤ pts.length
  · obtain ⟨j, a, b, t, ha, hb, r⟩ := divided_on h q hq h2 h1
    exact ⟨a, List.mem_of_getElem? ha, b, List.mem_of_getElem? hb, t, r⟩
  · cases h with
    | last p =>
      rw [List.mem_singleton] at hq
      subst hq
      exact ⟨q, List.mem_singleton_self q, q, List.mem_singleton_self q, 1, zero_le_one, le_rfl, (h1 _ _).symm⟩
    | seg a b rest out n hn h => simp at h2

end fill

/-! ## C95, exact arithmetic with square roots -/
section exact
variable {K : Type} [Scalar K] [Field K] [LinearOrder K] [ExactScalar K] [ExactSqrt K]

/-- **C95** discretizing does not change the bounding box (2D). -/
theorem C95_discretize_box2 (pts out : List (V2 K)) (d : K) (hd : 0 < d)
    (h : Collects (discNext ops2) (discNew ops2 pts d) out) : Aabb2.withPoints out = Aabb2.withPoints pts := by
  have := ExactScalar.toIsStrictOrderedRing (K := K)
  by_cases hne : pts = []
  · subst hne; rw [collects_unique h (collects_all ops2 [] d)]; rfl
  · have D := C27_divided2 pts out d hd hne h
    obtain ⟨hs, -, -⟩ := C26_keeps_points2 pts out d hd h
    have hB := Props.Aabb.C30_box2_is_bounding_box (.withPoints pts : Hist2 K)
    have hO := Props.Aabb.C30_box2_is_bounding_box (.withPoints out : Hist2 K)
    simp only [Hist2.run, Hist2.fed] at hB hO
    have hne2 : out ≠ [] := by rintro rfl; exact hne (List.sublist_nil.1 hs)
    revert hB hO
    obtain ⟨b, eb⟩ : ∃ b, b = Aabb2.withPoints pts := ⟨_, rfl⟩
    obtain ⟨c, ec⟩ : ∃ c, c = Aabb2.withPoints out := ⟨_, rfl⟩
    rw [← eb, ← ec]
    obtain ⟨_ | ⟨⟨l1, l2⟩, ⟨u1, u2⟩⟩⟩ := b <;> obtain ⟨_ | ⟨⟨m1, m2⟩, ⟨v1, v2⟩⟩⟩ := c <;> intro hB hO
    · exact absurd hB hne
    · exact absurd hB hne
    · exact absurd hO hne2
    · have f1 := range_fill hB.1 (ys := out.map (·.x)) (fun x hx => by
          obtain ⟨p, hp, rfl⟩ := List.mem_map.1 hx; exact List.mem_map_of_mem (hs.subset hp)) (fun y hy => by
          obtain ⟨p, hp, rfl⟩ := List.mem_map.1 hy
          obtain ⟨a, ha, b, hb, t, t0, t1, rfl⟩ := divided_between D lerp2_one p hp
          exact ⟨_, List.mem_map_of_mem ha, _, List.mem_map_of_mem hb, t, t0, t1, rfl⟩)
      have f2 := range_fill hB.2 (ys := out.map (·.y)) (fun x hx => by
          obtain ⟨p, hp, rfl⟩ := List.mem_map.1 hx; exact List.mem_map_of_mem (hs.subset hp)) (fun y hy => by
          obtain ⟨p, hp, rfl⟩ := List.mem_map.1 hy
          obtain ⟨a, ha, b, hb, t, t0, t1, rfl⟩ := divided_between D lerp2_one p hp
          exact ⟨_, List.mem_map_of_mem ha, _, List.mem_map_of_mem hb, t, t0, t1, rfl⟩)
      obtain ⟨a1, a2⟩ := Proofs.Aabb.range_unique hO.1 f1 (fun _ => Iff.rfl)
      obtain ⟨b1, b2⟩ := Proofs.Aabb.range_unique hO.2 f2 (fun _ => Iff.rfl)
      simp only at a1 a2 b1 b2
      rw [a1, a2, b1, b2]

/-- **C95** discretizing does not change the bounding box (3D). -/
theorem C95_discretize_box3 (pts out : List (V3 K)) (d : K) (hd : 0 < d)
    (h : Collects (discNext ops3) (discNew ops3 pts d) out) : Aabb3.withPoints out = Aabb3.withPoints pts := by
  have := ExactScalar.toIsStrictOrderedRing (K := K)
  by_cases hne : pts = []
  · subst hne; rw [collects_unique h (collects_all ops3 [] d)]; rfl
  · have D := C27_divided3 pts out d hd hne h
    obtain ⟨hs, -, -⟩ := C26_keeps_points3 pts out d hd h
    have hB := Props.Aabb.C30_box3_is_bounding_box (.withPoints pts : Hist3 K)
    have hO := Props.Aabb.C30_box3_is_bounding_box (.withPoints out : Hist3 K)
    simp only [Hist3.run, Hist3.fed] at hB hO
    have hne2 : out ≠ [] := by rintro rfl; exact hne (List.sublist_nil.1 hs)
    have key : ∀ g : V3 K → K, (∀ a b t, g (lerp3 a b t) = g a + t * (g b - g a)) → ∀ lo hi,
        IsRange lo hi (pts.map g) → IsRange lo hi (out.map g) := fun g hg lo hi hr =>
      range_fill hr (fun x hx => by
          obtain ⟨p, hp, rfl⟩ := List.mem_map.1 hx; exact List.mem_map_of_mem (hs.subset hp)) (fun y hy => by
          obtain ⟨p, hp, rfl⟩ := List.mem_map.1 hy
          obtain ⟨a, ha, b, hb, t, t0, t1, rfl⟩ := divided_between D lerp3_one p hp
          exact ⟨_, List.mem_map_of_mem ha, _, List.mem_map_of_mem hb, t, t0, t1, hg a b t⟩)
    revert hB hO
    obtain ⟨b, eb⟩ : ∃ b, b = Aabb3.withPoints pts := ⟨_, rfl⟩
    obtain ⟨c, ec⟩ : ∃ c, c = Aabb3.withPoints out := ⟨_, rfl⟩
    rw [← eb, ← ec]
    obtain ⟨_ | ⟨⟨l1, l2, l3⟩, ⟨u1, u2, u3⟩⟩⟩ := b <;> obtain ⟨_ | ⟨⟨m1, m2, m3⟩, ⟨v1, v2, v3⟩⟩⟩ := c <;> intro hB hO
    · exact absurd hB hne
    · exact absurd hB hne
    · exact absurd hO hne2
    · obtain ⟨a1, a2⟩ := Proofs.Aabb.range_unique hO.1 (key (·.x) (fun _ _ _ => rfl) _ _ hB.1) (fun _ => Iff.rfl)
      obtain ⟨b1, b2⟩ := Proofs.Aabb.range_unique hO.2.1 (key (·.y) (fun _ _ _ => rfl) _ _ hB.2.1) (fun _ => Iff.rfl)
      obtain ⟨c1, c2⟩ := Proofs.Aabb.range_unique hO.2.2 (key (·.z) (fun _ _ _ => rfl) _ _ hB.2.2) (fun _ => Iff.rfl)
      simp only at a1 a2 b1 b2 c1 c2
      rw [a1, a2, b1, b2, c1, c2]

/-- **C95** a line string whose segments are not longer than `d` is discretized into itself (2D). -/
theorem C95_discretize_fine2 (pts : List (V2 K)) (d : K) (hd : 0 < d)
    (hs : ∀ (i : Nat) a b, pts[i]? = some a → pts[i + 1]? = some b → sqDist2 a b ≤ d ^ 2) :
    Collects (discNext ops2) (discNew ops2 pts d) pts := by
  have := ExactScalar.toIsStrictOrderedRing (K := K)
  obtain ⟨out', h', -⟩ := C26_always_ends ops2 pts d
  by_cases hne : pts = []
  · subst hne; exact collects_all ops2 [] d
  · have D' := C27_divided2 pts out' d hd hne h'
    have D := divided_self (count := fun a b n => IsStepCount (sqDist2 a b) d n) lerp2_zero hne
      (fun i a b ha hb => ⟨le_rfl, by simpa using hs i a b ha hb, .inl rfl⟩)
    have e := divided_unique D D' (fun a b n m hn hm => step_unique hd hn hm)
    exact e ▸ h'

/-- **C95** the same in space. -/
theorem C95_discretize_fine3 (pts : List (V3 K)) (d : K) (hd : 0 < d)
    (hs : ∀ (i : Nat) a b, pts[i]? = some a → pts[i + 1]? = some b → sqDist3 a b ≤ d ^ 2) :
    Collects (discNext ops3) (discNew ops3 pts d) pts := by
  have := ExactScalar.toIsStrictOrderedRing (K := K)
  obtain ⟨out', h', -⟩ := C26_always_ends ops3 pts d
  by_cases hne : pts = []
  · subst hne; exact collects_all ops3 [] d
  · have D' := C27_divided3 pts out' d hd hne h'
    have D := divided_self (count := fun a b n => IsStepCount (sqDist3 a b) d n) lerp3_zero hne
      (fun i a b ha hb => ⟨le_rfl, by simpa using hs i a b ha hb, .inl rfl⟩)
    have e := divided_unique D D' (fun a b n m hn hm => step_unique hd hn hm)
    exact e ▸ h'

/-- **C95** discretizing twice with the same distance is discretizing once. -/
theorem C95_discretize_idempotent (d : K) (hd : 0 < d) :
    (∀ pts out : List (V2 K), Collects (discNext ops2) (discNew ops2 pts d) out →
      Collects (discNext ops2) (discNew ops2 out d) out) ∧
    (∀ pts out : List (V3 K), Collects (discNext ops3) (discNew ops3 pts d) out →
      Collects (discNext ops3) (discNew ops3 out d) out) :=
  ⟨fun pts out h => C95_discretize_fine2 out d hd (fun i a b ha hb => C27_step_length2 pts out d hd h i a b ha hb),
    fun pts out h => C95_discretize_fine3 out d hd (fun i a b ha hb => C27_step_length3 pts out d hd h i a b ha hb)⟩

end exact

/-! ## C95, lengths over the real numbers -/

/-- **C95** discretizing keeps the length (2D and 3D). -/
theorem C95_discretize_length (d : ℝ) (hd : 0 < d) :
    (∀ pts out : List (V2 ℝ), Collects (discNext ops2) (discNew ops2 pts d) out →
      pathLength dist2 out = pathLength dist2 pts) ∧
    (∀ pts out : List (V3 ℝ), Collects (discNext ops3) (discNew ops3 pts d) out →
      pathLength dist3 out = pathLength dist3 pts) := by
  constructor
  · intro pts out h
    by_cases hne : pts = []
    · subst hne; rw [collects_unique h (collects_all ops2 [] d)]; rfl
    · exact divided_length lerp2_zero lerp2_one (fun _ _ _ h => h.1) dist2_lerp (C27_divided2 pts out d hd hne h)
  · intro pts out h
    by_cases hne : pts = []
    · subst hne; rw [collects_unique h (collects_all ops3 [] d)]; rfl
    · exact divided_length lerp3_zero lerp3_one (fun _ _ _ h => h.1) dist3_lerp (C27_divided3 pts out d hd hne h)

/-- **C95** the number of points of the discretization: at least `length/d + 1` and at most one more for every segment
but the first (2D and 3D). -/
theorem C95_discretize_size (d : ℝ) (hd : 0 < d) :
    (∀ pts out : List (V2 ℝ), pts ≠ [] → Collects (discNext ops2) (discNew ops2 pts d) out →
      pathLength dist2 pts / d + 1 ≤ out.length ∧ (out.length : ℝ) ≤ pathLength dist2 pts / d + pts.length) ∧
    (∀ pts out : List (V3 ℝ), pts ≠ [] → Collects (discNext ops3) (discNew ops3 pts d) out →
      pathLength dist3 pts / d + 1 ≤ out.length ∧ (out.length : ℝ) ≤ pathLength dist3 pts / d + pts.length) := by
  have fin : ∀ L n m : ℝ, L ≤ (n - 1) * d ∧ (n - 1) * d ≤ L + (m - 1) * d → L / d + 1 ≤ n ∧ n ≤ L / d + m := by
    rintro L n m ⟨h1, h2⟩
    have e : L / d * d = L := div_mul_cancel₀ _ hd.ne'
    constructor
    · have : L / d ≤ n - 1 := (div_le_iff₀ hd).2 h1
      linarith
    · have : n - m ≤ L / d := (le_div_iff₀ hd).2 (by nlinarith)
      linarith
  constructor
  · intro pts out hne h
    exact fin _ _ _ (divided_size d (fun a b n hn => step_bounds hd hn) (C27_divided2 pts out d hd hne h))
  · intro pts out hne h
    exact fin _ _ _ (divided_size d (fun a b n hn => step_bounds hd hn) (C27_divided3 pts out d hd hne h))

/-- **C95** `simplify_rdp` never makes a line longer, and not shorter than the distance of its ends (2D). -/
theorem C95_rdp2_length (points out : List (V2 ℝ)) (d : ℝ) (h : simplifyRdp2 points d = .ok out) :
    pathLength dist2 out ≤ pathLength dist2 points ∧
    ∀ a b, points.head? = some a → points.getLast? = some b → dist2 a b ≤ pathLength dist2 out := by
  obtain ⟨out', h', hs, h1, h2, -⟩ := Props.Rdp.C07_rdp2_keeps_ends_and_order points d
  rw [h] at h'; cases h'
  exact ⟨path_sublist dist2_triangle dist2_nonneg hs, fun a b ha hb => ends_le (by simp [dist2, sqDist2]) dist2_triangle dist2_nonneg
    (h1.trans ha) (h2.trans hb)⟩

/-- **C95** the same in space. -/
theorem C95_rdp3_length (points out : List (V3 ℝ)) (d : ℝ) (h : simplifyRdp3 points d = .ok out) :
    pathLength dist3 out ≤ pathLength dist3 points ∧
    ∀ a b, points.head? = some a → points.getLast? = some b → dist3 a b ≤ pathLength dist3 out := by
  obtain ⟨out', h', hs, h1, h2, -⟩ := Props.Rdp.C07_rdp3_keeps_ends_and_order points d
  rw [h] at h'; cases h'
  exact ⟨path_sublist dist3_triangle dist3_nonneg hs, fun a b ha hb => ends_le (by simp [dist3, sqDist3]) dist3_triangle dist3_nonneg
    (h1.trans ha) (h2.trans hb)⟩

/-- **C95** `simplify_vw` never makes a line longer (2D and 3D, any number of points to delete, any order of equal areas). -/
theorem C95_vw_length (pick : Nat → List (ℝ × Nat) → Nat) (hpick : PopsLeast (fun _ => True) pick) (k fuel : Nat) :
    (∀ line : List (V2 ℝ), 4 * line.length < fuel → ∃ out, simplifyVw2 pick fuel line k = .ok out ∧
      pathLength dist2 out ≤ pathLength dist2 line) ∧
    (∀ line : List (V3 ℝ), 4 * line.length < fuel → ∃ out, simplifyVw3 pick fuel line k = .ok out ∧
      pathLength dist3 out ≤ pathLength dist3 line) := by
  constructor
  · intro line hf
    obtain ⟨out, h, hs, -⟩ := C12_vw2_subsequence exact_total pick hpick line k fuel (fun _ _ _ _ _ _ => trivial) hf
    exact ⟨out, h, path_sublist dist2_triangle dist2_nonneg hs⟩
  · intro line hf
    rcases Nat.lt_or_ge line.length 3 with hl | hl
    · exact ⟨line, C15_vw3_short pick line k fuel hl, le_rfl⟩
    · obtain ⟨out, h, -, hs, -⟩ := C15_vw3 exact_total pick hpick line hl k fuel (fun _ _ _ _ _ _ => trivial) hf
      exact ⟨out, h, path_sublist dist3_triangle dist3_nonneg (hs.trans (List.dropLast_sublist _))⟩

/-! ## C95, boxes of simplified lines -/
section simplified
variable {K : Type} [Scalar K] [LinearOrder K] [OrderedScalar K]

/-- **C95** the bounding box of a simplified line is inside of the bounding box of the line (`simplify_rdp`). -/
theorem C95_rdp_box (d : K) :
    (∀ points out : List (V2 K), points ≠ [] → simplifyRdp2 points d = .ok out →
      (Aabb2.withPoints points).containsAabb (Aabb2.withPoints out) = true) ∧
    (∀ points out : List (V3 K), points ≠ [] → simplifyRdp3 points d = .ok out →
      (Aabb3.withPoints points).containsAabb (Aabb3.withPoints out) = true) := by
  constructor
  · intro points out hne h
    obtain ⟨out', h', hs, h1, h2, -⟩ := Props.Rdp.C07_rdp2_keeps_ends_and_order points d
    rw [h] at h'; cases h'
    exact box2_sub (fun p hp => hs.subset hp) (by rintro rfl; cases points with
      | nil => exact hne rfl
      | cons => simp at h1)
  · intro points out hne h
    obtain ⟨out', h', hs, h1, h2, -⟩ := Props.Rdp.C07_rdp3_keeps_ends_and_order points d
    rw [h] at h'; cases h'
    exact box3_sub (fun p hp => hs.subset hp) (by rintro rfl; cases points with
      | nil => exact hne rfl
      | cons => simp at h1)

/-- **C95** the same for `simplify_vw` (if the areas can be compared). -/
theorem C95_vw_box {S : K → Prop} (hS : TotalOn S) (pick : Nat → List (K × Nat) → Nat) (hpick : PopsLeast S pick) (k fuel : Nat) :
    (∀ line : List (V2 K), line ≠ [] → (∀ a ∈ line, ∀ b ∈ line, ∀ c ∈ line, S (triangleArea2 a b c)) → 4 * line.length < fuel →
      ∃ out, simplifyVw2 pick fuel line k = .ok out ∧
        (Aabb2.withPoints line).containsAabb (Aabb2.withPoints out) = true) ∧
    (∀ line : List (V3 K), line ≠ [] → (∀ a ∈ line, ∀ b ∈ line, ∀ c ∈ line, S (triangleArea3 a b c)) → 4 * line.length < fuel →
      ∃ out, simplifyVw3 pick fuel line k = .ok out ∧
        (Aabb3.withPoints line).containsAabb (Aabb3.withPoints out) = true) := by
  constructor
  · intro line hne hgood hf
    obtain ⟨out, h, hs, h1⟩ := C12_vw2_subsequence hS pick hpick line k fuel hgood hf
    exact ⟨out, h, box2_sub (fun p hp => hs.subset hp) (by rintro rfl; cases line with
      | nil => exact hne rfl
      | cons => simp at h1)⟩
  · intro line hne hgood hf
    rcases Nat.lt_or_ge line.length 3 with hl | hl
    · exact ⟨line, C15_vw3_short pick line k fuel hl, box3_sub (fun p hp => hp) hne⟩
    · obtain ⟨out, h, -, hs, h1⟩ := C15_vw3 hS pick hpick line hl k fuel hgood hf
      exact ⟨out, h, box3_sub (fun p hp => (hs.trans (List.dropLast_sublist _)).subset hp) (by rintro rfl; cases line with
        | nil => exact hne rfl
        | cons => simp at h1)⟩

end simplified

/-- the hypotheses are met: every real line has a discretization (an "L" of length 7 with step 2), a simplification … -/
example : ∃ out, Collects (discNext ops2) (discNew ops2 ([⟨0, 0⟩, ⟨4, 0⟩, ⟨4, 3⟩] : List (V2 ℝ)) 2) out ∧
    pathLength dist2 out = 7 ∧ 5 ≤ out.length ∧ out.length ≤ 6 := by
  obtain ⟨out, h, -⟩ := C26_always_ends ops2 ([⟨0, 0⟩, ⟨4, 0⟩, ⟨4, 3⟩] : List (V2 ℝ)) 2
  have hl : pathLength dist2 ([⟨0, 0⟩, ⟨4, 0⟩, ⟨4, 3⟩] : List (V2 ℝ)) = 7 := by
    simp only [pathLength, dist2, sqDist2]
    rw [show ((0 : ℝ) - 4) ^ 2 + (0 - 0) ^ 2 = 4 ^ 2 by norm_num, show ((4 : ℝ) - 4) ^ 2 + (0 - 3) ^ 2 = 3 ^ 2 by norm_num,
      Real.sqrt_sq (by norm_num), Real.sqrt_sq (by norm_num)]
    norm_num
  obtain ⟨h1, h2⟩ := (C95_discretize_size 2 (by norm_num)).1 _ out (by simp) h
  rw [hl] at h1 h2
  refine ⟨out, h, ((C95_discretize_length 2 (by norm_num)).1 _ out h).trans hl, ?_, ?_⟩
  · have : (4 : ℝ) < out.length := by linarith
    exact_mod_cast this
  · have : (out.length : ℝ) < 7 := by norm_num at h2; linarith
    have : out.length < 7 := by exact_mod_cast this
    omega

/-- … and the queue of `simplify_vw` exists -/
example (line : List (V2 ℝ)) (k : Nat) : ∃ out,
    simplifyVw2 (fun _ heap => leastPos heap) (4 * line.length + 1) line k = .ok out ∧ pathLength dist2 out ≤ pathLength dist2 line :=
  (C95_vw_length _ (leastPos_pops exact_total) k _).1 line (by omega)

end Verif.Props.Length
