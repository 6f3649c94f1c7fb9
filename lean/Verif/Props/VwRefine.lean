import Verif.Props.RdpRefine
import Verif.Props.Vw
/-!
# C115: `simplify_vw` removes inserted points before corners
-/
set_option linter.unusedSectionVars false
namespace Verif.Props.VwRefine
open Verif Verif.Model Verif.Spec Verif.Props Verif.Props.Discretize Verif.Props.Rdp

section spec
variable {K : Type} [Field K] [LinearOrder K] {P : Type}

/-- `l` lists points of the way from the point at parameter `t` of the segment `A B` to the end of the line string `A :: B :: cs`, in the
order of the way: the corners `B :: cs` and points inside of the segments. -/
inductive Onward (lerp : P → P → K → P) : P → P → K → List P → List P → Prop
  | last (A B : P) (t : K) (h : t < 1) : Onward lerp A B t [B] []
  | corner (A B C : P) (t : K) (l cs : List P) (h : t < 1) (n : Onward lerp B C 0 l cs) : Onward lerp A B t (B :: l) (C :: cs)
  | inside (A B : P) (t u : K) (l cs : List P) (h1 : t < u) (h2 : u < 1) (n : Onward lerp A B u l cs) :
      Onward lerp A B t (lerp A B u :: l) cs

/-- `fine` is the line string `coarse` with points inserted into its segments, in the order of the way -/
def Inserted (lerp : P → P → K → P) (fine coarse : List P) : Prop :=
  ∃ (A B : P) (l cs : List P), fine = A :: l ∧ coarse = A :: B :: cs ∧ Onward lerp A B 0 l cs

/-- sixteen times the squared area of a triangle in space, from its sides by Heron's formula -/
def heron (a b c : V3 K) : K := 4 * sqDist3 a b * sqDist3 b c - (sqDist3 a b + sqDist3 b c - sqDist3 a c) ^ 2

/-- the line string turns at every corner: no three consecutive points have a triangle without area -/
def Turns {A : Type} (area : P → P → P → A) (zero : A) (pl : List P) : Prop :=
  ∀ (i : Nat) (a b c : P), getElem? pl i = some a → getElem? pl (i + 1) = some b → getElem? pl (i + 2) = some c → area a b c ≠ zero
end spec

section generic
variable {K : Type} [Field K] [LinearOrder K] [IsStrictOrderedRing K] {P : Type} {lerp : P → P → K → P} {area : P → P → P → K}

theorem Onward.lt {A B : P} {t : K} {l cs : List P} (h : Onward lerp A B t l cs) : t < 1 := by
  induction h with
  | last A B t h => exact h
  | corner A B C t l cs h n => exact h
  | inside A B t u l cs h1 h2 n => exact h1.trans h2

theorem Onward.head (h1 : ∀ a b, lerp a b 1 = b) {A B : P} {t : K} {l cs : List P} (h : Onward lerp A B t l cs) :
    ∃ (s : K) (r : List P), t < s ∧ s ≤ 1 ∧ l = lerp A B s :: r := by
  induction h with
  | last A B t h => exact ⟨1, [], h, le_refl _, by rw [h1]⟩
  | corner A B C t l cs h n => exact ⟨1, l, h, le_refl _, by rw [h1]⟩
  | inside A B t u l cs h h2 n => exact ⟨u, l, h, h2.le, rfl⟩

theorem Onward.earlier {A B : P} {t t' : K} {l cs : List P} (h : Onward lerp A B t l cs) (ht : t' ≤ t) : Onward lerp A B t' l cs := by
  induction h with
  | last A B t h => exact .last _ _ _ (ht.trans_lt h)
  | corner A B C t l cs h n => exact .corner _ _ _ _ _ _ (ht.trans_lt h) n
  | inside A B t u l cs h h2 n => exact .inside _ _ _ _ _ _ (ht.trans_lt h) h2 n

theorem Onward.length {A B : P} {t : K} {l cs : List P} (h : Onward lerp A B t l cs) :
    cs.length + 1 ≤ l.length ∧ (l.length = cs.length + 1 → l = B :: cs) := by
  induction h with
  | last => simp
  | corner A B C t l cs h n ih =>
    refine ⟨by simp only [List.length_cons]; omega, fun e => ?_⟩
    rw [ih.2 (by simpa using e)]
  | inside A B t u l cs h1 h2 n ih =>
    refine ⟨by simp only [List.length_cons]; omega, fun e => ?_⟩
    simp only [List.length_cons] at e
    omega

/-- as long as there are inserted points there is a triangle without area -/
theorem Onward.flat (l0 : ∀ a b, lerp a b 0 = a) (l1 : ∀ a b, lerp a b 1 = b)
    (flat : ∀ a b t u s, area (lerp a b t) (lerp a b u) (lerp a b s) = 0) {A B : P} {t : K} {l cs : List P}
    (h : Onward lerp A B t l cs) (hl : cs.length + 1 < l.length) :
    ∃ (pre : List P) (a b c : P) (post : List P), lerp A B t :: l = pre ++ a :: b :: c :: post ∧ area a b c = 0 := by
  induction h with
  | last => simp at hl
  | corner A B C t l cs h n ih =>
    obtain ⟨pre, a, b, c, post, e, h0⟩ := ih (by simpa using hl)
    rw [l0] at e
    exact ⟨lerp A B t :: pre, a, b, c, post, by rw [e]; rfl, h0⟩
  | inside A B t u l cs h1 h2 n ih =>
    obtain ⟨s, r, -, -, e⟩ := n.head l1
    exact ⟨[], lerp A B t, lerp A B u, lerp A B s, r, by rw [e]; rfl, flat _ _ _ _ _⟩

/-- a point between two others is an inserted one, and can be removed, or it is a corner -/
theorem Onward.remove (l0 : ∀ a b, lerp a b 0 = a) (l1 : ∀ a b, lerp a b 1 = b)
    (turn : ∀ a b c t s, t < 1 → 0 < s → area a b c ≠ 0 → area (lerp a b t) b (lerp b c s) ≠ 0) {A B : P} {t : K} {l cs : List P}
    (h : Onward lerp A B t l cs) (ht : Turns area 0 (A :: B :: cs)) {pre : List P} {a b c : P} {post : List P}
    (e : lerp A B t :: l = pre ++ a :: b :: c :: post) :
    (∃ l', pre ++ a :: c :: post = lerp A B t :: l' ∧ Onward lerp A B t l' cs) ∨ area a b c ≠ 0 := by
  induction h generalizing pre with
  | last A B t h =>
    have := congrArg List.length e
    simp at this
    omega
  | corner A B C t l cs h n ih =>
    match pre with
    | [] =>
      right
      simp only [List.nil_append, List.cons.injEq] at e
      obtain ⟨rfl, rfl, e⟩ := e
      obtain ⟨s, r, s0, -, e'⟩ := n.head l1
      rw [e', List.cons.injEq] at e
      obtain ⟨rfl, -⟩ := e
      exact turn _ _ _ _ _ h s0 (ht 0 A B C rfl rfl rfl)
    | x :: pre' =>
      simp only [List.cons_append, List.cons.injEq] at e
      obtain ⟨rfl, e⟩ := e
      rcases ih (fun i a b c ha hb hc => ht (i + 1) a b c ha hb hc) (pre := pre') (by rw [l0]; exact e) with ⟨l', e', n'⟩ | h0
      · left
        rw [l0] at e'
        exact ⟨B :: l', by rw [List.cons_append, e'], .corner _ _ _ _ _ _ h n'⟩
      · exact Or.inr h0
  | inside A B t u l cs h1 h2 n ih =>
    match pre with
    | [] =>
      left
      simp only [List.nil_append, List.cons.injEq] at e
      obtain ⟨rfl, rfl, e⟩ := e
      exact ⟨l, by rw [e]; rfl, n.earlier h1.le⟩
    | x :: pre' =>
      simp only [List.cons_append, List.cons.injEq] at e
      obtain ⟨rfl, e⟩ := e
      rcases ih ht (pre := pre') e with ⟨l', e', n'⟩ | h0
      · left
        exact ⟨lerp A B u :: l', by rw [List.cons_append, e'], .inside _ _ _ _ _ _ h1 h2 n'⟩
      · exact Or.inr h0

theorem greedy_keeps_corners (l0 : ∀ a b, lerp a b 0 = a) (l1 : ∀ a b, lerp a b 1 = b)
    (flat : ∀ a b t u s, area (lerp a b t) (lerp a b u) (lerp a b s) = 0)
    (turn : ∀ a b c t s, t < 1 → 0 < s → area a b c ≠ 0 → area (lerp a b t) b (lerp b c s) ≠ 0)
    (pos : ∀ a b c, 0 ≤ area a b c) {le : K → K → Prop} (hle : ∀ x, le x 0 → x ≤ 0) {m : Nat} {fine out coarse : List P}
    (g : GreedyDeletes area le m fine out) (h : Inserted lerp fine coarse) (ht : Turns area 0 coarse)
    (hm : m + coarse.length ≤ fine.length) : Inserted lerp out coarse := by
  induction g with
  | done l => exact h
  | step m pre a b c post out hmin g ih =>
    obtain ⟨A, B, l, cs, e1, rfl, ho⟩ := h
    rw [e1] at hm
    simp only [List.length_cons] at hm
    obtain ⟨pre', a', b', c', post', e2, h0⟩ := ho.flat l0 l1 flat (by omega)
    rw [l0, ← e1] at e2
    have hz : area a b c = 0 := le_antisymm (hle _ (h0 ▸ hmin _ _ _ _ _ e2)) (pos _ _ _)
    rcases ho.remove l0 l1 turn ht (pre := pre) (a := a) (b := b) (c := c) (post := post) (by rw [l0, ← e1]) with ⟨l', e', n'⟩ | hn
    · rw [l0] at e'
      refine ih ⟨A, B, l', cs, e', rfl, n'⟩ ?_
      have q1 := congrArg List.length e1
      have q2 := congrArg List.length e'
      simp only [List.length_append, List.length_cons] at q1 q2 ⊢
      omega
    · exact absurd hz hn

theorem inserted_none {fine coarse : List P} (h : Inserted lerp fine coarse) (e : fine.length = coarse.length) : fine = coarse := by
  obtain ⟨A, B, l, cs, rfl, rfl, h⟩ := h
  rw [h.length.2 (by simpa using e)]

theorem inserted_ends {fine coarse : List P} (h : Inserted lerp fine coarse) :
    fine.head? = coarse.head? ∧ fine.getLast? = coarse.getLast? := by
  obtain ⟨A, B, l, cs, rfl, rfl, h⟩ := h
  refine ⟨rfl, ?_⟩
  have hne : ∀ {A B : P} {t : K} {l cs : List P}, Onward lerp A B t l cs → ∃ x, l.getLast? = some x ∧ (B :: cs).getLast? = some x := by
    intro A B t l cs h
    induction h with
    | last A B t => exact ⟨B, rfl, rfl⟩
    | corner A B C t l cs _ _ ih =>
      obtain ⟨x, h1, h2⟩ := ih
      exact ⟨x, by rw [List.getLast?_cons, h1]; rfl, by rw [List.getLast?_cons, h2]; rfl⟩
    | inside A B t u l cs _ _ _ ih =>
      obtain ⟨x, h1, h2⟩ := ih
      exact ⟨x, by rw [List.getLast?_cons, h1]; rfl, h2⟩
  obtain ⟨x, h1, h2⟩ := hne h
  rw [List.getLast?_cons, h1, List.getLast?_cons, h2]
end generic

section exact
variable {K : Type} [Scalar K] [Field K] [LinearOrder K] [ExactScalar K]

theorem flat2 (a b : V2 K) (t u s : K) : triangleArea2 (lerp2 a b t) (lerp2 a b u) (lerp2 a b s) = 0 := by
  rw [C14_area2]; simp only [orient, lerp2]; ring
theorem flat3 (a b : V3 K) (t u s : K) : triangleArea3 (lerp3 a b t) (lerp3 a b u) (lerp3 a b s) = 0 := by
  rw [C14_area3]; simp only [lerp3]; ring
theorem turn2 (a b c : V2 K) (t s : K) (ht : t < 1) (hs : 0 < s) (h : triangleArea2 a b c ≠ 0) :
    triangleArea2 (lerp2 a b t) b (lerp2 b c s) ≠ 0 := by
  have := ExactScalar.toIsStrictOrderedRing (K := K)
  have e : triangleArea2 (lerp2 a b t) b (lerp2 b c s) = ((1 - t) * s) ^ 2 * triangleArea2 a b c := by
    rw [C14_area2, C14_area2]; simp only [orient, lerp2]; ring
  rw [e]
  exact mul_ne_zero (pow_ne_zero _ (mul_ne_zero (sub_pos.2 ht).ne' hs.ne')) h
theorem turn3 (a b c : V3 K) (t s : K) (ht : t < 1) (hs : 0 < s) (h : triangleArea3 a b c ≠ 0) :
    triangleArea3 (lerp3 a b t) b (lerp3 b c s) ≠ 0 := by
  have := ExactScalar.toIsStrictOrderedRing (K := K)
  have e : triangleArea3 (lerp3 a b t) b (lerp3 b c s) = ((1 - t) * s) ^ 2 * triangleArea3 a b c := by
    rw [C14_area3, C14_area3]; simp only [lerp3]; ring
  rw [e]
  exact mul_ne_zero (pow_ne_zero _ (mul_ne_zero (sub_pos.2 ht).ne' hs.ne')) h
theorem pos2 (a b c : V2 K) : 0 ≤ triangleArea2 a b c := by
  have := ExactScalar.toIsStrictOrderedRing (K := K)
  rw [C14_area2]; positivity
theorem pos3 (a b c : V3 K) : 0 ≤ triangleArea3 a b c := by
  have := ExactScalar.toIsStrictOrderedRing (K := K)
  unfold triangleArea3; simp only [exact_simp]; nlinarith [mul_self_nonneg ((a.y - b.y) * (c.z - b.z) - (c.y - b.y) * (a.z - b.z)),
    mul_self_nonneg ((a.x - b.x) * (c.z - b.z) - (c.x - b.x) * (a.z - b.z)),
    mul_self_nonneg ((a.x - b.x) * (c.y - b.y) - (c.x - b.x) * (a.y - b.y))]
theorem orient_area2 (a b c : V2 K) : triangleArea2 a b c = orient a b c ^ 2 := by
  have := ExactScalar.toIsStrictOrderedRing (K := K)
  rw [C14_area2]; ring
theorem heron_area3 (a b c : V3 K) : heron a b c = 4 * triangleArea3 a b c := by
  rw [C14_area3]; unfold heron sqDist3; ring
theorem Turns.area2 {pl : List (V2 K)} (h : Turns orient 0 pl) : Turns triangleArea2 0 pl := fun i a b c ha hb hc e =>
  h i a b c ha hb hc (by rw [orient_area2] at e; exact pow_eq_zero_iff (two_ne_zero) |>.1 e)
theorem Turns.area3 {pl : List (V3 K)} (h : Turns heron 0 pl) : Turns triangleArea3 0 pl := fun i a b c ha hb hc e =>
  h i a b c ha hb hc (by rw [heron_area3, e, mul_zero])
theorem lerp2_one (a b : V2 K) : lerp2 a b 1 = b := by unfold lerp2; simp
theorem lerp3_one (a b : V3 K) : lerp3 a b 1 = b := by unfold lerp3; simp

/-- **C115** 2D, open line strings: if not more points are deleted than were inserted into the segments, no corner is deleted. -/
theorem C115_vw2_inserted_points_go_first (pick : Nat → List (K × Nat) → Nat) (hpick : PopsLeast (fun _ => True) pick)
    (fine coarse : List (V2 K)) (h : Inserted lerp2 fine coarse) (ht : Turns orient 0 coarse)
    (hopen : coarse.head? ≠ coarse.getLast?) (k fuel : Nat) (hk : k + coarse.length ≤ fine.length) (h4 : k + 4 ≤ fine.length)
    (hf : 4 * fine.length < fuel) :
    ∃ out, simplifyVw2 pick fuel fine k = .ok out ∧ out.length = fine.length - k ∧ Inserted lerp2 out coarse := by
  have := ExactScalar.toIsStrictOrderedRing (K := K)
  have ho : ∀ a b, fine.head? = some a → fine.getLast? = some b → V2.beq a b = false := by
    intro a b ha hb
    obtain ⟨e1, e2⟩ := inserted_ends h
    rw [← e1, ← e2, ha, hb, Ne, Option.some_inj] at hopen
    rw [← Bool.not_eq_true]
    intro hc
    apply hopen
    unfold V2.beq at hc
    rw [Bool.and_eq_true, OrderedScalar.beq_iff, OrderedScalar.beq_iff] at hc
    cases a; cases b; simp_all
  obtain ⟨out, r1, -, r2⟩ := C13_vw2_open_length exact_total pick hpick fine (by omega) k fuel ho (by simp) hf
  obtain ⟨out', r3, r4⟩ := C14_vw2_open_greedy exact_total pick hpick fine (by omega) k fuel ho (by simp) hf
  rw [r1, Except.ok.injEq] at r3
  subst r3
  have hlen := r2 (by omega)
  rw [Nat.min_eq_left (by omega)] at hlen
  refine ⟨out, r1, by omega, greedy_keeps_corners (fun a b => by unfold lerp2; simp) lerp2_one flat2 turn2 pos2 (fun x => (OrderedScalar.le_iff x 0).1) r4 h ht.area2 ?_⟩
  rw [hlen]
  omega

/-- **C115** 2D, open line strings of at least four points: deleting as many points as were inserted gives back the line string. -/
theorem C115_vw2_undoes_insertion (pick : Nat → List (K × Nat) → Nat) (hpick : PopsLeast (fun _ => True) pick)
    (fine coarse : List (V2 K)) (h : Inserted lerp2 fine coarse) (ht : Turns orient 0 coarse)
    (hopen : coarse.head? ≠ coarse.getLast?) (h4 : 4 ≤ coarse.length) (fuel : Nat) (hf : 4 * fine.length < fuel) :
    simplifyVw2 pick fuel fine (fine.length - coarse.length) = .ok coarse := by
  have := ExactScalar.toIsStrictOrderedRing (K := K)
  have hle : coarse.length ≤ fine.length := by
    obtain ⟨A, B, l, cs, rfl, rfl, ho⟩ := h
    have := ho.length.1
    simp only [List.length_cons]; omega
  obtain ⟨out, r1, r2, r3⟩ := C115_vw2_inserted_points_go_first pick hpick fine coarse h ht hopen (fine.length - coarse.length) fuel
    (by omega) (by omega) hf
  rw [r1, inserted_none r3 (by omega)]

/-- **C115** 3D, all line strings: if not more points are deleted than were inserted, no corner is deleted; what is returned lacks the
last point. -/
theorem C115_vw3_inserted_points_go_first (pick : Nat → List (K × Nat) → Nat) (hpick : PopsLeast (fun _ => True) pick)
    (fine coarse : List (V3 K)) (h : Inserted lerp3 fine coarse) (ht : Turns heron 0 coarse)
    (h3 : 3 ≤ fine.length) (k fuel : Nat) (hk : k + coarse.length ≤ fine.length) (hf : 4 * fine.length < fuel) :
    ∃ (out : List (V3 K)) (last : V3 K), simplifyVw3 pick fuel fine k = .ok out ∧ fine.getLast? = some last ∧
      Inserted lerp3 (out ++ [last]) coarse ∧ out.length + 1 = fine.length - k := by
  have := ExactScalar.toIsStrictOrderedRing (K := K)
  have hc : 2 ≤ coarse.length := by
    obtain ⟨A, B, l, cs, rfl, rfl, ho⟩ := h
    simp
  obtain ⟨out, last, r1, r2, r3⟩ := C14_vw3_greedy exact_total pick hpick fine h3 k fuel (by simp) hf
  obtain ⟨out', r4, r5, -⟩ := C15_vw3 exact_total pick hpick fine h3 k fuel (by simp) hf
  rw [r1, Except.ok.injEq] at r4
  subst r4
  rw [show min k (fine.length - 2) = k by omega] at r3 r5
  refine ⟨out, last, r1, r2, greedy_keeps_corners (fun a b => by unfold lerp3; simp) lerp3_one flat3 turn3 pos3 (fun x => (OrderedScalar.le_iff x 0).1) r3 h ht.area3
    (by omega), by omega⟩

/-- **C115** 3D: deleting as many points as were inserted gives back the line string without its last point. -/
theorem C115_vw3_undoes_insertion (pick : Nat → List (K × Nat) → Nat) (hpick : PopsLeast (fun _ => True) pick)
    (fine coarse : List (V3 K)) (h : Inserted lerp3 fine coarse) (ht : Turns heron 0 coarse)
    (h3 : 3 ≤ fine.length) (fuel : Nat) (hf : 4 * fine.length < fuel) :
    simplifyVw3 pick fuel fine (fine.length - coarse.length) = .ok coarse.dropLast := by
  have := ExactScalar.toIsStrictOrderedRing (K := K)
  have hle : coarse.length ≤ fine.length := by
    obtain ⟨A, B, l, cs, rfl, rfl, ho⟩ := h
    have := ho.length.1
    simp only [List.length_cons]; omega
  obtain ⟨out, last, r1, -, r2, r3⟩ := C115_vw3_inserted_points_go_first pick hpick fine coarse h ht h3 (fine.length - coarse.length) fuel
    (by omega) hf
  rw [r1, ← inserted_none r2 (by rw [List.length_append, List.length_singleton]; omega), List.dropLast_concat]

theorem onward_map {P : Type} {lerp : P → P → K → P} {B' C : P} {cs l : List P} {A : P} (ts : List K) (t : K) (ht : t < 1)
    (hs : (t :: ts).Pairwise (· < ·)) (h1 : ∀ u ∈ ts, u < 1) (n : Onward lerp B' C 0 l cs) :
    Onward lerp A B' t (ts.map (lerp A B') ++ B' :: l) (C :: cs) := by
  induction ts generalizing t with
  | nil => exact .corner _ _ _ _ _ _ ht n
  | cons u ts ih =>
    have hs' := List.pairwise_cons.1 hs
    exact .inside _ _ _ _ _ _ (hs'.1 u (by simp)) (h1 u (by simp)) (ih u (h1 u (by simp)) hs'.2 (fun v hv => h1 v (by simp [hv])))

theorem onward_map_last {P : Type} {lerp : P → P → K → P} {A B' : P} (ts : List K) (t : K) (ht : t < 1)
    (hs : (t :: ts).Pairwise (· < ·)) (h1 : ∀ u ∈ ts, u < 1) :
    Onward lerp A B' t (ts.map (lerp A B') ++ [B']) [] := by
  induction ts generalizing t with
  | nil => exact .last _ _ _ ht
  | cons u ts ih =>
    have hs' := List.pairwise_cons.1 hs
    exact .inside _ _ _ _ _ _ (hs'.1 u (by simp)) (h1 u (by simp)) (ih u (h1 u (by simp)) hs'.2 (fun v hv => h1 v (by simp [hv])))

theorem divided_inserted {P : Type} {lerp : P → P → K → P} {count : P → P → Nat → Prop} (h0 : ∀ a b, lerp a b 0 = a)
    (hc : ∀ a b n, count a b n → 1 ≤ n) {pts out : List P} (h : Divided lerp count pts out) (h2 : 2 ≤ pts.length) :
    Inserted lerp out pts := by
  have := ExactScalar.toIsStrictOrderedRing (K := K)
  induction h with
  | last p => simp at h2
  | seg a b rest out n hn h ih =>
    obtain ⟨k, rfl⟩ : ∃ k, n = k + 1 := ⟨n - 1, by have := hc a b n hn; omega⟩
    have pos : (0 : K) < ((k + 1 : Nat) : K) := by exact_mod_cast Nat.succ_pos k
    obtain ⟨ts, hts⟩ : ∃ ts : List K, ts = (List.range k).map (fun i : Nat => ((i + 1 : Nat) : K) / ((k + 1 : Nat) : K)) := ⟨_, rfl⟩
    have e : (List.range (k + 1)).map (fun i : Nat => lerp a b ((i : K) / ((k + 1 : Nat) : K))) = a :: ts.map (lerp a b) := by
      rw [List.range_succ_eq_map, hts]
      simp only [List.map_cons, Nat.cast_zero, zero_div, h0, List.map_map]
      rfl
    have hlt : ∀ u ∈ ts, 0 < u ∧ u < 1 := by
      intro u hu
      rw [hts] at hu
      obtain ⟨i, hi, rfl⟩ := List.mem_map.1 hu
      have hi := List.mem_range.1 hi
      exact ⟨div_pos (by exact_mod_cast Nat.succ_pos i) pos, (div_lt_one pos).2 (by exact_mod_cast Nat.succ_lt_succ hi)⟩
    have hp : ((0 : K) :: ts).Pairwise (· < ·) := by
      refine List.pairwise_cons.2 ⟨fun u hu => (hlt u hu).1, ?_⟩
      rw [hts, List.pairwise_map]
      refine List.Pairwise.imp ?_ List.pairwise_lt_range
      intro i j hij
      exact (div_lt_div_iff_of_pos_right pos).2 (by exact_mod_cast Nat.succ_lt_succ hij)
    rw [e, List.cons_append]
    match rest, h with
    | [], h =>
      cases h
      exact ⟨a, b, _, [], rfl, rfl, onward_map_last ts 0 zero_lt_one hp (fun u hu => (hlt u hu).2)⟩
    | C :: cs, h =>
      obtain ⟨A', B', l, cs', e1, e2, n'⟩ := ih (by simp)
      cases e2
      rw [e1]
      exact ⟨a, _, _, _, rfl, rfl, onward_map ts 0 zero_lt_one hp (fun u hu => (hlt u hu).2) n'⟩

/-- **C115** 2D: `simplify_vw` undoes `discretize` on open line strings of at least four points that turn at every corner. -/
theorem C115_vw2_undoes_discretize [ExactSqrt K] (pick : Nat → List (K × Nat) → Nat) (hpick : PopsLeast (fun _ => True) pick)
    (pts out : List (V2 K)) (step : K) (hstep : 0 < step) (h : Collects (discNext ops2) (discNew ops2 pts step) out)
    (ht : Turns orient 0 pts) (hopen : pts.head? ≠ pts.getLast?) (h4 : 4 ≤ pts.length) (fuel : Nat) (hf : 4 * out.length < fuel) :
    simplifyVw2 pick fuel out (out.length - pts.length) = .ok pts :=
  C115_vw2_undoes_insertion pick hpick out pts
    (divided_inserted lerp2_zero (fun a b n hn => hn.1) (C27_divided2 pts out step hstep (by rintro rfl; simp at h4) h) (by omega))
    ht hopen h4 fuel hf

/-- **C115** 3D: the same, without the last point. -/
theorem C115_vw3_undoes_discretize [ExactSqrt K] (pick : Nat → List (K × Nat) → Nat) (hpick : PopsLeast (fun _ => True) pick)
    (pts out : List (V3 K)) (step : K) (hstep : 0 < step) (h : Collects (discNext ops3) (discNew ops3 pts step) out)
    (ht : Turns heron 0 pts) (h3 : 3 ≤ pts.length) (fuel : Nat) (hf : 4 * out.length < fuel) :
    simplifyVw3 pick fuel out (out.length - pts.length) = .ok pts.dropLast := by
  have := ExactScalar.toIsStrictOrderedRing (K := K)
  have hi := divided_inserted lerp3_zero (fun a b n hn => hn.1) (C27_divided3 pts out step hstep (by rintro rfl; simp at h3) h) (by omega)
  refine C115_vw3_undoes_insertion pick hpick out pts hi ht ?_ fuel hf
  obtain ⟨A, B, l, cs, rfl, rfl, ho⟩ := hi
  have := ho.length.1
  simp only [List.length_cons] at h3 ⊢; omega
end exact

/-- C115, what does *not* hold: of a closed line string in the plane the last point can be deleted before an inserted point, here (4,4),
since the first point is appended once more, and the triangle at the last point has no area either. -/
theorem C115_closed_line_strings_are_opened :
    simplifyVw2 (fun _ heap => leastPos heap) 100 [(⟨0, 0⟩ : V2 ℚ), ⟨4, 0⟩, ⟨4, 4⟩, ⟨4, 5⟩, ⟨0, 4⟩, ⟨0, 0⟩] 1 =
      .ok [⟨0, 0⟩, ⟨4, 0⟩, ⟨4, 4⟩, ⟨4, 5⟩, ⟨0, 4⟩] := by decide +kernel

end Verif.Props.VwRefine
