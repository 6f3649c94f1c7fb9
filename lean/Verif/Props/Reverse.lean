import Verif.Props.Rdp
import Verif.Props.Vw
import Verif.Props.Dist
/-!
# C97: simplification without ties depends neither on the direction of the line nor on the priority queue
-/
set_option linter.unusedSectionVars false
set_option linter.unusedVariables false
set_option linter.unusedSimpArgs false
namespace Verif.Props.Reverse
open Verif Verif.Spec Verif.Model Scalar

/-! ### Ramer–Douglas–Peucker -/
section rdp
variable {P K : Type} [LinearOrder K]

/-- the textbook algorithm with a distance function is deterministic -/
theorem keeps_unique (dist : P → P → P → K) (thr : K) {s : P} {mid : List P} {e : P} {k k' : List P}
    (h : RdpKeeps (fun a b p => thr < dist a b p) (fun a b x y => dist a b x ≤ dist a b y)
      (fun a b x y => dist a b x < dist a b y) s mid e k)
    (h' : RdpKeeps (fun a b p => thr < dist a b p) (fun a b x y => dist a b x ≤ dist a b y)
      (fun a b x y => dist a b x < dist a b y) s mid e k') : k = k' := by
  induction h generalizing k' with
  | near s mid e h =>
    cases h' with
    | near => rfl
    | split _ m1 x m2 _ k1 k2 hf _ _ _ _ => exact absurd hf (h x (by simp))
  | split s m1 x m2 e k1 k2 hfar h1 h2 l r ihl ihr =>
    generalize hm : m1 ++ x :: m2 = mid at h'
    cases h' with
    | near _ _ _ h => subst hm; exact absurd hfar (h x (by simp))
    | split _ m1' x' m2' _ k1' k2' hf' h1' h2' l' r' =>
      have : m1 = m1' ∧ x = x' ∧ m2 = m2' := by
        rcases List.append_eq_append_iff.1 hm with ⟨t, e1, e2⟩ | ⟨t, e1, e2⟩
        · cases t with
          | nil => simp at e1 e2; exact ⟨e1.symm, e2.1, e2.2⟩
          | cons y t =>
            simp only [List.cons_append, List.cons.injEq] at e2
            obtain ⟨rfl, rfl⟩ := e2
            have a := h2 x' (by simp)
            have b := h1' x (by rw [e1]; simp)
            exact absurd a (not_lt.2 b)
        · cases t with
          | nil => simp at e1 e2; exact ⟨e1, e2.1.symm, e2.2.symm⟩
          | cons y t =>
            simp only [List.cons_append, List.cons.injEq] at e2
            obtain ⟨rfl, rfl⟩ := e2
            have a := h2' x (by simp)
            have b := h1 x' (by rw [e1]; simp)
            exact absurd a (not_lt.2 b)
      obtain ⟨rfl, rfl, rfl⟩ := this
      rw [ihl l', ihr r']

/-- the textbook algorithm on the reversed line, if no two points beyond the threshold are equally far -/
theorem keeps_reverse (dist : P → P → P → K) (thr : K) (hsym : ∀ a b p, dist a b p = dist b a p)
    {s : P} {mid : List P} {e : P} {k : List P}
    (h : RdpKeeps (fun a b p => thr < dist a b p) (fun a b x y => dist a b x ≤ dist a b y)
      (fun a b x y => dist a b x < dist a b y) s mid e k)
    (hties : ∀ a x y b, [a, x, y, b].Sublist (s :: (mid ++ [e])) → thr < dist a b x → dist a b x ≠ dist a b y) :
    RdpKeeps (fun a b p => thr < dist a b p) (fun a b x y => dist a b x ≤ dist a b y)
      (fun a b x y => dist a b x < dist a b y) e mid.reverse s k.reverse := by
  induction h with
  | near s mid e h => exact .near _ _ _ (fun p hp => by rw [hsym]; exact h p (List.mem_reverse.1 hp))
  | split s m1 x m2 e k1 k2 hfar h1 h2 l r ihl ihr =>
    rw [List.reverse_append, List.reverse_append, List.reverse_cons, List.reverse_cons, List.append_assoc, List.append_assoc]
    refine .split _ _ _ _ _ _ _ (by rw [hsym]; exact hfar) ?_ ?_ (ihr fun a y z b hs => hties a y z b (hs.trans ?_))
      (ihl fun a y z b hs => hties a y z b (hs.trans ?_))
    · intro y hy
      rw [hsym e s, hsym e s]
      exact (h2 y (List.mem_reverse.1 hy)).le
    · intro y hy
      rw [hsym e s, hsym e s]
      have hy' := List.mem_reverse.1 hy
      refine lt_of_le_of_ne (h1 y hy') (fun he => ?_)
      refine hties s y x e ?_ (by rw [he]; exact hfar) he
      refine List.Sublist.cons_cons s ?_
      have a1 : [y].Sublist m1 := List.singleton_sublist.2 hy'
      have a2 : [x, e].Sublist (x :: m2 ++ [e]) := List.Sublist.cons_cons x (List.sublist_append_right m2 [e])
      have := a1.append a2
      simpa using this
    · rw [List.append_assoc]
      exact List.Sublist.cons s (List.sublist_append_right m1 (x :: m2 ++ [e]))
    · refine List.Sublist.cons_cons s ?_
      rw [List.append_assoc]
      refine List.Sublist.append (List.Sublist.refl _) ?_
      simp

end rdp

section rdpExact
variable {K : Type} [Scalar K] [Field K] [LinearOrder K] [ExactScalar K]

theorem rdpTop_reverse {P : Type} (dist : P → P → P → K) (d : K) (hsym : ∀ a b p, dist a b p = dist b a p) (line : List P)
    (hties : ∀ a x y b, [a, x, y, b].Sublist line → d *. d < dist a b x → dist a b x ≠ dist a b y) :
    rdpTop (fun a b p => .ok (dist a b p)) d line.reverse = (rdpTop (fun a b p => .ok (dist a b p)) d line).map List.reverse := by
  match hl : line with
  | [] => rfl
  | [a] => rfl
  | a :: b :: rest =>
    obtain ⟨mid, e, hme⟩ : ∃ mid e, b :: rest = mid ++ [e] :=
      ⟨_, _, (List.dropLast_append_getLast (List.cons_ne_nil b rest)).symm⟩
    rw [hme] at hties ⊢
    obtain ⟨k, h1, h2⟩ := Rdp.rdpTop_textbook dist d a mid e
    have hr := keeps_reverse dist (d *. d) hsym h2 hties
    obtain ⟨k', h1', h2'⟩ := Rdp.rdpTop_textbook dist d e mid.reverse a
    have : k' = k.reverse := keeps_unique dist _ h2' hr
    have e1 : (a :: (mid ++ [e])).reverse = e :: (mid.reverse ++ [a]) := by simp
    rw [e1, h1', h1, this]
    simp [Except.map]

theorem segment_symm (a b q : V2 K) : OnSegment2 a b q ↔ OnSegment2 b a q := by
  have := ExactScalar.toIsStrictOrderedRing (K := K)
  have key : ∀ a b : V2 K, OnSegment2 a b q → OnSegment2 b a q := by
    rintro a b ⟨t, h0, h1, rfl⟩
    refine ⟨1 - t, by linarith, by linarith, ?_⟩
    simp only [lerp2]
    congr 1 <;> ring
  exact ⟨key a b, key b a⟩

theorem line_symm (a b q : V3 K) : OnLine3 a b q ↔ OnLine3 b a q := by
  have key : ∀ a b : V3 K, OnLine3 a b q → OnLine3 b a q := by
    rintro a b ⟨t, rfl⟩
    refine ⟨1 - t, ?_⟩
    simp only [lerp3]
    congr 1 <;> ring
  exact ⟨key a b, key b a⟩

theorem min_unique {P : Type} {sq : P → P → K} {p : P} {S : P → Prop} {v w : K} (h : IsMinSqDist sq p S v) (h' : IsMinSqDist sq p S w) :
    v = w := by
  obtain ⟨⟨q, hq, rfl⟩, h2⟩ := h
  obtain ⟨⟨r, hr, rfl⟩, h4⟩ := h'
  exact le_antisymm (h2 r hr) (h4 q hq)

theorem dist2_symm (a b p : V2 K) : distToLineSqSafe2 a b p = distToLineSqSafe2 b a p := by
  have h1 := Dist.C16_dist2_safe_is_min a b p
  have h2 := Dist.C16_dist2_safe_is_min b a p
  rw [show OnSegment2 b a = OnSegment2 a b from funext fun q => propext (segment_symm b a q)] at h2
  exact min_unique h1 h2

theorem dist3_symm (a b p : V3 K) : distToLineSqSafe3 a b p = distToLineSqSafe3 b a p := by
  have h1 := Dist.C17_dist3_safe_is_min a b p
  have h2 := Dist.C17_dist3_safe_is_min b a p
  rw [show OnLine3 b a = OnLine3 a b from funext fun q => propext (line_symm b a q)] at h2
  exact min_unique h1 h2

/-- C97 (2D): if no two points between two others have the same distance, above the threshold, from the segment between
the latter, then `simplify_rdp` of the reversed line is the reversed result. -/
theorem C97_rdp2_reverse (line : List (V2 K)) (d : K)
    (hties : ∀ a x y b v, [a, x, y, b].Sublist line → IsMinSqDist sqDist2 x (OnSegment2 a b) v →
      IsMinSqDist sqDist2 y (OnSegment2 a b) v → v ≤ d ^ 2) :
    simplifyRdp2 line.reverse d = (simplifyRdp2 line d).map List.reverse := by
  refine rdpTop_reverse distToLineSqSafe2 d dist2_symm line ?_
  intro a x y b hs hf he
  have h1 := Dist.C16_dist2_safe_is_min a b x
  have h2 := Dist.C16_dist2_safe_is_min a b y
  rw [← he] at h2
  have := hties a x y b _ hs h1 h2
  rw [ExactScalar.mul_eq, ← sq] at hf
  exact absurd hf (not_lt.2 this)

/-- C97 (3D): the same, with the distance from the infinite line. -/
theorem C97_rdp3_reverse (line : List (V3 K)) (d : K)
    (hties : ∀ a x y b v, [a, x, y, b].Sublist line → IsMinSqDist sqDist3 x (OnLine3 a b) v →
      IsMinSqDist sqDist3 y (OnLine3 a b) v → v ≤ d ^ 2) :
    simplifyRdp3 line.reverse d = (simplifyRdp3 line d).map List.reverse := by
  refine rdpTop_reverse distToLineSqSafe3 d dist3_symm line ?_
  intro a x y b hs hf he
  have h1 := Dist.C17_dist3_safe_is_min a b x
  have h2 := Dist.C17_dist3_safe_is_min a b y
  rw [← he] at h2
  have := hties a x y b _ hs h1 h2
  rw [ExactScalar.mul_eq, ← sq] at hf
  exact absurd hf (not_lt.2 this)

end rdpExact

/-- C97: with ties the direction matters: the later one of two equally far points is kept. -/
theorem C97_rdp_ties : simplifyRdp2 [(⟨0, 0⟩ : V2 ℚ), ⟨1, 1⟩, ⟨2, 1⟩, ⟨3, 0⟩] (9 / 10) = .ok [⟨0, 0⟩, ⟨2, 1⟩, ⟨3, 0⟩] ∧
    simplifyRdp2 [(⟨3, 0⟩ : V2 ℚ), ⟨2, 1⟩, ⟨1, 1⟩, ⟨0, 0⟩] (9 / 10) = .ok [⟨3, 0⟩, ⟨1, 1⟩, ⟨0, 0⟩] := by
  constructor
  · obtain ⟨k, h1, h2⟩ := Rdp.rdpTop_textbook distToLineSqSafe2 (9 / 10 : ℚ) ⟨0, 0⟩ [⟨1, 1⟩, ⟨2, 1⟩] ⟨3, 0⟩
    have : k = [⟨2, 1⟩] := by
      refine keeps_unique distToLineSqSafe2 _ h2 ?_
      refine .split (⟨0, 0⟩ : V2 ℚ) [⟨1, 1⟩] ⟨2, 1⟩ [] ⟨3, 0⟩ [] [] (by decide +kernel) ?_ (by simp) (.near _ _ _ ?_) (.near _ _ _ (by simp)) <;>
      · intro y hy
        rw [List.mem_singleton.1 hy]
        decide +kernel
    rw [this] at h1
    exact h1
  · obtain ⟨k, h1, h2⟩ := Rdp.rdpTop_textbook distToLineSqSafe2 (9 / 10 : ℚ) ⟨3, 0⟩ [⟨2, 1⟩, ⟨1, 1⟩] ⟨0, 0⟩
    have : k = [⟨1, 1⟩] := by
      refine keeps_unique distToLineSqSafe2 _ h2 ?_
      refine .split (⟨3, 0⟩ : V2 ℚ) [⟨2, 1⟩] ⟨1, 1⟩ [] ⟨0, 0⟩ [] [] (by decide +kernel) ?_ (by simp) (.near _ _ _ ?_) (.near _ _ _ (by simp)) <;>
      · intro y hy
        rw [List.mem_singleton.1 hy]
        decide +kernel
    rw [this] at h1
    exact h1

/-! ### Visvalingam–Whyatt -/

/-- no two different triples of points, in the order of the line, have areas that compare equal; and no point is repeated -/
def NoEqualAreas {P A : Type} (area : P → P → P → A) (le : A → A → Prop) (line : List P) : Prop :=
  line.Nodup ∧ ∀ a b c a' b' c', [a, b, c].Sublist line → [a', b', c'].Sublist line →
    le (area a b c) (area a' b' c') → le (area a' b' c') (area a b c) → a = a' ∧ b = b' ∧ c = c'

theorem NoEqualAreas.sublist {P A : Type} {area : P → P → P → A} {le : A → A → Prop} {l m : List P}
    (h : NoEqualAreas area le m) (hs : l.Sublist m) : NoEqualAreas area le l :=
  ⟨h.1.sublist hs, fun a b c a' b' c' h1 h2 => h.2 a b c a' b' c' (h1.trans hs) (h2.trans hs)⟩

theorem nodup_split {P : Type} {l l' m m' : List P} {a : P} (hn : (l ++ a :: m).Nodup) (h : l ++ a :: m = l' ++ a :: m') :
    l = l' ∧ m = m' := by
  rcases List.append_eq_append_iff.1 h with ⟨t, e1, e2⟩ | ⟨t, e1, e2⟩
  · cases t with
    | nil => simp at e1 e2; exact ⟨e1.symm, e2⟩
    | cons y t =>
      simp only [List.cons_append, List.cons.injEq] at e2
      obtain ⟨rfl, rfl⟩ := e2
      simp [List.nodup_append] at hn
  · cases t with
    | nil => simp at e1 e2; exact ⟨e1, e2.symm⟩
    | cons y t =>
      simp only [List.cons_append, List.cons.injEq] at e2
      obtain ⟨rfl, rfl⟩ := e2
      subst e1
      simp [List.nodup_append] at hn

theorem triple_sublist {P : Type} (pre post : List P) (a b c : P) : [a, b, c].Sublist (pre ++ a :: b :: c :: post) := by
  have : [a, b, c].Sublist ([a, b, c] ++ post) := List.sublist_append_left _ _
  exact (this.trans (List.sublist_append_right pre _))

theorem drop_sublist {P : Type} (pre post : List P) (a b c : P) : (pre ++ a :: c :: post).Sublist (pre ++ a :: b :: c :: post) := by
  refine List.Sublist.append (List.Sublist.refl _) ?_
  simp

/-- without equal areas the greedy algorithm has no choice -/
theorem greedy_unique {P A : Type} {area : P → P → P → A} {le : A → A → Prop} {m : Nat} {line out out' : List P}
    (h : GreedyDeletes area le m line out) (h' : GreedyDeletes area le m line out') (hn : NoEqualAreas area le line) : out = out' := by
  induction h generalizing out' with
  | done l => cases h'; rfl
  | step m pre a b c post out hmin _ ih =>
    generalize hl : pre ++ a :: b :: c :: post = line at h'
    cases h' with
    | step _ pre' a' b' c' post' _ hmin' h' =>
      have t1 := triple_sublist pre post a b c
      have t2 := triple_sublist pre' post' a' b' c'
      rw [← hl] at t2
      obtain ⟨rfl, rfl, rfl⟩ := hn.2 a b c a' b' c' t1 t2 (hmin _ _ _ _ _ hl) (hmin' _ _ _ _ _ hl.symm)
      obtain ⟨rfl, e⟩ := nodup_split hn.1 hl
      obtain rfl : post = post' := by simpa using e
      exact ih h' (hn.sublist (drop_sublist _ _ _ _ _))

/-- the greedy algorithm can follow the same deletions on the reversed line -/
theorem greedy_reverse {P A : Type} {area : P → P → P → A} {le : A → A → Prop} (hsym : ∀ a b c, area a b c = area c b a)
    {m : Nat} {line out : List P} (h : GreedyDeletes area le m line out) : GreedyDeletes area le m line.reverse out.reverse := by
  induction h with
  | done l => exact .done _
  | step m pre a b c post out hmin _ ih =>
    have e : (pre ++ a :: b :: c :: post).reverse = post.reverse ++ c :: b :: a :: pre.reverse := by simp
    rw [e]
    refine .step m post.reverse c b a pre.reverse out.reverse ?_ ?_
    · intro pre' a' b' c' post' h
      have h2 : pre ++ a :: b :: c :: post = post'.reverse ++ c' :: b' :: a' :: pre'.reverse := by
        have := congrArg List.reverse h
        simpa using this
      have := hmin _ _ _ _ _ h2
      rwa [hsym c b a, hsym a' b' c']
    · simpa using ih

section vw
variable {α : Type} [Scalar α]

theorem open_connected (line : List (V2 α)) (hn : 3 ≤ line.length)
    (hopen : ∀ a b, line.head? = some a → line.getLast? = some b → V2.beq a b = false) : isConnected2 line = false := by
  unfold isConnected2
  cases h1 : line.head? with
  | none => simp at h1; subst h1; simp at hn
  | some a => cases h2 : line.getLast? with
    | none => simp at h2; subst h2; simp at hn
    | some b => exact hopen a b h1 h2

/-- C97: without equal areas the result of `simplify_vw` (2D, open line) is the same for every behaviour of the priority queue.
No law of arithmetic is used, so this holds for floats. -/
theorem C97_vw2_any_queue {S : α → Prop} (hS : TotalOn S) (pick pick' : Nat → List (α × Nat) → Nat)
    (hpick : PopsLeast S pick) (hpick' : PopsLeast S pick') (line : List (V2 α)) (k fuel fuel' : Nat)
    (hopen : ∀ a b, line.head? = some a → line.getLast? = some b → V2.beq a b = false)
    (hgood : ∀ a ∈ line, ∀ b ∈ line, ∀ c ∈ line, S (triangleArea2 a b c))
    (hf : 4 * line.length < fuel) (hf' : 4 * line.length < fuel')
    (hties : NoEqualAreas triangleArea2 (fun a b => Scalar.le a b = true) line) :
    simplifyVw2 pick fuel line k = simplifyVw2 pick' fuel' line k := by
  by_cases hn : line.length < 3
  · rw [C12_vw2_short pick line k fuel hn, C12_vw2_short pick' line k fuel' hn]
  · have hc := open_connected line (by omega) hopen
    obtain ⟨out, h1, hg, -⟩ := vw2_open hS pick hpick line (by omega) hc hgood k fuel hf
    obtain ⟨out', h1', hg', -⟩ := vw2_open hS pick' hpick' line (by omega) hc hgood k fuel' hf'
    rw [h1, h1', greedy_unique hg hg' hties]

/-- C97: the same in 3D. -/
theorem C97_vw3_any_queue {S : α → Prop} (hS : TotalOn S) (pick pick' : Nat → List (α × Nat) → Nat)
    (hpick : PopsLeast S pick) (hpick' : PopsLeast S pick') (line : List (V3 α)) (k fuel fuel' : Nat)
    (hgood : ∀ a ∈ line, ∀ b ∈ line, ∀ c ∈ line, S (triangleArea3 a b c))
    (hf : 4 * line.length < fuel) (hf' : 4 * line.length < fuel')
    (hties : NoEqualAreas triangleArea3 (fun a b => Scalar.le a b = true) line) :
    simplifyVw3 pick fuel line k = simplifyVw3 pick' fuel' line k := by
  by_cases hn : line.length < 3
  · rw [C15_vw3_short pick line k fuel hn, C15_vw3_short pick' line k fuel' hn]
  · obtain ⟨out, last, h1, hl, hg, -⟩ := vw3_all hS pick hpick line (by omega) hgood k fuel hf
    obtain ⟨out', last', h1', hl', hg', -⟩ := vw3_all hS pick' hpick' line (by omega) hgood k fuel' hf'
    have : last = last' := by rw [hl] at hl'; exact Option.some.inj hl'
    subst this
    have := greedy_unique hg hg' hties
    rw [h1, h1', List.append_cancel_right this]

end vw

section vwExact
variable {K : Type} [Scalar K] [Field K] [LinearOrder K] [ExactScalar K]

theorem area2_symm (a b c : V2 K) : triangleArea2 a b c = triangleArea2 c b a := by
  rw [C14_area2, C14_area2]; unfold orient; ring

/-- C97: without equal areas `simplify_vw` of the reversed open line is the reversed result, in exact arithmetic. -/
theorem C97_vw2_reverse (pick pick' : Nat → List (K × Nat) → Nat) (hpick : PopsLeast (fun _ => True) pick)
    (hpick' : PopsLeast (fun _ => True) pick') (line : List (V2 K)) (k fuel fuel' : Nat)
    (hopen : ∀ a b, line.head? = some a → line.getLast? = some b → a ≠ b)
    (hf : 4 * line.length < fuel) (hf' : 4 * line.length < fuel')
    (hties : NoEqualAreas (fun a b c => |orient a b c|) (· ≤ ·) line) :
    simplifyVw2 pick' fuel' line.reverse k = (simplifyVw2 pick fuel line k).map List.reverse := by
  have := ExactScalar.toIsStrictOrderedRing (K := K)
  by_cases hn : line.length < 3
  · rw [C12_vw2_short pick line k fuel hn, C12_vw2_short pick' line.reverse k fuel' (by simpa using hn)]; rfl
  · have hbeq : ∀ a b : V2 K, a ≠ b → V2.beq a b = false := by
      intro a b h
      rw [Bool.eq_false_iff]
      intro hb
      exact h ((Hull.beq_iff a b).1 hb)
    have hc := open_connected line (by omega) (fun a b h1 h2 => hbeq a b (hopen a b h1 h2))
    have hc' := open_connected line.reverse (by simp; omega) (fun a b h1 h2 => hbeq a b (by
      rw [List.head?_reverse] at h1
      rw [List.getLast?_reverse] at h2
      exact (hopen b a h2 h1).symm))
    obtain ⟨out, h1, hg, -⟩ := vw2_open exact_total pick hpick line (by omega) hc (fun _ _ _ _ _ _ => trivial) k fuel hf
    obtain ⟨out', h1', hg', -⟩ := vw2_open exact_total pick' hpick' line.reverse (by simp; omega) hc' (fun _ _ _ _ _ _ => trivial) k fuel'
      (by simpa using hf')
    rw [List.length_reverse] at hg'
    have hr := greedy_reverse area2_symm hg
    have ht : NoEqualAreas triangleArea2 (fun a b : K => Scalar.le a b = true) line.reverse := by
      refine ⟨List.nodup_reverse.2 hties.1, ?_⟩
      intro a b c a' b' c' s1 s2 l1 l2
      rw [OrderedScalar.le_iff] at l1 l2
      have e := le_antisymm l1 l2
      rw [C14_area2, C14_area2] at e
      have e2 : |orient a b c| = |orient a' b' c'| := by
        have : orient a b c ^ 2 = orient a' b' c' ^ 2 := by linarith
        exact (sq_eq_sq_iff_abs_eq_abs _ _).1 this
      have sw : ∀ a b c : V2 K, |orient c b a| = |orient a b c| := by
        intro a b c
        have : orient c b a = -orient a b c := by unfold orient; ring
        rw [this, abs_neg]
      have r1 : [c, b, a].Sublist line := by have := s1.reverse; simpa using this
      have r2 : [c', b', a'].Sublist line := by have := s2.reverse; simpa using this
      have := hties.2 c b a c' b' a' r1 r2 (by simp only [sw]; rw [e2]) (by simp only [sw]; rw [e2])
      exact ⟨this.2.2, this.2.1, this.1⟩
    rw [h1, h1', greedy_unique hg' hr ht]
    rfl

end vwExact

/-! ### the hypotheses can be met -/

/-- four points without ties for `simplify_rdp` -/
theorem C97_rdp_example : let line : List (V2 ℚ) := [⟨0, 0⟩, ⟨1, 1⟩, ⟨2, 3⟩, ⟨3, 0⟩]
    ∀ a x y b v, [a, x, y, b].Sublist line → IsMinSqDist sqDist2 x (OnSegment2 a b) v →
      IsMinSqDist sqDist2 y (OnSegment2 a b) v → v ≤ (1 / 10) ^ 2 := by
  intro line a x y b v hs h1 h2
  have he : [a, x, y, b] = line := hs.eq_of_length (by rfl)
  simp only [line, List.cons.injEq, and_true] at he
  obtain ⟨rfl, rfl, rfl, rfl⟩ := he
  have e1 := min_unique h1 (Dist.C16_dist2_safe_is_min _ _ _)
  have e2 := min_unique h2 (Dist.C16_dist2_safe_is_min _ _ _)
  rw [e1] at e2
  exact absurd e2 (by decide +kernel)

/-- the triples of a list, in order -/
def triples {P : Type} (l : List P) : List (List P) := l.sublists.filter (fun s => s.length == 3)

/-- the square of twice the area of the triangle of three points -/
def tripleArea : List (V2 ℚ) → ℚ
  | [a, b, c] => orient a b c * orient a b c
  | _ => 0

/-- an open line of five points without equal areas -/
theorem C97_vw_example : NoEqualAreas (fun a b c : V2 ℚ => |orient a b c|) (· ≤ ·) [⟨0, 0⟩, ⟨1, 5⟩, ⟨2, 3⟩, ⟨7, 4⟩, ⟨20, 1⟩] := by
  refine ⟨by decide, ?_⟩
  intro a b c a' b' c' h1 h2 l1 l2
  have key : ∀ s ∈ triples [(⟨0, 0⟩ : V2 ℚ), ⟨1, 5⟩, ⟨2, 3⟩, ⟨7, 4⟩, ⟨20, 1⟩], ∀ t ∈ triples [(⟨0, 0⟩ : V2 ℚ), ⟨1, 5⟩, ⟨2, 3⟩, ⟨7, 4⟩, ⟨20, 1⟩],
      tripleArea s = tripleArea t → s = t := by
    decide +kernel
  have m : ∀ {x y z : V2 ℚ} {l : List (V2 ℚ)}, [x, y, z].Sublist l → [x, y, z] ∈ triples l := by
    intro x y z l h
    exact List.mem_filter.2 ⟨List.mem_sublists.2 h, rfl⟩
  have := key _ (m h1) _ (m h2) (abs_eq_iff_mul_self_eq.1 (le_antisymm l1 l2))
  simpa using this

end Verif.Props.Reverse
