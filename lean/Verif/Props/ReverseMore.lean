import Verif.Props.Reverse
import Verif.Props.FloatVw
namespace Verif.Flt
open Verif Fl
variable {f : Fmt}

theorem ofQ_neg (q : ℚ) : (ofQ false (-q) : Flt f) = ofQ false q ∨ (ofQ false (-q) : Flt f) = neg (ofQ false q) := by
  unfold ofQ
  by_cases h : |roundQ f q| < pow2 f.emax
  · have h' : |roundQ f (-q)| < pow2 f.emax := by rwa [roundQ_neg, abs_neg]
    rw [dif_pos h, dif_pos h']
    by_cases h0 : roundQ f q = 0
    · have h0' : roundQ f (-q) = 0 := by rw [roundQ_neg, h0, neg_zero]
      rw [dif_pos h0, dif_pos h0']
      exact Or.inl rfl
    · have h0' : ¬ roundQ f (-q) = 0 := by rw [roundQ_neg, neg_eq_zero]; exact h0
      rw [dif_neg h0, dif_neg h0']
      right
      simp only [neg, roundQ_neg]
  · have h' : ¬ |roundQ f (-q)| < pow2 f.emax := by rwa [roundQ_neg, abs_neg]
    rw [dif_neg h, dif_neg h']
    right
    have : q ≠ 0 := by
      rintro rfl
      refine h ?_
      simp only [roundQ, if_true, abs_zero]
      exact pow2_pos _
    simp only [neg]
    congr 1
    rcases lt_or_gt_of_ne this with g | g
    · simp [g, g.le]
    · simp [g, g.le]

theorem sub_swap (p q : Flt f) : sub q p = sub p q ∨ sub q p = neg (sub p q) := by
  cases p with
  | nan => cases q <;> exact Or.inl rfl
  | inf s => cases q with
    | nan => exact Or.inl rfl
    | inf t => cases s <;> cases t <;> first | exact Or.inl rfl | exact Or.inr rfl
    | zero t => exact Or.inr rfl
    | fin r h => exact Or.inr rfl
  | zero s => cases q with
    | nan => exact Or.inl rfl
    | inf t => right; cases t <;> rfl
    | zero t => cases s <;> cases t <;> first | exact Or.inl rfl | exact Or.inr rfl
    | fin r h =>
      have := ofQ_neg (f := f) (0 + -r)
      have e1 : sub (zero s) (fin r h) = ofQ false (0 + -r) := rfl
      have e2 : sub (fin r h) (zero s : Flt f) = ofQ false (r + 0) := rfl
      rw [e1, e2, show r + 0 = -(0 + -r) by ring]
      exact this
  | fin r h => cases q with
    | nan => exact Or.inl rfl
    | inf t => right; cases t <;> rfl
    | zero s =>
      have := ofQ_neg (f := f) (r + 0)
      have e1 : sub (zero s) (fin r h) = ofQ false (0 + -r) := rfl
      have e2 : sub (fin r h) (zero s : Flt f) = ofQ false (r + 0) := rfl
      rw [e1, e2, show 0 + -r = -(r + 0) by ring]
      exact this
    | fin t h' =>
      have := ofQ_neg (f := f) (r + -t)
      have e1 : sub (fin r h) (fin t h') = ofQ false (r + -t) := rfl
      have e2 : sub (fin t h') (fin r h) = ofQ false (t + -r) := rfl
      rw [e1, e2, show t + -r = -(r + -t) by ring]
      exact this

theorem sq_neg (x : Flt f) : mul (neg x) (neg x) = mul x x := by
  cases x with
  | nan => rfl
  | inf s => cases s <;> rfl
  | zero s => cases s <;> rfl
  | fin q h =>
    have e1 : mul (fin q h) (fin q h) = ofQ (decide (q < 0) != decide (q < 0)) (q * q) := rfl
    have e2 : mul (neg (fin q h)) (neg (fin q h)) = ofQ (decide (-q < 0) != decide (-q < 0)) (-q * -q) := rfl
    rw [e1, e2]
    simp

theorem sq_sub_swap (p q : Flt f) : mul (sub q p) (sub q p) = mul (sub p q) (sub p q) := by
  rcases sub_swap p q with h | h <;> rw [h]
  exact sq_neg _
end Verif.Flt
namespace Verif.Props.Reverse
open Verif Verif.Spec Verif.Model Scalar
section generic
variable {α : Type} [Scalar α]
/-- the 3D reversal for any arithmetic in which areas are comparable and do not depend on the direction -/
theorem vw3_reverse {S : α → Prop} (hS : TotalOn S) (hsym : ∀ a b c : V3 α, triangleArea3 a b c = triangleArea3 c b a)
    (pick pick' : Nat → List (α × Nat) → Nat) (hpick : PopsLeast S pick)
    (hpick' : PopsLeast S pick') (line : List (V3 α)) (hn : 3 ≤ line.length) (k fuel fuel' : Nat)
    (hgood : ∀ a ∈ line, ∀ b ∈ line, ∀ c ∈ line, S (triangleArea3 a b c))
    (hf : 4 * line.length < fuel) (hf' : 4 * line.length < fuel')
    (hties : NoEqualAreas triangleArea3 (fun a b => Scalar.le a b = true) line) :
    ∃ kept : List (V3 α), kept.Sublist line ∧ kept.head? = line.head? ∧ kept.getLast? = line.getLast? ∧
      simplifyVw3 pick fuel line k = .ok kept.dropLast ∧
      simplifyVw3 pick' fuel' line.reverse k = .ok kept.reverse.dropLast := by
  obtain ⟨out, last, h1, hl, hg, hs, hlen, hh⟩ := vw3_all hS pick hpick line hn hgood k fuel hf
  obtain ⟨out', last', h1', hl', hg', -⟩ := vw3_all hS pick' hpick' line.reverse (by simpa using hn)
    (fun a ha b hb c hc => hgood a (List.mem_reverse.1 ha) b (List.mem_reverse.1 hb) c (List.mem_reverse.1 hc)) k fuel' (by simpa using hf')
  rw [List.length_reverse] at hg'
  have hr := greedy_reverse hsym hg
  have ht : NoEqualAreas triangleArea3 (fun a b : α => Scalar.le a b = true) line.reverse := by
    refine ⟨List.nodup_reverse.2 hties.1, ?_⟩
    intro a b c a' b' c' s1 s2 l1 l2
    have r1 : [c, b, a].Sublist line := by have := s1.reverse; simpa using this
    have r2 : [c', b', a'].Sublist line := by have := s2.reverse; simpa using this
    rw [hsym a b c, hsym a' b' c'] at l1 l2
    have := hties.2 c b a c' b' a' r1 r2 l1 l2
    exact ⟨this.2.2, this.2.1, this.1⟩
  have e := greedy_unique hg' hr ht
  refine ⟨out ++ [last], ?_, ?_, ?_, ?_, ?_⟩
  · have hne : line ≠ [] := by intro h; subst h; simp at hn
    have := hs.append (List.Sublist.refl [last])
    have e2 : line.dropLast ++ [last] = line := by
      rw [List.getLast?_eq_some_getLast hne] at hl
      rw [← Option.some.inj hl]
      exact List.dropLast_append_getLast hne
    rwa [e2] at this
  · cases out with
    | nil => simp at hlen; omega
    | cons o out => simpa using hh
  · rw [hl]; simp
  · rw [h1]; simp
  · rw [← e, h1']; simp
end generic

section exact
variable {K : Type} [Scalar K] [Field K] [LinearOrder K] [ExactScalar K]
theorem area3_symm (a b c : V3 K) : triangleArea3 a b c = triangleArea3 c b a := by
  rw [C14_area3, C14_area3]
  ring

/-- C97 (3D, exact): `simplify_vw` in 3D loses the last point (C15); with it, the points kept of the reversed line are those
kept of the line, reversed, if there are no equal areas -/
theorem C97_vw3_reverse (pick pick' : Nat → List (K × Nat) → Nat) (hpick : PopsLeast (fun _ => True) pick)
    (hpick' : PopsLeast (fun _ => True) pick') (line : List (V3 K)) (hn : 3 ≤ line.length) (k fuel fuel' : Nat)
    (hf : 4 * line.length < fuel) (hf' : 4 * line.length < fuel')
    (hties : NoEqualAreas triangleArea3 (· ≤ ·) line) :
    ∃ kept : List (V3 K), kept.Sublist line ∧ kept.head? = line.head? ∧ kept.getLast? = line.getLast? ∧
      simplifyVw3 pick fuel line k = .ok kept.dropLast ∧
      simplifyVw3 pick' fuel' line.reverse k = .ok kept.reverse.dropLast :=
  vw3_reverse exact_total area3_symm pick pick' hpick hpick' line hn k fuel fuel' (fun _ _ _ _ _ _ => trivial) hf hf'
    ⟨hties.1, fun a b c a' b' c' s1 s2 l1 l2 => hties.2 a b c a' b' c' s1 s2 ((OrderedScalar.le_iff _ _).1 l1) ((OrderedScalar.le_iff _ _).1 l2)⟩
end exact

section float
variable {f : Fmt} [Libm f]
/-- C97: on floats the 3D area of a triangle is the same number in both directions, whatever the coordinates -/
theorem C97_area3_float_symmetric (a b c : V3 (Flt f)) : triangleArea3 a b c = triangleArea3 c b a := by
  have key : ∀ p q : Flt f, (q -. p) *. (q -. p) = (p -. q) *. (p -. q) := Flt.sq_sub_swap
  simp only [triangleArea3]
  rw [key ((c.y -. b.y) *. (a.z -. b.z)), key ((c.x -. b.x) *. (a.z -. b.z)), key ((c.x -. b.x) *. (a.y -. b.y))]

/-- C97 (3D, floats): the same on f32 and f64, if no area is NaN -/
theorem C97_vw3_reverse_float (pick pick' : Nat → List (Flt f × Nat) → Nat) (hpick : PopsLeast NotNan pick)
    (hpick' : PopsLeast NotNan pick') (line : List (V3 (Flt f))) (hn : 3 ≤ line.length) (k fuel fuel' : Nat)
    (hgood : ∀ a ∈ line, ∀ b ∈ line, ∀ c ∈ line, NotNan (triangleArea3 a b c))
    (hf : 4 * line.length < fuel) (hf' : 4 * line.length < fuel')
    (hties : NoEqualAreas triangleArea3 (fun a b => Scalar.le a b = true) line) :
    ∃ kept : List (V3 (Flt f)), kept.Sublist line ∧ kept.head? = line.head? ∧ kept.getLast? = line.getLast? ∧
      simplifyVw3 pick fuel line k = .ok kept.dropLast ∧
      simplifyVw3 pick' fuel' line.reverse k = .ok kept.reverse.dropLast :=
  vw3_reverse (C81_floats_total f) C97_area3_float_symmetric pick pick' hpick hpick' line hn k fuel fuel' hgood hf hf' hties

end float

/-- `triangleArea2` without the functions that `Libm` leaves open -/
def areaFree (p1 p2 p3 : V2 F64) : F64 :=
  let area := (((p1.x.mul p2.y |>.add (p2.x.mul p3.y) |>.add (p3.x.mul p1.y)).sub (p1.x.mul p3.y)).sub (p2.x.mul p1.y)).sub
    (p3.x.mul p2.y)
  area.mul area

theorem areaFree_eq (L : Libm b64) (a b c : V2 F64) : triangleArea2 a b c = areaFree a b c := rfl

/-- the triples of the example -/
def triples3 : List (List (V3 ℚ)) := ([(⟨0, 0, 0⟩ : V3 ℚ), ⟨1, 1, 0⟩, ⟨2, 3, 1⟩, ⟨3, 0, 5⟩] : List (V3 ℚ)).sublists.filter (fun s => s.length == 3)
/-- the area of a triple -/
def tripleArea3 : List (V3 ℚ) → ℚ
  | [a, b, c] => triangleArea3 a b c
  | _ => 0

/-- C97: on f64 the 2D area depends on the direction -/
theorem C97_area2_float_not_symmetric : ∃ a b c : V2 F64, ∀ _ : Libm b64, triangleArea2 a b c ≠ triangleArea2 c b a := by
  refine ⟨⟨Flt.ofQ false (2^30), Flt.ofQ false 0⟩, ⟨Flt.ofQ false 100, Flt.ofQ false (2^30)⟩, ⟨Flt.ofQ false 0, Flt.ofQ false 1⟩, fun L => ?_⟩
  have : areaFree ⟨Flt.ofQ false (2^30), Flt.ofQ false 0⟩ ⟨Flt.ofQ false 100, Flt.ofQ false (2^30)⟩ ⟨Flt.ofQ false 0, Flt.ofQ false 1⟩ ≠
      areaFree ⟨Flt.ofQ false 0, Flt.ofQ false 1⟩ ⟨Flt.ofQ false 100, Flt.ofQ false (2^30)⟩ ⟨Flt.ofQ false (2^30), Flt.ofQ false 0⟩ := by
    decide +kernel
  rw [areaFree_eq, areaFree_eq]
  exact this

/-- the hypotheses of the 3D theorems can be met -/
theorem C97_vw3_example : NoEqualAreas triangleArea3 (· ≤ ·) [(⟨0, 0, 0⟩ : V3 ℚ), ⟨1, 1, 0⟩, ⟨2, 3, 1⟩, ⟨3, 0, 5⟩] := by
  refine ⟨by decide, ?_⟩
  intro a b c a' b' c' h1 h2 l1 l2
  have key : ∀ s ∈ triples3, ∀ t ∈ triples3, tripleArea3 s = tripleArea3 t → s = t := by
    decide +kernel
  have m : ∀ {x y z : V3 ℚ}, [x, y, z].Sublist [(⟨0, 0, 0⟩ : V3 ℚ), ⟨1, 1, 0⟩, ⟨2, 3, 1⟩, ⟨3, 0, 5⟩] → [x, y, z] ∈ triples3 := by
    intro x y z h
    exact List.mem_filter.2 ⟨List.mem_sublists.2 h, rfl⟩
  have := key _ (m h1) _ (m h2) (le_antisymm l1 l2)
  simpa using this
end Verif.Props.Reverse
