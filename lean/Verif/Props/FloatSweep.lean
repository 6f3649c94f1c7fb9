import Verif.Proofs.SweepRawInit
import Verif.Props.FloatLinePoint
import Verif.Props.FloatBox
import Verif.Proofs.FloatUlps
/-!
# The sweep line in floating point
-/
namespace Verif.Props
open Verif Verif.Model Verif.Spec Scalar Verif.Proofs.FloatHull Verif.Proofs.FloatIntersect Verif.Proofs.FloatLinePoint Fl Flt
open Verif.SweepRaw
set_option linter.unusedSectionVars false
set_option linter.unusedVariables false
section
variable {f : Fmt} [Libm f]

theorem not_nan {a : Flt f} (h : a.isFin = true) : a ≠ .nan := by rintro rfl; simp [isFin] at h

theorem same_ulps {a b : Flt f} (ha : a.isFin = true) (hb : b.isFin = true) (h : a.val = b.val) : Flt.ulpsEq a b = true := by
  have k : ∀ c : Flt f, c.isFin = true → ekey c = ((c.val : WithTop ℚ) : WithBot (WithTop ℚ)) := by
    intro c hc
    cases c <;> simp only [isFin, Bool.false_eq_true] at hc <;> rfl
  exact ulps_of_same (not_nan ha) (not_nan hb) (by rw [k a ha, k b hb, h])

/-- finite floats can be compared -/
theorem flt_comparable : FiniteComparable (Flt f) := by
  intro a b ha hb
  have ha : a.isFin = true := ha
  have hb : b.isFin = true := hb
  have h1 : Scalar.le a b = decide (a.val ≤ b.val) := is_le (is_self ha) (is_self hb)
  have h2 : Scalar.le b a = decide (b.val ≤ a.val) := is_le (is_self hb) (is_self ha)
  unfold Scalar.pcmp Scalar.ge
  rw [h1, h2]
  rcases lt_trichotomy a.val b.val with h | h | h
  · simp [h.le, not_le.2 h]
  · simp [h]
  · simp [h.le, not_le.2 h]

/-- the order of the sweep line on the exact values -/
def Before (s p : V2 (Flt f)) : Prop := s.y.val < p.y.val ∨ s.y.val = p.y.val ∧ s.x.val < p.x.val

theorem after_before {s p : V2 (Flt f)} (hs : FiniteV2 s) (hp : FiniteV2 p) (h : after s p = true) : Before s p := by
  obtain ⟨s1, s2⟩ := hs
  obtain ⟨p1, p2⟩ := hp
  have s1 : s.x.isFin = true := s1
  have s2 : s.y.isFin = true := s2
  have p1 : p.x.isFin = true := p1
  have p2 : p.y.isFin = true := p2
  have h1 : Scalar.le s.y p.y = decide (s.y.val ≤ p.y.val) := is_le (is_self s2) (is_self p2)
  have h2 : Scalar.beq p.y s.y = decide (p.y.val = s.y.val) := is_beq (is_self p2) (is_self s2)
  have h3 : Scalar.lt p.x s.x = decide (p.x.val < s.x.val) := is_lt (is_self p1) (is_self s1)
  have h : ((Scalar.le s.y p.y && !(Scalar.beq p.y s.y && Scalar.lt p.x s.x)) && !p.ulpsEq s) = true := h
  rw [h1, h2, h3] at h
  simp only [Bool.and_eq_true, decide_eq_true_eq, Bool.not_eq_true', Bool.and_eq_false_iff, decide_eq_false_iff_not] at h
  obtain ⟨⟨g1, g2⟩, g3⟩ := h
  rcases g1.lt_or_eq with g | g
  · exact Or.inl g
  rcases g2 with g2 | g2
  · exact absurd g.symm g2
  rcases (not_lt.1 g2).lt_or_eq with g4 | g4
  · exact Or.inr ⟨g, g4⟩
  · have : p.ulpsEq s = true := by
      show (Flt.ulpsEq p.x s.x && Flt.ulpsEq p.y s.y) = true
      rw [same_ulps p1 s1 g4.symm, same_ulps p2 s2 g.symm]; rfl
    rw [this] at g3
    exact absurd g3.symm Bool.false_ne_true

theorem v2_refl (p : V2 (Flt f)) (h : FiniteV2 p) : p.ulpsEq p = true := by
  show (Flt.ulpsEq p.x p.x && Flt.ulpsEq p.y p.y) = true
  rw [same_ulps (show p.x.isFin = true from h.1) h.1 rfl, same_ulps (show p.y.isFin = true from h.2) h.2 rfl]; rfl

/-- the comparison of two finite numbers -/
theorem pcmp_val {a b : Flt f} (ha : a.isFin = true) (hb : b.isFin = true) : Scalar.pcmp a b = some (compare a.val b.val) := by
  have h1 : Scalar.le a b = decide (a.val ≤ b.val) := is_le (is_self ha) (is_self hb)
  have h2 : Scalar.le b a = decide (b.val ≤ a.val) := is_le (is_self hb) (is_self ha)
  unfold Scalar.pcmp Scalar.ge
  rw [h1, h2]
  rcases lt_trichotomy a.val b.val with h | h | h
  · rw [compare_lt_iff_lt.2 h]; simp [h.le, not_le.2 h]
  · rw [compare_eq_iff_eq.2 h]; simp [h]
  · rw [compare_gt_iff_gt.2 h]; simp [h.le, not_le.2 h]

/-- the comparison of keys the other way round -/
theorem siteCmp_swap {a b : V2 (Flt f)} (ha : FiniteV2 a) (hb : FiniteV2 b) : siteCmp b a = (siteCmp a b).map Ordering.swap := by
  have a1 : a.x.isFin = true := ha.1
  have a2 : a.y.isFin = true := ha.2
  have b1 : b.x.isFin = true := hb.1
  have b2 : b.y.isFin = true := hb.2
  have sw : ∀ p q : ℚ, compare q p = (compare p q).swap := by
    intro p q
    rcases lt_trichotomy p q with h | h | h
    · rw [compare_lt_iff_lt.2 h, compare_gt_iff_gt.2 h]; rfl
    · rw [compare_eq_iff_eq.2 h, compare_eq_iff_eq.2 h.symm]; rfl
    · rw [compare_gt_iff_gt.2 h, compare_lt_iff_lt.2 h]; rfl
  have u1 : Scalar.ulpsEq b.x a.x = Scalar.ulpsEq a.x b.x := Proofs.FloatUlps.ulps_comm b1 a1
  have u2 : Scalar.ulpsEq b.y a.y = Scalar.ulpsEq a.y b.y := Proofs.FloatUlps.ulps_comm b2 a2
  unfold siteCmp
  rw [u1, u2, pcmp_val a1 b1, pcmp_val a2 b2, pcmp_val b1 a1, pcmp_val b2 a2, sw a.x.val, sw a.y.val]
  split
  · split <;> rfl
  · rfl

/-- `k` is `l` or `l` with its ends swapped -/
def SameLine (k l : Line2 (Flt f)) : Prop := k = l ∨ k = ⟨l.end, l.start⟩

/-- the positions the sweep line works with: the end points and the computed intersections, as far as they are finite -/
def SweepPoint (lines : List (Line2 (Flt f))) (p : V2 (Flt f)) : Prop :=
  FiniteV2 p ∧ ∃ l ∈ lines, p = l.start ∨ p = l.end ∨
    ∃ m ∈ lines, ∃ l' m', SameLine l' l ∧ SameLine m' m ∧ ∃ i, l'.intersectionPoint m' = some i ∧ p = i.single

/-- The search trees of the sweep line can be relied on: they have one node only (std: up to eleven keys), or the
comparison of keys (with tolerances) is transitive on the positions the sweep line works with. -/
def Dependable [B : TreeShape (Flt f)] (lines : List (Line2 (Flt f))) : Prop :=
  B = TreeShape.oneNode (Flt f) ∨ ∀ a b c : V2 (Flt f), SweepPoint lines a → SweepPoint lines b → SweepPoint lines c →
    siteCmp a b = some .lt → siteCmp b c = some .lt → siteCmp a c = some .lt

theorem Dependable.rely [B : TreeShape (Flt f)] {lines : List (Line2 (Flt f))} (h : Dependable lines) :
    ∃ R : Rely (Flt f), R.holds ∧ ∀ p, SweepPoint lines p → R.K p := by
  rcases h with rfl | h
  · exact ⟨Rely.oneNode (Flt f), trivial, fun _ _ => trivial⟩
  · refine ⟨Rely.transitive flt_comparable (fun a b ha hb e => ?_) (fun a b ha hb e => ?_) (SweepPoint lines), h, fun p hp => ⟨hp, hp.1⟩⟩
    · rw [siteCmp_swap ha hb, e]; rfl
    · rw [siteCmp_swap ha hb, e]; rfl

theorem SameLine.trans {a b c : Line2 (Flt f)} (h : SameLine a b) (g : SameLine b c) : SameLine a c := by
  rcases h with rfl | rfl <;> rcases g with rfl | rfl
  · exact Or.inl rfl
  · exact Or.inr rfl
  · exact Or.inr rfl
  · exact Or.inl rfl

theorem SweepPoint.stored {lines : List (Line2 (Flt f))} {p : V2 (Flt f)} (h : SweepPoint (lines.map stored) p) : SweepPoint lines p := by
  obtain ⟨hf, l, hl, h⟩ := h
  obtain ⟨l0, hl0, rfl⟩ := List.mem_map.1 hl
  refine ⟨hf, l0, hl0, ?_⟩
  rcases h with h | h | ⟨m, hm, l', m', s1, s2, i, h1, h2⟩
  · rcases stored_cases l0 with e | e <;> rw [e] at h
    · exact Or.inl h
    · exact Or.inr (Or.inl h)
  · rcases stored_cases l0 with e | e <;> rw [e] at h
    · exact Or.inr (Or.inl h)
    · exact Or.inl h
  · obtain ⟨m0, hm0, rfl⟩ := List.mem_map.1 hm
    exact Or.inr (Or.inr ⟨m0, hm0, l', m', s1.trans (stored_cases l0), s2.trans (stored_cases m0), i, h1, h2⟩)

/-- what is common to all cases -/
theorem base_laws [TreeShape (Flt f)] {R : Rely (Flt f)} {L : List (Line2 (Flt f))} (hL : ∀ l ∈ L, FiniteV2 l.start ∧ FiniteV2 l.end)
    (hK : R.holds → ∀ p, SweepPoint L p → R.K p) {N1 N2 N3 N4 : Line2 (Flt f) → V2 (Flt f) → Prop}
    (n12 : ∀ l p, N1 l p → N2 l p)
    (m12 : ∀ l p k, FiniteV2 p → FiniteV2 k → siteCmp p k = some .eq → N1 l p → N2 l k)
    (n23 : ∀ l p, N2 l p → N3 l p)
    (m23 : ¬ R.holds → ∀ l p k, FiniteV2 p → FiniteV2 k → siteCmp p k = some .eq → N2 l p → N3 l k)
    (n34 : ∀ l p, N3 l p → N4 l p)
    (m34 : ∀ l p k, FiniteV2 p → FiniteV2 k → siteCmp p k = some .eq → N3 l p → N4 l k)
    (ends : ∀ l ∈ L, N1 l l.start ∧ N1 l l.end)
    (meet : ∀ l ∈ L, ∀ m ∈ L, ∀ i, l.intersectionPoint m = some i → FiniteV2 i.single → N1 l i.single ∧ N1 m i.single) :
    Laws R L Before N1 N2 N3 N4 where
  comparable := flt_comparable
  refl := v2_refl
  symm := fun p q hp hq h => by rw [siteCmp_swap hp hq, h]; rfl
  trans := by
    rintro a b c (h | ⟨h, h'⟩) (g | ⟨g, g'⟩)
    · exact Or.inl (h.trans g)
    · exact Or.inl (g ▸ h)
    · exact Or.inl (h ▸ g)
    · exact Or.inr ⟨h.trans g, h'.trans g'⟩
  irrefl := by
    rintro a (h | ⟨_, h⟩)
    · exact lt_irrefl _ h
    · exact lt_irrefl _ h
  after := fun s p => after_before
  finite := hL
  n12 := n12
  m12 := m12
  n23 := n23
  m23 := m23
  n34 := n34
  m34 := m34
  ends := ends
  meet := meet
  keyEnds := fun hR l hl => ⟨hK hR _ ⟨(hL l hl).1, l, hl, Or.inl rfl⟩, hK hR _ ⟨(hL l hl).2, l, hl, Or.inr (Or.inl rfl)⟩⟩
  keyMeet := fun hR l hl m hm i hi hf =>
    hK hR _ ⟨hf, l, hl, Or.inr (Or.inr ⟨m, hm, l, m, Or.inl rfl, Or.inl rfl, i, hi, rfl⟩)⟩

theorem flt_laws [TreeShape (Flt f)] {R : Rely (Flt f)} {L : List (Line2 (Flt f))} (hL : ∀ l ∈ L, FiniteV2 l.start ∧ FiniteV2 l.end)
    (hK : R.holds → ∀ p, SweepPoint L p → R.K p) :
    Laws R L Before (fun _ _ => True) (fun _ _ => True) (fun _ _ => True) (fun _ _ => True) :=
  base_laws hL hK (fun _ _ _ => trivial) (fun _ _ _ _ _ _ _ => trivial) (fun _ _ _ => trivial) (fun _ _ _ _ _ _ _ _ => trivial)
    (fun _ _ _ => trivial) (fun _ _ _ _ _ _ _ => trivial) (fun _ _ => ⟨trivial, trivial⟩) (fun _ _ _ _ _ _ _ => ⟨trivial, trivial⟩)

/-- no reason to rely on anything -/
theorem none_K [TreeShape (Flt f)] (L : List (Line2 (Flt f))) :
    (Rely.none (Flt f)).holds → ∀ p, SweepPoint L p → (Rely.none (Flt f)).K p := fun h => h.elim

/-- two of the lines have a computed intersection that is not finite -/
def MeetsAtInfinity (lines : List (Line2 (Flt f))) : Prop :=
  ∃ l ∈ lines, ∃ m ∈ lines, ∃ l' m', SameLine l' l ∧ SameLine m' m ∧
    ∃ i, l'.intersectionPoint m' = some i ∧ ¬ FiniteV2 i.single

theorem overflow_stored {input : List (Line2 (Flt f))} (h : Overflow (input.map stored)) : MeetsAtInfinity input := by
  obtain ⟨l, hl, m, hm, i, h1, h2⟩ := h
  obtain ⟨l0, hl0, rfl⟩ := List.mem_map.1 hl
  obtain ⟨m0, hm0, rfl⟩ := List.mem_map.1 hm
  exact ⟨l0, hl0, m0, hm0, _, _, stored_cases _, stored_cases _, i, h1, h2⟩

theorem stored_mem {P : V2 (Flt f) → Prop} {input : List (Line2 (Flt f))} (h : ∀ l ∈ input, P l.start ∧ P l.end) :
    ∀ l ∈ input.map stored, P l.start ∧ P l.end := by
  intro l hl
  obtain ⟨l0, hl0, rfl⟩ := List.mem_map.1 hl
  rcases stored_cases l0 with e | e <;> rw [e]
  · exact h _ hl0
  · exact ⟨(h _ hl0).2, (h _ hl0).1⟩

/-- C79: the sweep line on floats, whatever the finite coordinates are, in whatever order its hash sets are
visited and whatever the shapes of its search trees are: if it returns a result, this is a list of finite positions,
each with the sorted numbers of lines (at least two, if only one result was wanted); if it reports `InvalidData`, then two
of the lines have a computed intersection that is not finite. -/
theorem C79_sweep_on_any_floats [TreeShape (Flt f)] (input : List (Line2 (Flt f))) (hfin : ∀ l ∈ input, FiniteV2 l.start ∧ FiniteV2 l.end)
    {order : Nat → List Nat → List Nat} (hord : ∀ n l, (order n l).Perm l) (ign stop : Bool) (fuel : Nat) :
    (∀ r, sweepIntersections order fuel ign stop input = .ok r → ∀ x ∈ r, FiniteV2 x.1 ∧ (stop = true → 2 ≤ x.2.length) ∧
        x.2.Pairwise (· ≤ ·) ∧ ∀ i ∈ x.2, i < input.length) ∧
    (sweepIntersections order fuel ign stop input = .error .invalid → MeetsAtInfinity input) := by
  rcases plain_raw input (flt_laws (R := Rely.none (Flt f)) (stored_mem hfin) (none_K _)) hord ign stop fuel (fun h => h.elim) with
    ⟨-, e, h1, h2⟩ | ⟨h1, h2⟩ | ⟨r, h1, h2⟩
  · rw [h1]
    refine ⟨fun r h => (nomatch h), fun h => ?_⟩
    cases h
    exact absurd rfl h2
  · rw [h1]
    exact ⟨fun r h => (nomatch h), fun _ => overflow_stored h2⟩
  · rw [h1]
    refine ⟨fun r' h => ?_, fun h => (nomatch h)⟩
    cases h
    intro x hx
    obtain ⟨g1, g2, g3, g4⟩ := h2 x hx
    refine ⟨g1, fun h => g2 (Or.inr h), g3, fun i hi => ?_⟩
    obtain ⟨l, hl, -⟩ := g4 i hi
    exact (List.getElem?_eq_some_iff.1 hl).1

/-- C79: if the search trees can be relied on, the sweep line on finite floats stops (after a number of rounds that
depends on the number of lines only), it does not panic and reports no internal error: it returns a list of positions,
each with at least two lines, or it reports `InvalidData`, and then two of the lines have a computed intersection that
is not finite. -/
theorem C79_sweep_stops_on_any_floats [TreeShape (Flt f)] (input : List (Line2 (Flt f))) (hfin : ∀ l ∈ input, FiniteV2 l.start ∧ FiniteV2 l.end)
    (hdep : Dependable input) {order : Nat → List Nat → List Nat} (hord : ∀ n l, (order n l).Perm l) (ign stop : Bool) (fuel : Nat)
    (hfuel : enough input.length < fuel) :
    (sweepIntersections order fuel ign stop input = .error .invalid ∧ MeetsAtInfinity input) ∨
    ∃ r, sweepIntersections order fuel ign stop input = .ok r ∧
      ∀ x ∈ r, FiniteV2 x.1 ∧ 2 ≤ x.2.length ∧ x.2.Pairwise (· ≤ ·) ∧ ∀ i ∈ x.2, i < input.length := by
  obtain ⟨R, hR, hK⟩ := hdep.rely
  rcases plain_raw input (flt_laws (R := R) (stored_mem hfin) (fun _ p hp => hK p hp.stored)) hord ign stop fuel (fun _ => hfuel) with
    ⟨h0, -⟩ | ⟨h1, h2⟩ | ⟨r, h1, h2⟩
  · exact absurd hR h0
  · exact Or.inl ⟨h1, overflow_stored h2⟩
  · refine Or.inr ⟨r, h1, fun x hx => ?_⟩
    obtain ⟨g1, g2, g3, g4⟩ := h2 x hx
    refine ⟨g1, g2 (Or.inl hR), g3, fun i hi => ?_⟩
    obtain ⟨l, hl, -⟩ := g4 i hi
    exact (List.getElem?_eq_some_iff.1 hl).1

/-- C79: trees with one node can be relied on -/
theorem C79_small_trees_are_dependable (lines : List (Line2 (Flt f))) :
    @Dependable f _ (TreeShape.oneNode (Flt f)) lines := Or.inl rfl

/-- C79: trees of any shape can be relied on if the coordinates of the end points and of the computed intersections are
either equal or not within the tolerance of `ulps_eq`. -/
theorem C79_separate_points_are_dependable [TreeShape (Flt f)] (lines : List (Line2 (Flt f)))
    (h : ∀ p q, SweepPoint lines p → SweepPoint lines q →
      (Flt.ulpsEq p.x q.x = true → p.x.val = q.x.val) ∧ (Flt.ulpsEq p.y q.y = true → p.y.val = q.y.val)) : Dependable lines := by
  right
  have key : ∀ p q, SweepPoint lines p → SweepPoint lines q → (siteCmp p q = some .lt ↔ Before p q) := by
    intro p q hp hq
    have p1 : p.x.isFin = true := hp.1.1
    have p2 : p.y.isFin = true := hp.1.2
    have q1 : q.x.isFin = true := hq.1.1
    have q2 : q.y.isFin = true := hq.1.2
    have ux : (Scalar.ulpsEq p.x q.x = true ↔ p.x.val = q.x.val) := ⟨(h p q hp hq).1, same_ulps p1 q1⟩
    have uy : (Scalar.ulpsEq p.y q.y = true ↔ p.y.val = q.y.val) := ⟨(h p q hp hq).2, same_ulps p2 q2⟩
    unfold siteCmp Before
    rw [pcmp_val p1 q1, pcmp_val p2 q2]
    by_cases hy : p.y.val = q.y.val
    · rw [if_pos (uy.2 hy)]
      by_cases hx : p.x.val = q.x.val
      · rw [if_pos (ux.2 hx)]
        simp [hx, hy]
      · rw [if_neg (fun c => hx (ux.1 c)), Option.some.injEq, compare_lt_iff_lt]
        simp [hy]
    · rw [if_neg (fun c => hy (uy.1 c)), Option.some.injEq, compare_lt_iff_lt]
      simp [hy]
  intro a b c ha hb hc hab hbc
  rw [key a b ha hb] at hab
  rw [key b c hb hc] at hbc
  rw [key a c ha hc]
  rcases hab with h | ⟨h, h'⟩ <;> rcases hbc with g | ⟨g, g'⟩
  · exact Or.inl (h.trans g)
  · exact Or.inl (g ▸ h)
  · exact Or.inl (h ▸ g)
  · exact Or.inr ⟨h.trans g, h'.trans g'⟩

/-- the edges of an indexed line set -/
def edgeLines (vs : List (V2 (Flt f))) (edges : List (Nat × Nat)) : List (Line2 (Flt f)) :=
  edges.filterMap (fun e => do
    let a ← vs[e.1]?
    let b ← vs[e.2]?
    some ⟨a, b⟩)

theorem edgeLines_eq (vs : List (V2 (Flt f))) (z : V2 (Flt f)) (edges : List (Nat × Nat))
    (hin : ∀ e ∈ edges, e.1 < vs.length ∧ e.2 < vs.length) : edgeLines vs edges = edges.map (lineOf vs z) := by
  unfold edgeLines
  rw [← List.filterMap_eq_map]
  refine List.filterMap_congr ?_
  intro e he
  obtain ⟨h1, h2⟩ := hin e he
  simp [lineOf, h1, h2]

theorem indexed_overflow {L : List (Line2 (Flt f))} (h : Overflow L) : MeetsAtInfinity L := by
  obtain ⟨l, hl, m, hm, i, h1, h2⟩ := h
  exact ⟨l, hl, m, hm, l, m, Or.inl rfl, Or.inl rfl, i, h1, h2⟩

/-- C79: `C79_sweep_on_any_floats` for the indexed version; the positions are rows of the (extended) vertex table. -/
theorem C79_indexed_sweep_on_any_floats [TreeShape (Flt f)] (vs : List (V2 (Flt f))) (edges : List (Nat × Nat))
    (hin : ∀ e ∈ edges, e.1 < vs.length ∧ e.2 < vs.length)
    (hfin : ∀ l ∈ edgeLines vs edges, FiniteV2 l.start ∧ FiniteV2 l.end)
    {order : Nat → List Nat → List Nat} (hord : ∀ n l, (order n l).Perm l) (ign stop : Bool) (fuel : Nat) :
    (∀ tab r, indexedSweepIntersections order fuel ign stop vs edges = .ok (tab, r) → vs <+: tab ∧
      ∀ x ∈ r, ∃ p, tab[x.1]? = some p ∧ FiniteV2 p ∧ (stop = true → 2 ≤ x.2.length) ∧ x.2.Pairwise (· ≤ ·) ∧ ∀ i ∈ x.2, i < edges.length) ∧
    (indexedSweepIntersections order fuel ign stop vs edges = .error .invalid → MeetsAtInfinity (edgeLines vs edges)) := by
  have z : V2 (Flt f) := ⟨Scalar.zero, Scalar.zero⟩
  rw [edgeLines_eq vs z edges hin] at hfin ⊢
  rcases indexed_raw vs z edges hin (flt_laws (R := Rely.none (Flt f)) hfin (none_K _)) hord ign stop fuel (fun h => h.elim) with
    ⟨-, e, h1, h2⟩ | ⟨h1, h2⟩ | ⟨tab, r, h1, h0, h2⟩
  · rw [h1]
    refine ⟨fun _ r h => (nomatch h), fun h => ?_⟩
    cases h
    exact absurd rfl h2
  · rw [h1]
    exact ⟨fun _ r h => (nomatch h), fun _ => indexed_overflow h2⟩
  · rw [h1]
    refine ⟨fun _ r' h => ?_, fun h => (nomatch h)⟩
    cases h
    refine ⟨h0, fun x hx => ?_⟩
    obtain ⟨p, g0, g1, g2, g3, g4⟩ := h2 x hx
    refine ⟨p, g0, g1, fun h => g2 (Or.inr h), g3, fun i hi => ?_⟩
    obtain ⟨l, hl, -⟩ := g4 i hi
    exact (List.getElem?_eq_some_iff.1 hl).1

/-- C79: `C79_sweep_stops_on_any_floats` for the indexed version. -/
theorem C79_indexed_sweep_stops_on_any_floats [TreeShape (Flt f)] (vs : List (V2 (Flt f))) (edges : List (Nat × Nat))
    (hin : ∀ e ∈ edges, e.1 < vs.length ∧ e.2 < vs.length)
    (hfin : ∀ l ∈ edgeLines vs edges, FiniteV2 l.start ∧ FiniteV2 l.end) (hdep : Dependable (edgeLines vs edges))
    {order : Nat → List Nat → List Nat} (hord : ∀ n l, (order n l).Perm l) (ign stop : Bool) (fuel : Nat)
    (hfuel : enough edges.length < fuel) :
    (indexedSweepIntersections order fuel ign stop vs edges = .error .invalid ∧ MeetsAtInfinity (edgeLines vs edges)) ∨
    ∃ tab r, indexedSweepIntersections order fuel ign stop vs edges = .ok (tab, r) ∧ vs <+: tab ∧
      ∀ x ∈ r, ∃ p, tab[x.1]? = some p ∧ FiniteV2 p ∧ 2 ≤ x.2.length ∧ x.2.Pairwise (· ≤ ·) ∧ ∀ i ∈ x.2, i < edges.length := by
  have z : V2 (Flt f) := ⟨Scalar.zero, Scalar.zero⟩
  rw [edgeLines_eq vs z edges hin] at hfin hdep ⊢
  obtain ⟨R, hR, hK⟩ := hdep.rely
  rcases indexed_raw vs z edges hin (flt_laws (R := R) hfin (fun _ => hK)) hord ign stop fuel (fun _ => hfuel) with
    ⟨h0, -⟩ | ⟨h1, h2⟩ | ⟨tab, r, h1, h0, h2⟩
  · exact absurd hR h0
  · exact Or.inl ⟨h1, indexed_overflow h2⟩
  · refine Or.inr ⟨tab, r, h1, h0, fun x hx => ?_⟩
    obtain ⟨p, g0, g1, g2, g3, g4⟩ := h2 x hx
    refine ⟨p, g0, g1, g2 (Or.inl hR), g3, fun i hi => ?_⟩
    obtain ⟨l, hl, -⟩ := g4 i hi
    exact (List.getElem?_eq_some_iff.1 hl).1

/-! ### On a grid -/

/-- The error bound of the positions the sweep line reports: `64` times the largest coordinate plus `6`, times
`2^-prec`.  (For integers up to 2^23 in `f64` that is about 2^-24.) -/
noncomputable def sweepError (f : Fmt) (s B : ℤ) : ℝ := (64 * (B * 2 ^ s) + 6) * 2 ^ (-(f.prec : ℤ))

/-- The same if the search trees cannot be relied on: `80` instead of `64`, `9` instead of `6`. -/
noncomputable def looseError (f : Fmt) (s B : ℤ) : ℝ := (80 * (B * 2 ^ s) + 9) * 2 ^ (-(f.prec : ℤ))

/-- the error of merging two positions -/
noncomputable def mergeError (f : Fmt) (s B : ℤ) : ℝ := (16 * (B * 2 ^ s) + 3) * 2 ^ (-(f.prec : ℤ))

theorem prec_small {s B : ℤ} (G : GoodGrid f s B) (hB : 1 ≤ B) : (2 : ℝ) ^ (-(f.prec : ℤ)) ≤ 1 / 128 ∧ pow2 (-(f.prec : ℤ)) ≤ 1 / 64 := by
  obtain ⟨g1, g2, g3, g4, g5⟩ := grid_facts G hB
  refine ⟨?_, g5⟩
  have hB' : (1 : ℚ) ≤ B := by exact_mod_cast hB
  have h1 : (64 : ℚ) < 2 ^ f.prec := by nlinarith
  have h2 : 6 < f.prec := by
    by_contra hc
    have : (2 : ℚ) ^ f.prec ≤ 2 ^ 6 := pow_le_pow_right₀ (by norm_num) (by omega)
    norm_num at this
    linarith
  rw [zpow_neg, zpow_natCast]
  have : (2 : ℝ) ^ 7 ≤ 2 ^ f.prec := pow_le_pow_right₀ (by norm_num) h2
  have h3 : ((2 : ℝ) ^ f.prec)⁻¹ ≤ (2 ^ 7)⁻¹ := inv_anti₀ (by positivity) this
  norm_num at h3 ⊢
  exact h3

/-- merging two positions moves them by little -/
theorem merge_near {s B : ℤ} (G : GoodGrid f s B) (hB : 1 ≤ B) {p k : V2 (Flt f)} {q : V2 ℝ} {δ : ℝ}
    (hq : |q.x| ≤ B * 2 ^ s ∧ |q.y| ≤ B * 2 ^ s) (hδ : δ ≤ gridError f s B + 2 * mergeError f s B)
    (hp : Within δ p q) (hk : FiniteV2 k) (h : siteCmp p k = some .eq) : Within (δ + mergeError f s B) k q := by
  obtain ⟨e1, e2⟩ := prec_small G hB
  have hB' : (1 : ℝ) ≤ B := by exact_mod_cast hB
  have hu : (0 : ℝ) < 2 ^ s := by positivity
  have hε : (0 : ℝ) < 2 ^ (-(f.prec : ℤ)) := by positivity
  have cε : ((pow2 (-(f.prec : ℤ)) : ℚ) : ℝ) = 2 ^ (-(f.prec : ℤ)) := by rw [pow2_eq]; push_cast; rfl
  have cs : ((pow2 s : ℚ) : ℝ) = 2 ^ s := by rw [pow2_eq]; push_cast; rfl
  have hBu : (0 : ℝ) < B * 2 ^ s := mul_pos (by linarith) hu
  have hδ' : δ ≤ 1 / 2 * (B * 2 ^ s) + 6 * 2 ^ (-(f.prec : ℤ)) := by
    unfold gridError mergeError at hδ
    have := mul_le_mul_of_nonneg_left e1 hBu.le
    linarith
  have eqs : Flt.ulpsEq p.y k.y = true ∧ Flt.ulpsEq p.x k.x = true := by
    have n : ∀ {a b : Flt f}, a.isFin = true → b.isFin = true → Flt.ulpsEq a b = false → Scalar.pcmp a b ≠ some .eq := by
      intro a b ha hb hne he
      have h1 : Scalar.le a b = decide (a.val ≤ b.val) := is_le (is_self ha) (is_self hb)
      have h2 : Scalar.le b a = decide (b.val ≤ a.val) := is_le (is_self hb) (is_self ha)
      unfold Scalar.pcmp Scalar.ge at he
      rw [h1, h2] at he
      rcases lt_trichotomy a.val b.val with h | h | h
      · simp [h.le, not_le.2 h] at he
      · rw [same_ulps ha hb h] at hne
        exact absurd hne.symm Bool.false_ne_true
      · simp [h.le, not_le.2 h] at he
    have h : (if Flt.ulpsEq p.y k.y = true then if Flt.ulpsEq p.x k.x = true then some Ordering.eq else Scalar.pcmp p.x k.x
      else Scalar.pcmp p.y k.y) = some .eq := h
    by_cases hy : Flt.ulpsEq p.y k.y = true
    · rw [if_pos hy] at h
      by_cases hx : Flt.ulpsEq p.x k.x = true
      · exact ⟨hy, hx⟩
      · rw [if_neg hx] at h
        exact absurd h (n hp.1 hk.1 (Bool.eq_false_iff.2 hx))
    · rw [if_neg hy] at h
      exact absurd h (n hp.2.1 hk.2 (Bool.eq_false_iff.2 hy))
  have one : ∀ {a b : Flt f} {z : ℝ}, a.isFin = true → b.isFin = true → |(a.val : ℝ) - z| ≤ δ → |z| ≤ B * 2 ^ s →
      Flt.ulpsEq a b = true → |(b.val : ℝ) - z| ≤ δ + mergeError f s B := by
    intro a b z ha hb h1 h2 h3
    have hM : |a.val| ≤ 3 / 2 * (B * pow2 s) + 6 * pow2 (-(f.prec : ℤ)) := by
      have : |(a.val : ℝ)| ≤ 3 / 2 * (B * 2 ^ s) + 6 * 2 ^ (-(f.prec : ℤ)) := by
        have := abs_sub_abs_le_abs_sub (a.val : ℝ) z
        linarith
      rw [← cε, ← cs] at this
      rw [← Rat.cast_le (K := ℝ)]
      push_cast
      exact this
    have hM2 : pow2 (f.emin + f.prec - 1) ≤ 3 / 2 * (B * pow2 s) + 6 * pow2 (-(f.prec : ℤ)) := by
      have h4 : pow2 (f.emin + f.prec - 1) ≤ pow2 s := pow2_le (by
        have := G.coarse; have := f.hemin; have := f.hprec; omega)
      have h5 := pow2_pos s
      have h6 := pow2_pos (-(f.prec : ℤ))
      have hBq : (1 : ℚ) ≤ B := by exact_mod_cast hB
      have := mul_le_mul_of_nonneg_right hBq h5.le
      linarith
    have h4 := Proofs.FloatUlps.ulps_diff (is_self ha) (is_self hb) hM hM2 e2 h3
    have h5 : |(a.val : ℝ) - b.val| ≤ 2 ^ (-(f.prec : ℤ)) * (21 / 10 + 92 / 10 * (3 / 2 * (B * 2 ^ s) + 6 * 2 ^ (-(f.prec : ℤ)))) := by
      rw [← cε, ← cs]
      have := (Rat.cast_le (K := ℝ)).2 h4
      push_cast at this
      exact this
    have h6 : |(b.val : ℝ) - z| ≤ |(a.val : ℝ) - z| + |(a.val : ℝ) - b.val| := by
      rw [show (b.val : ℝ) - z = ((a.val : ℝ) - z) - ((a.val : ℝ) - b.val) by ring]
      exact abs_sub _ _
    refine h6.trans (add_le_add h1 (h5.trans ?_))
    unfold mergeError
    have h7 := mul_le_mul_of_nonneg_left e1 hε.le
    have h8 := mul_pos hBu hε
    nlinarith
  exact ⟨hk.1, hk.2, one hp.1 hk.1 hp.2.2.1 hq.1 eqs.2, one hp.2.1 hk.2 hp.2.2.2 hq.2 eqs.1⟩

/-- `p` is within `δ` (in each coordinate) of a point of the line, which is on the grid -/
def NearLine (s B : ℤ) (δ : ℝ) (l : Line2 (Flt f)) (p : V2 (Flt f)) : Prop :=
  OnGrid s B l.start ∧ OnGrid s B l.end ∧ ∃ q, OnSegment2 (exactR l.start) (exactR l.end) q ∧ Within δ p q

theorem grid_bound {s B : ℤ} {p : V2 (Flt f)} (h : OnGrid s B p) : |(exactR p).x| ≤ B * 2 ^ s ∧ |(exactR p).y| ≤ B * 2 ^ s := by
  obtain ⟨-, -, k, l, h1, h2, h3, h4⟩ := h
  have hu : (0 : ℝ) < 2 ^ s := by positivity
  simp only [exactR, h1, h2]
  push_cast
  rw [abs_mul, abs_mul, abs_of_pos hu]
  constructor
  · exact mul_le_mul_of_nonneg_right (by exact_mod_cast h3) hu.le
  · exact mul_le_mul_of_nonneg_right (by exact_mod_cast h4) hu.le

theorem seg_bound {s B : ℤ} {a b : V2 (Flt f)} (ha : OnGrid s B a) (hb : OnGrid s B b) {q : V2 ℝ}
    (h : OnSegment2 (exactR a) (exactR b) q) : |q.x| ≤ B * 2 ^ s ∧ |q.y| ≤ B * 2 ^ s := by
  obtain ⟨h1, h2, h3, h4⟩ := Proofs.Intersect.onSeg_bounds h
  obtain ⟨a1, a2⟩ := grid_bound ha
  obtain ⟨b1, b2⟩ := grid_bound hb
  rw [abs_le] at a1 a2 b1 b2
  rw [abs_le, abs_le]
  constructor
  · exact ⟨le_trans (le_min a1.1 b1.1) h1, h2.trans (max_le a1.2 b1.2)⟩
  · exact ⟨le_trans (le_min a2.1 b2.1) h3, h4.trans (max_le a2.2 b2.2)⟩

theorem Within.mono {δ δ' : ℝ} {p : V2 (Flt f)} {q : V2 ℝ} (h : Within δ p q) (hd : δ ≤ δ') : Within δ' p q :=
  ⟨h.1, h.2.1, h.2.2.1.trans hd, h.2.2.2.trans hd⟩

theorem merge_nonneg {s B : ℤ} (hB : 1 ≤ B) : 0 ≤ mergeError f s B ∧ 0 ≤ gridError f s B := by
  have hB' : (0 : ℝ) ≤ B := by exact_mod_cast (by omega : (0 : ℤ) ≤ B)
  constructor
  · unfold mergeError; positivity
  · unfold gridError; positivity

theorem near_merge {s B : ℤ} (G : GoodGrid f s B) (hB : 1 ≤ B) {δ : ℝ} (hδ : δ ≤ gridError f s B + 2 * mergeError f s B)
    (l : Line2 (Flt f)) (p k : V2 (Flt f)) (hp : FiniteV2 p) (hk : FiniteV2 k) (h : siteCmp p k = some .eq)
    (hn : NearLine s B δ l p) : NearLine s B (δ + mergeError f s B) l k := by
  obtain ⟨h1, h2, q, h3, h4⟩ := hn
  exact ⟨h1, h2, q, h3, merge_near G hB (seg_bound h1 h2 h3) hδ h4 hk h⟩

/-- the computed intersection of two lines is near both -/
theorem meet_near {s B : ℤ} (G : GoodGrid f s B) (hB : 1 ≤ B) {l m : Line2 (Flt f)} (hl : OnGrid s B l.start ∧ OnGrid s B l.end)
    (hm : OnGrid s B m.start ∧ OnGrid s B m.end)
    (hok : exact l.start ≠ exact l.end ∧ exact m.start ≠ exact m.end ∨ 0 ≤ s ∧ 1024 * B ^ 4 ≤ 2 ^ f.prec)
    {i : Intersection (Flt f)} (hi : l.intersectionPoint m = some i) :
    NearLine s B (gridError f s B) l i.single ∧ NearLine s B (gridError f s B) m i.single := by
  obtain ⟨a, b⟩ := l
  obtain ⟨c, d⟩ := m
  simp only at hl hm hok
  obtain ⟨ha, hb⟩ := hl
  obtain ⟨hc, hd⟩ := hm
  have hg := (merge_nonneg (f := f) (s := s) hB).2
  have ec : ∀ q : V2 (Flt f), exactR q = castV (exact q) := fun _ => rfl
  have self : ∀ {p : V2 (Flt f)}, OnGrid s B p → Within (gridError f s B) p (exactR p) := by
    intro p hp
    exact ⟨hp.1, hp.2.1, by simpa using hg, by simpa using hg⟩
  by_cases hab : exact a = exact b
  · have hsm : 0 ≤ s ∧ 1024 * B ^ 4 ≤ 2 ^ f.prec := hok.resolve_left (fun h => h.1 hab)
    have e : (Line2.mk a b).intersectionPoint ⟨c, d⟩ = intersectLinePoint ⟨c, d⟩ a := by
      unfold Line2.intersectionPoint
      simp only
      rw [grid_point_ulps G ha hb, decide_eq_true hab, if_pos rfl]
    rw [e] at hi
    have hon : OnSegment2 (exactR c) (exactR d) (exactR a) := by
      by_contra hn
      rw [(C78_exact_on_small_grids G hsm.1 hsm.2 hc hd ha).2 hn] at hi
      exact (nomatch hi)
    rw [(C78_exact_on_small_grids G hsm.1 hsm.2 hc hd ha).1 hon] at hi
    cases hi
    exact ⟨⟨ha, hb, _, Proofs.Intersect.onSeg_start _ _, self ha⟩, ⟨hc, hd, _, hon, self ha⟩⟩
  by_cases hcd : exact c = exact d
  · have hsm : 0 ≤ s ∧ 1024 * B ^ 4 ≤ 2 ^ f.prec := hok.resolve_left (fun h => h.2 hcd)
    have e : (Line2.mk a b).intersectionPoint ⟨c, d⟩ = intersectLinePoint ⟨a, b⟩ c := by
      unfold Line2.intersectionPoint
      simp only
      rw [grid_point_ulps G ha hb, decide_eq_false hab, if_neg Bool.false_ne_true,
        grid_point_ulps G hc hd, decide_eq_true hcd, if_pos rfl]
    rw [e] at hi
    have hon : OnSegment2 (exactR a) (exactR b) (exactR c) := by
      by_contra hn
      rw [(C78_exact_on_small_grids G hsm.1 hsm.2 ha hb hc).2 hn] at hi
      exact (nomatch hi)
    rw [(C78_exact_on_small_grids G hsm.1 hsm.2 ha hb hc).1 hon] at hi
    cases hi
    exact ⟨⟨ha, hb, _, hon, self hc⟩, ⟨hc, hd, _, Proofs.Intersect.onSeg_start _ _, self hc⟩⟩
  have h := C77_intersection_on_floats G ha hb hc hd hab hcd
  rw [hi] at h
  match i, h with
  | .point p, h =>
    obtain ⟨q, h1, h2⟩ := h
    have h3 := (h2 q).2 rfl
    exact ⟨⟨ha, hb, q, h3.1, h1⟩, ⟨hc, hd, q, h3.2, h1⟩⟩
  | .overlap o, h =>
    obtain ⟨q0, q1, -, h1, -, h2⟩ := h
    have h3 := (h2 q0).2 (Proofs.Intersect.onSeg_start _ _)
    exact ⟨⟨ha, hb, q0, h3.1, h1⟩, ⟨hc, hd, q0, h3.2, h1⟩⟩

/-- on a grid the computed intersections are finite -/
theorem meet_finite {s B : ℤ} (G : GoodGrid f s B) {l m : Line2 (Flt f)} (hl : OnGrid s B l.start ∧ OnGrid s B l.end)
    (hm : OnGrid s B m.start ∧ OnGrid s B m.end)
    {i : Intersection (Flt f)} (hi : l.intersectionPoint m = some i) : FiniteV2 i.single := by
  obtain ⟨a, b⟩ := l
  obtain ⟨c, d⟩ := m
  simp only at hl hm
  obtain ⟨ha, hb⟩ := hl
  obtain ⟨hc, hd⟩ := hm
  by_cases hab : exact a = exact b
  · have e : (Line2.mk a b).intersectionPoint ⟨c, d⟩ = intersectLinePoint ⟨c, d⟩ a := by
      unfold Line2.intersectionPoint
      simp only
      rw [grid_point_ulps G ha hb, decide_eq_true hab, if_pos rfl]
    rw [e] at hi
    rw [((line_point G hc hd ha).2 i hi).1]
    exact ⟨ha.1, ha.2.1⟩
  by_cases hcd : exact c = exact d
  · have e : (Line2.mk a b).intersectionPoint ⟨c, d⟩ = intersectLinePoint ⟨a, b⟩ c := by
      unfold Line2.intersectionPoint
      simp only
      rw [grid_point_ulps G ha hb, decide_eq_false hab, if_neg Bool.false_ne_true,
        grid_point_ulps G hc hd, decide_eq_true hcd, if_pos rfl]
    rw [e] at hi
    rw [((line_point G ha hb hc).2 i hi).1]
    exact ⟨hc.1, hc.2.1⟩
  have h := C77_intersection_on_floats G ha hb hc hd hab hcd
  rw [hi] at h
  match i, h with
  | .point p, h =>
    obtain ⟨q, h1, h2⟩ := h
    exact ⟨h1.1, h1.2.1⟩
  | .overlap o, h =>
    obtain ⟨q0, q1, -, h1, -, h2⟩ := h
    exact ⟨h1.1, h1.2.1⟩

/-- all lines are proper, or the grid is small -/
def ProperOrSmall (f : Fmt) (s B : ℤ) (lines : List (Line2 (Flt f))) : Prop :=
  (∀ l ∈ lines, exact l.start ≠ exact l.end) ∨ 0 ≤ s ∧ 1024 * B ^ 4 ≤ 2 ^ f.prec

theorem near_mono {s B : ℤ} {δ δ' : ℝ} (h : δ ≤ δ') (l : Line2 (Flt f)) (p : V2 (Flt f)) (hn : NearLine s B δ l p) : NearLine s B δ' l p := by
  obtain ⟨h1, h2, q, h3, h4⟩ := hn
  exact ⟨h1, h2, q, h3, Within.mono h4 h⟩

theorem grid_near {s B : ℤ} (G : GoodGrid f s B) (hB : 1 ≤ B) {L : List (Line2 (Flt f))}
    (hL : ∀ l ∈ L, OnGrid s B l.start ∧ OnGrid s B l.end) (hok : ProperOrSmall f s B L) :
    (∀ l ∈ L, FiniteV2 l.start ∧ FiniteV2 l.end) ∧
    (∀ l ∈ L, NearLine s B (gridError f s B) l l.start ∧ NearLine s B (gridError f s B) l l.end) ∧
    (∀ l ∈ L, ∀ m ∈ L, ∀ i, l.intersectionPoint m = some i → FiniteV2 i.single →
      NearLine s B (gridError f s B) l i.single ∧ NearLine s B (gridError f s B) m i.single) := by
  obtain ⟨hm, hg⟩ := merge_nonneg (f := f) (s := s) hB
  refine ⟨fun l hl => ⟨⟨(hL l hl).1.1, (hL l hl).1.2.1⟩, ⟨(hL l hl).2.1, (hL l hl).2.2.1⟩⟩, ?_, ?_⟩
  · intro l hl
    obtain ⟨h1, h2⟩ := hL l hl
    exact ⟨⟨h1, h2, _, Proofs.Intersect.onSeg_start _ _, h1.1, h1.2.1, by simpa using hg, by simpa using hg⟩,
      ⟨h1, h2, _, Proofs.Intersect.onSeg_end _ _, h2.1, h2.2.1, by simpa using hg, by simpa using hg⟩⟩
  · intro l hl m hm i hi _
    refine meet_near G hB (hL l hl) (hL m hm) ?_ hi
    rcases hok with h | h
    · exact Or.inl ⟨h l hl, h m hm⟩
    · exact Or.inr h

/-- if the trees can be relied on -/
theorem grid_laws [TreeShape (Flt f)] {R : Rely (Flt f)} (hR : R.holds) {s B : ℤ} (G : GoodGrid f s B) (hB : 1 ≤ B) {L : List (Line2 (Flt f))}
    (hL : ∀ l ∈ L, OnGrid s B l.start ∧ OnGrid s B l.end) (hok : ProperOrSmall f s B L) (hK : ∀ p, SweepPoint L p → R.K p) :
    Laws R L Before (NearLine s B (gridError f s B)) (NearLine s B (gridError f s B + mergeError f s B))
      (NearLine s B (gridError f s B + mergeError f s B)) (NearLine s B (sweepError f s B)) := by
  obtain ⟨h1, h2, h3⟩ := grid_near G hB hL hok
  obtain ⟨hm, hg⟩ := merge_nonneg (f := f) (s := s) hB
  have e : sweepError f s B = gridError f s B + mergeError f s B + mergeError f s B := by
    unfold sweepError gridError mergeError; ring
  refine base_laws h1 (fun _ => hK) (near_mono (by linarith)) (near_merge G hB (by linarith)) (fun _ _ h => h) (fun h => absurd hR h)
    (near_mono (by linarith)) ?_ h2 h3
  rw [e]; exact near_merge G hB (by linarith)

/-- in any case -/
theorem loose_laws [TreeShape (Flt f)] {s B : ℤ} (G : GoodGrid f s B) (hB : 1 ≤ B) {L : List (Line2 (Flt f))}
    (hL : ∀ l ∈ L, OnGrid s B l.start ∧ OnGrid s B l.end) (hok : ProperOrSmall f s B L) :
    Laws (Rely.none (Flt f)) L Before (NearLine s B (gridError f s B)) (NearLine s B (gridError f s B + mergeError f s B))
      (NearLine s B (sweepError f s B)) (NearLine s B (looseError f s B)) := by
  obtain ⟨h1, h2, h3⟩ := grid_near G hB hL hok
  obtain ⟨hm, hg⟩ := merge_nonneg (f := f) (s := s) hB
  have e : sweepError f s B = gridError f s B + mergeError f s B + mergeError f s B := by
    unfold sweepError gridError mergeError; ring
  have e' : looseError f s B = sweepError f s B + mergeError f s B := by
    unfold looseError sweepError mergeError; ring
  refine base_laws h1 (none_K _) (near_mono (by linarith)) (near_merge G hB (by linarith)) (near_mono (by linarith)) (fun _ => ?_)
    (near_mono (by linarith)) ?_ h2 h3
  · rw [e]; exact near_merge G hB (by linarith)
  · rw [e']; exact near_merge G hB (by linarith)

theorem no_overflow {s B : ℤ} (G : GoodGrid f s B) {L : List (Line2 (Flt f))}
    (hL : ∀ l ∈ L, OnGrid s B l.start ∧ OnGrid s B l.end) : ¬ Overflow L := by
  rintro ⟨l, hl, m, hm, i, h1, h2⟩
  exact h2 (meet_finite G (hL l hl) (hL m hm) h1)

theorem proper_stored {s B : ℤ} {input : List (Line2 (Flt f))} (hok : ProperOrSmall f s B input) : ProperOrSmall f s B (input.map stored) := by
  rcases hok with h | h
  · left
    intro l hl
    obtain ⟨l0, hl0, rfl⟩ := List.mem_map.1 hl
    rcases stored_cases l0 with e | e <;> rw [e]
    · exact h _ hl0
    · exact (h _ hl0).symm
  · exact Or.inr h

theorem near_stored {s B : ℤ} {δ : ℝ} {l : Line2 (Flt f)} {p : V2 (Flt f)} (h : NearLine s B δ (stored l) p) :
    ∃ q, OnSegment2 (exactR l.start) (exactR l.end) q ∧ Within δ p q := by
  obtain ⟨-, -, q, k1, k2⟩ := h
  refine ⟨q, ?_, k2⟩
  rcases stored_cases l with e | e <;> rw [e] at k1
  · exact k1
  · exact Proofs.Intersect.onSeg_symm k1

/-- C79: on a grid, whatever the shapes of the search trees are, the sweep line in floating point does not report
`InvalidData`, and if it returns a result, every line it reports passes the reported position at a distance of at most
`looseError` in each coordinate.  (The lines are proper, or the grid is small.) -/
theorem C79_sweep_on_a_grid [TreeShape (Flt f)] {s B : ℤ} (G : GoodGrid f s B) (hB : 1 ≤ B) (input : List (Line2 (Flt f)))
    (hL : ∀ l ∈ input, OnGrid s B l.start ∧ OnGrid s B l.end) (hok : ProperOrSmall f s B input)
    {order : Nat → List Nat → List Nat} (hord : ∀ n l, (order n l).Perm l) (ign stop : Bool) (fuel : Nat) :
    sweepIntersections order fuel ign stop input ≠ .error .invalid ∧
    ∀ r, sweepIntersections order fuel ign stop input = .ok r → ∀ x ∈ r, (stop = true → 2 ≤ x.2.length) ∧
        ∀ i ∈ x.2, ∃ l, input[i]? = some l ∧
        ∃ q, OnSegment2 (exactR l.start) (exactR l.end) q ∧ Within (looseError f s B) x.1 q := by
  have hL' := stored_mem hL
  rcases plain_raw input (loose_laws G hB hL' (proper_stored hok)) hord ign stop fuel (fun h => h.elim) with
    ⟨-, e, h1, h2⟩ | ⟨-, h2⟩ | ⟨r, h1, h2⟩
  · rw [h1]
    refine ⟨fun h => ?_, fun r h => (nomatch h)⟩
    cases h
    exact absurd rfl h2
  · exact absurd h2 (no_overflow G hL')
  · rw [h1]
    refine ⟨fun h => (nomatch h), fun r' h => ?_⟩
    cases h
    intro x hx
    obtain ⟨g1, g2, g3, g4⟩ := h2 x hx
    refine ⟨fun h => g2 (Or.inr h), fun i hi => ?_⟩
    obtain ⟨l, hl, k⟩ := g4 i hi
    exact ⟨l, hl, near_stored k⟩

/-- C79: on a grid, if the search trees can be relied on, the sweep line in floating point always returns a result, with
at least two lines at every position, which pass it at a distance of at most `sweepError` in each coordinate. -/
theorem C79_sweep_stops_on_a_grid [TreeShape (Flt f)] {s B : ℤ} (G : GoodGrid f s B) (hB : 1 ≤ B) (input : List (Line2 (Flt f)))
    (hL : ∀ l ∈ input, OnGrid s B l.start ∧ OnGrid s B l.end) (hok : ProperOrSmall f s B input) (hdep : Dependable input)
    {order : Nat → List Nat → List Nat} (hord : ∀ n l, (order n l).Perm l) (ign stop : Bool) (fuel : Nat)
    (hfuel : enough input.length < fuel) :
    ∃ r, sweepIntersections order fuel ign stop input = .ok r ∧
      ∀ x ∈ r, 2 ≤ x.2.length ∧ ∀ i ∈ x.2, ∃ l, input[i]? = some l ∧
        ∃ q, OnSegment2 (exactR l.start) (exactR l.end) q ∧ Within (sweepError f s B) x.1 q := by
  have hL' := stored_mem hL
  obtain ⟨R, hR, hK⟩ := hdep.rely
  rcases plain_raw input (grid_laws hR G hB hL' (proper_stored hok) (fun p hp => hK p hp.stored)) hord ign stop fuel (fun _ => hfuel) with
    ⟨h0, -⟩ | ⟨-, h2⟩ | ⟨r, h1, h2⟩
  · exact absurd hR h0
  · exact absurd h2 (no_overflow G hL')
  · refine ⟨r, h1, fun x hx => ?_⟩
    obtain ⟨g1, g2, g3, g4⟩ := h2 x hx
    refine ⟨g2 (Or.inl hR), fun i hi => ?_⟩
    obtain ⟨l, hl, k⟩ := g4 i hi
    exact ⟨l, hl, near_stored k⟩

/-- C79: `C79_sweep_on_a_grid` for the indexed version. -/
theorem C79_indexed_sweep_on_a_grid [TreeShape (Flt f)] {s B : ℤ} (G : GoodGrid f s B) (hB : 1 ≤ B) (vs : List (V2 (Flt f))) (edges : List (Nat × Nat))
    (hin : ∀ e ∈ edges, e.1 < vs.length ∧ e.2 < vs.length)
    (hL : ∀ l ∈ edgeLines vs edges, OnGrid s B l.start ∧ OnGrid s B l.end) (hok : ProperOrSmall f s B (edgeLines vs edges))
    {order : Nat → List Nat → List Nat} (hord : ∀ n l, (order n l).Perm l) (ign stop : Bool) (fuel : Nat) :
    indexedSweepIntersections order fuel ign stop vs edges ≠ .error .invalid ∧
    ∀ tab r, indexedSweepIntersections order fuel ign stop vs edges = .ok (tab, r) → vs <+: tab ∧
      ∀ x ∈ r, ∃ p, tab[x.1]? = some p ∧ (stop = true → 2 ≤ x.2.length) ∧
        ∀ i ∈ x.2, ∃ l, (edgeLines vs edges)[i]? = some l ∧
        ∃ q, OnSegment2 (exactR l.start) (exactR l.end) q ∧ Within (looseError f s B) p q := by
  have z : V2 (Flt f) := ⟨Scalar.zero, Scalar.zero⟩
  rw [edgeLines_eq vs z edges hin] at hL hok ⊢
  rcases indexed_raw vs z edges hin (loose_laws G hB hL hok) hord ign stop fuel (fun h => h.elim) with
    ⟨-, e, h1, h2⟩ | ⟨h1, h2⟩ | ⟨tab, r, h1, h0, h2⟩
  · rw [h1]
    refine ⟨fun h => ?_, fun _ r h => (nomatch h)⟩
    cases h
    exact absurd rfl h2
  · exact absurd h2 (no_overflow G hL)
  · rw [h1]
    refine ⟨fun h => (nomatch h), fun _ r' h => ?_⟩
    cases h
    refine ⟨h0, fun x hx => ?_⟩
    obtain ⟨p, g0, g1, g2, g3, g4⟩ := h2 x hx
    refine ⟨p, g0, fun h => g2 (Or.inr h), fun i hi => ?_⟩
    obtain ⟨e, he, -, -, q, k1, k2⟩ := g4 i hi
    exact ⟨_, by rw [List.getElem?_map, he]; rfl, q, k1, k2⟩

/-- C79: `C79_sweep_stops_on_a_grid` for the indexed version. -/
theorem C79_indexed_sweep_stops_on_a_grid [TreeShape (Flt f)] {s B : ℤ} (G : GoodGrid f s B) (hB : 1 ≤ B) (vs : List (V2 (Flt f))) (edges : List (Nat × Nat))
    (hin : ∀ e ∈ edges, e.1 < vs.length ∧ e.2 < vs.length)
    (hL : ∀ l ∈ edgeLines vs edges, OnGrid s B l.start ∧ OnGrid s B l.end) (hok : ProperOrSmall f s B (edgeLines vs edges))
    (hdep : Dependable (edgeLines vs edges))
    {order : Nat → List Nat → List Nat} (hord : ∀ n l, (order n l).Perm l) (ign stop : Bool) (fuel : Nat)
    (hfuel : enough edges.length < fuel) :
    ∃ tab r, indexedSweepIntersections order fuel ign stop vs edges = .ok (tab, r) ∧ vs <+: tab ∧
      ∀ x ∈ r, ∃ p, tab[x.1]? = some p ∧ 2 ≤ x.2.length ∧
        ∀ i ∈ x.2, ∃ l, (edgeLines vs edges)[i]? = some l ∧
        ∃ q, OnSegment2 (exactR l.start) (exactR l.end) q ∧ Within (sweepError f s B) p q := by
  have z : V2 (Flt f) := ⟨Scalar.zero, Scalar.zero⟩
  rw [edgeLines_eq vs z edges hin] at hL hok hdep ⊢
  obtain ⟨R, hR, hK⟩ := hdep.rely
  rcases indexed_raw vs z edges hin (grid_laws hR G hB hL hok hK) hord ign stop fuel (fun _ => hfuel) with
    ⟨h0, -⟩ | ⟨h1, h2⟩ | ⟨tab, r, h1, h0, h2⟩
  · exact absurd hR h0
  · exact absurd h2 (no_overflow G hL)
  · refine ⟨tab, r, h1, h0, fun x hx => ?_⟩
    obtain ⟨p, g0, g1, g2, g3, g4⟩ := h2 x hx
    refine ⟨p, g0, g2 (Or.inl hR), fun i hi => ?_⟩
    obtain ⟨e, he, -, -, q, k1, k2⟩ := g4 i hi
    exact ⟨_, by rw [List.getElem?_map, he]; rfl, q, k1, k2⟩

theorem window_ends (pts : List (V2 (Flt f))) : ∀ l ∈ windowIter2 pts, l.start ∈ pts ∧ l.end ∈ pts := by
  intro l hl
  unfold windowIter2 at hl
  obtain ⟨w, hw, rfl⟩ := List.mem_map.1 hl
  exact Proofs.Transfer.windows2_mem pts w hw

theorem self_long {order : Nat → List Nat → List Nat} {fuel : Nat} {pts : List (V2 (Flt f))} [TreeShape (Flt f)] :
    isSelfIntersectingLong order fuel pts = (sweepIntersections order fuel true true (windowIter2 pts)).map (fun r => decide (r.length > 0)) := by
  unfold isSelfIntersectingLong
  cases sweepIntersections order fuel true true (windowIter2 pts) <;> rfl

theorem window_count (pts : List (V2 (Flt f))) : (windowIter2 pts).length = pts.length - 1 := by
  rw [windowIter2, List.length_map, Intersect.windows2_length]

/-- C79: `is_self_intersecting` (at least ten points) on floats, whatever the shapes of the search trees are: it reports
`InvalidData` only if two edges have a computed intersection that is not finite. -/
theorem C79_self_intersecting_on_any_floats [TreeShape (Flt f)] (pts : List (V2 (Flt f))) (hfin : ∀ p ∈ pts, FiniteV2 p)
    {order : Nat → List Nat → List Nat} (hord : ∀ n l, (order n l).Perm l) (fuel : Nat)
    (h : isSelfIntersectingLong order fuel pts = .error .invalid) : MeetsAtInfinity (windowIter2 pts) := by
  have hm := window_ends pts
  refine (C79_sweep_on_any_floats (windowIter2 pts) (fun l hl => ⟨hfin _ (hm l hl).1, hfin _ (hm l hl).2⟩) hord true true fuel).2 ?_
  rw [self_long] at h
  cases hs : sweepIntersections order fuel true true (windowIter2 pts) with
  | error e => rw [hs] at h; cases h; rfl
  | ok r => rw [hs] at h; cases h

/-- C79: if the search trees can be relied on, `is_self_intersecting` (at least ten points) stops and answers, or reports
`InvalidData` because two edges have a computed intersection that is not finite. -/
theorem C79_self_intersecting_stops_on_any_floats [TreeShape (Flt f)] (pts : List (V2 (Flt f))) (hfin : ∀ p ∈ pts, FiniteV2 p)
    (hdep : Dependable (windowIter2 pts)) {order : Nat → List Nat → List Nat} (hord : ∀ n l, (order n l).Perm l) (fuel : Nat)
    (hfuel : enough (pts.length - 1) < fuel) :
    (isSelfIntersectingLong order fuel pts = .error .invalid ∧ MeetsAtInfinity (windowIter2 pts)) ∨
    ∃ b, isSelfIntersectingLong order fuel pts = .ok b := by
  have hm := window_ends pts
  rw [self_long]
  rcases C79_sweep_stops_on_any_floats (windowIter2 pts) (fun l hl => ⟨hfin _ (hm l hl).1, hfin _ (hm l hl).2⟩) hdep hord true true fuel
    (by rw [window_count]; exact hfuel) with ⟨h1, h2⟩ | ⟨r, h1, -⟩
  · rw [h1]; exact Or.inl ⟨rfl, h2⟩
  · rw [h1]; exact Or.inr ⟨_, rfl⟩

/-- C79: on a grid, whatever the shapes of the search trees are, the answer `true` of `is_self_intersecting` (for a line
string without repeated points, or on a small grid) means that there is a position near two (numbered) edges, and it is
never `InvalidData`. -/
theorem C79_self_intersecting_on_a_grid [TreeShape (Flt f)] {s B : ℤ} (G : GoodGrid f s B) (hB : 1 ≤ B) (pts : List (V2 (Flt f)))
    (hL : ∀ p ∈ pts, OnGrid s B p) (hok : ProperOrSmall f s B (windowIter2 pts))
    {order : Nat → List Nat → List Nat} (hord : ∀ n l, (order n l).Perm l) (fuel : Nat) :
    isSelfIntersectingLong order fuel pts ≠ .error .invalid ∧
    (isSelfIntersectingLong order fuel pts = .ok true →
      ∃ (p : V2 (Flt f)) (is : List Nat), 2 ≤ is.length ∧ ∀ i ∈ is, ∃ l, (windowIter2 pts)[i]? = some l ∧
        ∃ q, OnSegment2 (exactR l.start) (exactR l.end) q ∧ Within (looseError f s B) p q) := by
  have hm := window_ends pts
  obtain ⟨h1, h2⟩ := C79_sweep_on_a_grid G hB (windowIter2 pts) (fun l hl => ⟨hL _ (hm l hl).1, hL _ (hm l hl).2⟩) hok
    hord true true fuel
  rw [self_long]
  cases hs : sweepIntersections order fuel true true (windowIter2 pts) with
  | error e =>
    rw [hs] at h1
    refine ⟨fun h => ?_, fun h => (nomatch h)⟩
    cases h
    exact h1 rfl
  | ok r =>
    refine ⟨fun h => (nomatch h), fun h => ?_⟩
    have h : decide (r.length > 0) = true := Except.ok.inj h
    obtain ⟨x, r', hr⟩ := List.length_pos_iff_exists_cons.1 (of_decide_eq_true h)
    obtain ⟨k1, k2⟩ := h2 r hs x (hr ▸ List.mem_cons_self)
    exact ⟨x.1, x.2, k1 rfl, k2⟩

/-- C79: on a grid, if the search trees can be relied on, `is_self_intersecting` always answers, and `true` means that
there is a position near two edges. -/
theorem C79_self_intersecting_stops_on_a_grid [TreeShape (Flt f)] {s B : ℤ} (G : GoodGrid f s B) (hB : 1 ≤ B) (pts : List (V2 (Flt f)))
    (hL : ∀ p ∈ pts, OnGrid s B p) (hok : ProperOrSmall f s B (windowIter2 pts)) (hdep : Dependable (windowIter2 pts))
    {order : Nat → List Nat → List Nat} (hord : ∀ n l, (order n l).Perm l) (fuel : Nat)
    (hfuel : enough (pts.length - 1) < fuel) :
    ∃ b, isSelfIntersectingLong order fuel pts = .ok b ∧
      (b = true → ∃ (p : V2 (Flt f)) (is : List Nat), 2 ≤ is.length ∧ ∀ i ∈ is, ∃ l, (windowIter2 pts)[i]? = some l ∧
        ∃ q, OnSegment2 (exactR l.start) (exactR l.end) q ∧ Within (sweepError f s B) p q) := by
  have hm := window_ends pts
  obtain ⟨r, h1, h2⟩ := C79_sweep_stops_on_a_grid G hB (windowIter2 pts) (fun l hl => ⟨hL _ (hm l hl).1, hL _ (hm l hl).2⟩) hok hdep
    hord true true fuel (by rw [window_count]; exact hfuel)
  rw [self_long, h1]
  refine ⟨_, rfl, fun h => ?_⟩
  obtain ⟨x, r', hr⟩ := List.length_pos_iff_exists_cons.1 (of_decide_eq_true h)
  obtain ⟨k1, k2⟩ := h2 x (hr ▸ List.mem_cons_self)
  exact ⟨x.1, x.2, k1, k2⟩

end

/-- C79: finite lines may be refused: the computed intersection of these two doubles is infinite.  (No
arctangent is computed; a dummy stands for it.) -/
theorem C79_finite_lines_may_be_refused : ∃ l m : Line2 F64,
    (∀ p ∈ [l.start, l.end, m.start, m.end], p.x.isFin = true ∧ p.y.isFin = true) ∧
      (let _ : Libm b64 := ⟨fun _ _ => .nan⟩
       let _ : TreeShape F64 := TreeShape.middle F64
       sweepIntersections (fun _ l => l) 1000000 false false [l, m] = .error .invalid) := by
  let big (n : ℤ) (e : ℤ) : F64 := Flt.ofQ false (n * pow2 e)
  let mx := big (2 ^ 53 - 1) 971
  exact ⟨⟨⟨big 3 970, big (-1) 0⟩, ⟨mx, big 0 0⟩⟩, ⟨⟨mx, big (-1) (-1)⟩, ⟨mx, big 1 (-1)⟩⟩, by decide +kernel, by decide +kernel⟩

/-- the hypotheses of the grid theorem are met by two crossing segments of doubles, and something is reported -/
example : (let _ : Libm b64 := ⟨fun _ _ => .nan⟩
    let _ : TreeShape F64 := TreeShape.middle F64
    sweepIntersections (fun _ l => l) 1000000 false false
      [Line2.mk (ipt b64 0 0) (ipt b64 4 4), ⟨ipt b64 0 4, ipt b64 4 0⟩] = .ok [(ipt b64 2 2, [0, 1])]) ∧
    (∀ p ∈ [ipt b64 0 0, ipt b64 4 4, ipt b64 0 4, ipt b64 4 0], OnGrid 0 (2 ^ 23) p) ∧ enough 2 < 1000000 := by
  refine ⟨by decide +kernel, ?_, by decide⟩
  have g : ∀ k l : ℤ, |k| ≤ 4 → |l| ≤ 4 → OnGrid 0 (2 ^ 23) (ipt b64 k l) := fun k l hk hl =>
    (onGrid_ipt goodGrid64 (hk.trans (by norm_num)) (hl.trans (by norm_num))).1
  intro p hp
  simp only [List.mem_cons, List.not_mem_nil, or_false] at hp
  rcases hp with rfl | rfl | rfl | rfl <;> exact g _ _ (by norm_num) (by norm_num)

end Verif.Props
