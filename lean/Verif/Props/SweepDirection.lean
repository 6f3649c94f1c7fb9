import Verif.Props.SweepComplete
import Verif.Props.SweepOrder
/-!
# C60: the direction in which lines and edges are given
-/
namespace Verif.Props
open Verif Verif.Model Verif.Spec Verif.Sweep Scalar
set_option linter.unusedSectionVars false

/-! ## the plain version turns the lines itself -/
section lawless
variable {α : Type} [Scalar α]

/-- the lines of `b` are those of `a`, some of them given from the other end, and all of them with ends that the comparison
of the event queue can tell apart -/
inductive Turned : List (Line2 α) → List (Line2 α) → Prop
  | nil : Turned [] []
  | same (l : Line2 α) {a b : List (Line2 α)} (h : Turned a b) : Turned (l :: a) (l :: b)
  | turn (l : Line2 α) {a b : List (Line2 α)} (hd : siteCmp l.start l.end = some .lt ↔ ¬ siteCmp l.end l.start = some .lt)
      (h : Turned a b) : Turned (l :: a) (⟨l.end, l.start⟩ :: b)

theorem withLinesStep_turn [TreeShape α] (d : SweepData α) (l : Line2 α) (i : Nat)
    (hd : siteCmp l.start l.end = some .lt ↔ ¬ siteCmp l.end l.start = some .lt) :
    withLinesStep d (⟨l.end, l.start⟩, i) = withLinesStep d (l, i) := by
  have hf : finiteEnds l.end l.start = finiteEnds l.start l.end := by
    unfold finiteEnds
    generalize Scalar.isFinite l.start.x = a
    generalize Scalar.isFinite l.start.y = b
    generalize Scalar.isFinite l.end.x = c
    generalize Scalar.isFinite l.end.y = e
    cases a <;> cases b <;> cases c <;> cases e <;> rfl
  unfold withLinesStep
  simp only [hf]
  by_cases h : siteCmp l.start l.end = some .lt
  · have h' := hd.1 h
    simp [h, h']
  · have h' : siteCmp l.end l.start = some .lt := by
      by_contra h'
      exact h (hd.2 h')
    simp [h, h']

theorem withLines_turned [TreeShape α] {a b : List (Line2 α)} (h : Turned a b) : ∀ (k : Nat) (d : SweepData α),
    (b.zipIdx k).foldlM withLinesStep d = (a.zipIdx k).foldlM withLinesStep d := by
  induction h with
  | nil => intro k d; rfl
  | same l h ih =>
    intro k d
    rw [List.zipIdx_cons, List.zipIdx_cons, List.foldlM_cons, List.foldlM_cons]
    congr 1
    funext d
    exact ih _ _
  | turn l hd h ih =>
    intro k d
    rw [List.zipIdx_cons, List.zipIdx_cons, List.foldlM_cons, List.foldlM_cons, withLinesStep_turn d l k hd]
    congr 1
    funext d
    exact ih _ _

/-- **C60**, any arithmetic: the direction in which the lines are given does not matter for the plain version, if the two ends
of every turned line are told apart by the comparison of the event queue. -/
theorem C60_line_direction [TreeShape α] (order : Nat → List Nat → List Nat) (fuel : Nat) (ign stop : Bool)
    (a b : List (Line2 α)) (h : Turned a b) :
    sweepIntersections order fuel ign stop b = sweepIntersections order fuel ign stop a := by
  unfold sweepIntersections withLines
  rw [withLines_turned h]

end lawless

section exact
variable {K : Type} [Scalar K] [Field K] [LinearOrder K] [ExactScalar K]

/-- in exact arithmetic the hypothesis of `C60_line_direction` holds for every line that is not a point -/
theorem ends_apart (l : Line2 K) (h : l.start ≠ l.end) : siteCmp l.start l.end = some .lt ↔ ¬ siteCmp l.end l.start = some .lt := by
  rcases before_total l.start l.end with g | g | g
  · rw [siteCmp_lt g, siteCmp_gt g]; simp
  · exact absurd g h
  · rw [siteCmp_lt g, siteCmp_gt g]; simp

/-- two reports that name the same lines for the same positions are the same -/
theorem report_unique {R R' : List (V2 K × List Nat)} (h1 : R.Pairwise fun a b => SweepBefore a.1 b.1)
    (h1' : R'.Pairwise fun a b => SweepBefore a.1 b.1) (h2 : ∀ x ∈ R, 2 ≤ x.2.length ∧ x.2.Pairwise (· < ·))
    (h2' : ∀ x ∈ R', 2 ≤ x.2.length ∧ x.2.Pairwise (· < ·))
    (h3 : ∀ i j p, i ≠ j → ((∃ x ∈ R, x.1 = p ∧ i ∈ x.2 ∧ j ∈ x.2) ↔ ∃ x ∈ R', x.1 = p ∧ i ∈ x.2 ∧ j ∈ x.2)) : R = R' := by
  have irr : ∀ p : V2 K, ¬ SweepBefore p p := fun p h => by rcases h with h | h; exact lt_irrefl _ h; exact lt_irrefl _ h.2
  have asym : ∀ p q : V2 K, SweepBefore p q → ¬ SweepBefore q p := by
    rintro p q (a | ⟨a, a'⟩) (b | ⟨b, b'⟩)
    · exact lt_asymm a b
    · exact a.ne b.symm
    · exact b.ne a.symm
    · exact lt_asymm a' b'
  have uniq : ∀ {R : List (V2 K × List Nat)}, (R.Pairwise fun a b => SweepBefore a.1 b.1) → ∀ x ∈ R, ∀ y ∈ R, x.1 = y.1 → x = y := by
    intro R hR x hx y hy e
    obtain ⟨i, hi, rfl⟩ := List.mem_iff_getElem.1 hx
    obtain ⟨j, hj, rfl⟩ := List.mem_iff_getElem.1 hy
    rw [List.pairwise_iff_getElem] at hR
    rcases Nat.lt_trichotomy i j with h | h | h
    · have := hR i j hi hj h
      rw [e] at this
      exact absurd this (irr _)
    · subst h; rfl
    · have := hR j i hj hi h
      rw [e] at this
      exact absurd this (irr _)
  have other : ∀ l : List Nat, 2 ≤ l.length → l.Pairwise (· < ·) → ∀ k, ∃ m ∈ l, m ≠ k := by
    intro l hl hs k
    match l, hl, hs with
    | a :: b :: t, _, hs =>
      have hab : a < b := (List.pairwise_cons.1 hs).1 b (by simp)
      by_cases e : a = k
      · exact ⟨b, by simp, by omega⟩
      · exact ⟨a, by simp, e⟩
  have sub : ∀ {R R' : List (V2 K × List Nat)}, (R'.Pairwise fun a b => SweepBefore a.1 b.1) →
      (R.Pairwise fun a b => SweepBefore a.1 b.1) → (∀ x ∈ R, 2 ≤ x.2.length ∧ x.2.Pairwise (· < ·)) →
      (∀ x ∈ R', 2 ≤ x.2.length ∧ x.2.Pairwise (· < ·)) →
      (∀ i j p, i ≠ j → ((∃ x ∈ R, x.1 = p ∧ i ∈ x.2 ∧ j ∈ x.2) ↔ ∃ x ∈ R', x.1 = p ∧ i ∈ x.2 ∧ j ∈ x.2)) →
      ∀ x ∈ R, x ∈ R' := by
    intro R R' g1' g1 g2 g2' g3 x hx
    obtain ⟨l2, ls⟩ := g2 x hx
    obtain ⟨m, hm, -⟩ := other x.2 l2 ls 0
    obtain ⟨n, hn, hmn⟩ := other x.2 l2 ls m
    obtain ⟨y, hy, hp, hym, hyn⟩ := (g3 n m x.1 hmn).1 ⟨x, hx, rfl, hn, hm⟩
    have hmem : ∀ k, k ∈ x.2 ↔ k ∈ y.2 := by
      intro k
      constructor
      · intro hk
        obtain ⟨o, ho, hko⟩ := other x.2 l2 ls k
        obtain ⟨z, hz, hzp, -, hzk⟩ := (g3 o k x.1 hko).1 ⟨x, hx, rfl, ho, hk⟩
        rwa [uniq g1' z hz y hy (hzp.trans hp.symm)] at hzk
      · intro hk
        obtain ⟨o, ho, hko⟩ := other y.2 (g2' y hy).1 (g2' y hy).2 k
        obtain ⟨z, hz, hzp, -, hzk⟩ := (g3 o k x.1 hko).2 ⟨y, hy, hp, ho, hk⟩
        rwa [uniq g1 z hz x hx hzp] at hzk
    have e2 : x.2 = y.2 := by
      have nd : ∀ {l : List Nat}, l.Pairwise (· < ·) → l.Nodup := fun h => h.imp (fun h => Nat.ne_of_lt h)
      exact ((List.perm_ext_iff_of_nodup (nd ls) (nd (g2' y hy).2)).2 hmem).eq_of_pairwise
        (fun a b _ _ h h' => absurd h (Nat.lt_asymm h')) ls (g2' y hy).2
    have : x = y := Prod.ext hp.symm e2
    rw [this]; exact hy
  have nd : ∀ {R : List (V2 K × List Nat)}, (R.Pairwise fun a b => SweepBefore a.1 b.1) → R.Nodup :=
    fun h => h.imp (fun {a b} hab (e : a = b) => irr b.1 (e ▸ hab))
  exact ((List.perm_ext_iff_of_nodup (nd h1) (nd h1')).2 fun x => ⟨sub h1' h1 h2 h2' h3 x,
    sub h1 h1' h2' h2 (fun i j p hij => (h3 i j p hij).symm) x⟩).eq_of_pairwise (fun a b _ _ h h' => absurd h' (asym _ _ h)) h1 h1'

variable [ExactSqrt K]

theorem plainResult_facts {ι : Type} {L : List (Line2 K)} (gp : SweepPosition L) {ign stop : Bool} {H : SiteMap K ι SiteEvent}
    {r : SiteMap K ι (List Nat)} (hf : Final L ign stop H r) :
    (plainResult r).Pairwise (fun a b => SweepBefore a.1 b.1) ∧ ∀ x ∈ plainResult r, 2 ≤ x.2.length ∧ x.2.Pairwise (· < ·) := by
  refine ⟨List.pairwise_map.2 hf.sorted, fun x hx => ?_⟩
  obtain ⟨y, hy, rfl⟩ := List.mem_map.1 hx
  obtain ⟨-, g2, g3, g4, -⟩ := hf.entry hy
  refine ⟨g2, ?_⟩
  have hnd := g4 (fun i _ l hl e => gp.slanted l (List.mem_of_getElem? hl) (by rw [e]))
  exact List.Pairwise.imp₂ (fun a b h1 h2 => lt_of_le_of_ne h1 h2) g3 hnd

/-- **C60** in general position (lines may also end inside of others) the plain and the indexed version give the same result whatever the direction of the edges
(`ignore_end_point_intersections` on or off). -/
theorem C60_edge_direction (B B' : TreeShape K) (order order' : Nat → List Nat → List Nat) (hord : ∀ n l, (order n l).Perm l)
    (hord' : ∀ n l, (order' n l).Perm l) (ign : Bool) (vs : List (V2 K)) (edges : List (Nat × Nat)) (input : List (Line2 K))
    (hL : EdgeLines vs edges input) (gp : SweepPosition input) (fuel fuel' : Nat)
    (hf : 2 * edges.length + edges.length * edges.length < fuel)
    (hf' : 2 * edges.length + edges.length * edges.length < fuel') :
    ∃ tab r r', (haveI := B; indexedSweepIntersections order fuel ign false vs edges = .ok (tab, r)) ∧
      (haveI := B'; sweepIntersections order' fuel' ign false input = .ok r') ∧ placed tab r = r'.map (fun x => (some x.1, x.2)) := by
  have hlen := hL.1
  obtain ⟨hE, hLe⟩ := hL.ok
  have gp2 := gp
  rw [hLe] at gp2
  obtain ⟨tab, r, H, h1, -, h3, h4, h5⟩ := haveI := B; indexed_complete order hord ign false vs ⟨0, 0⟩ edges hE gp2 fuel hf
  obtain ⟨r', H', k1, k2, k3⟩ := haveI := B'; plain_complete order' hord' ign false input (sp_rearranged gp) fuel' (by rw [hlen]; exact hf')
  refine ⟨tab, _, plainResult r', h1, k1, ?_⟩
  rw [placed_eq h3]
  rw [← hLe] at h4 h5
  congr 1
  obtain ⟨a1, a2⟩ := plainResult_facts gp h4
  obtain ⟨b1, b2⟩ := plainResult_facts (sp_rearranged gp) k2
  refine report_unique a1 b1 a2 b2 fun i j p hij => ?_
  have flat : ∀ {ι : Type} (r : SiteMap K ι (List Nat)), (∃ x ∈ plainResult r, x.1 = p ∧ i ∈ x.2 ∧ j ∈ x.2) ↔
      ∃ x ∈ r, x.1.1 = p ∧ i ∈ x.2 ∧ j ∈ x.2 := by
    intro ι r
    constructor
    · rintro ⟨x, hx, hp⟩
      obtain ⟨y, hy, rfl⟩ := List.mem_map.1 hx
      exact ⟨y, hy, hp⟩
    · rintro ⟨y, hy, hp⟩
      exact ⟨_, List.mem_map.2 ⟨y, hy, rfl⟩, hp⟩
  rw [flat, flat]
  cases ign with
  | false => rw [← all_reported gp h4 h5 hij p, ← all_reported (sp_rearranged gp) k2 k3 hij p, common_rearranged]
  | true => rw [← inside_reported gp h4 h5 (Or.inl rfl) hij p, ← inside_reported (sp_rearranged gp) k2 k3 (Or.inl rfl) hij p, inside_rearranged]

end exact

/-- the vertices of the example: a horizontal edge from (1,2) to (3,2), one from (3,0) up to (2,2), one from (0,2) to (2,2) -/
def overlapVertices : List (V2 FQ) :=
  [⟨.fin 1, .fin 2⟩, ⟨.fin 3, .fin 2⟩, ⟨.fin 3, .fin 0⟩, ⟨.fin 2, .fin 2⟩, ⟨.fin 0, .fin 2⟩, ⟨.fin 2, .fin 2⟩]

/-- C60, finding: `with_edges` stores the edges as they are given (`with_lines` stores the rearranged lines), so for
overlapping horizontal edges the result depends on the direction of an edge: turning the last edge adds the first one to the
report. -/
theorem C60_direction_of_overlapping_edges : ∀ T ∈ shapes, haveI : TreeShape FQ := T
    (∃ tab r, indexedSweepIntersections keepOrder 50 false false overlapVertices [(0, 1), (2, 3), (4, 5)] = .ok (tab, r) ∧
      placed tab r = [(some ⟨.fin 2, .fin 2⟩, [1, 2])]) ∧
    (∃ tab r, indexedSweepIntersections keepOrder 50 false false overlapVertices [(0, 1), (2, 3), (5, 4)] = .ok (tab, r) ∧
      placed tab r = [(some ⟨.fin 2, .fin 2⟩, [0, 1, 2])]) := by
  have h : ∀ T ∈ shapes, haveI : TreeShape FQ := T
      (match indexedSweepIntersections keepOrder 50 false false overlapVertices [(0, 1), (2, 3), (4, 5)] with
        | .ok (tab, r) => decide (placed tab r = [(some ⟨.fin 2, .fin 2⟩, [1, 2])])
        | .error _ => false) = true ∧
      (match indexedSweepIntersections keepOrder 50 false false overlapVertices [(0, 1), (2, 3), (5, 4)] with
        | .ok (tab, r) => decide (placed tab r = [(some ⟨.fin 2, .fin 2⟩, [0, 1, 2])])
        | .error _ => false) = true := by decide +kernel
  have key : ∀ (x : Except Err (List (V2 FQ) × List (Nat × List Nat))) (w : List (Option (V2 FQ) × List Nat)),
      (match x with
        | .ok (tab, r) => decide (placed tab r = w)
        | .error _ => false) = true → ∃ tab r, x = .ok (tab, r) ∧ placed tab r = w := by
    intro x w hx
    cases x with
    | error e => cases hx
    | ok v => exact ⟨v.1, v.2, rfl, of_decide_eq_true hx⟩
  intro T hT
  exact ⟨key _ _ (h T hT).1, key _ _ (h T hT).2⟩

/-- the hypotheses are met: three lines, two of them turned -/
example : Turned ([⟨⟨0, 0⟩, ⟨4, 4⟩⟩, ⟨⟨4, 0⟩, ⟨0, 5⟩⟩, ⟨⟨7, 1⟩, ⟨-1, 1⟩⟩] : List (Line2 ℚ))
    [⟨⟨4, 4⟩, ⟨0, 0⟩⟩, ⟨⟨4, 0⟩, ⟨0, 5⟩⟩, ⟨⟨-1, 1⟩, ⟨7, 1⟩⟩] :=
  .turn ⟨⟨0, 0⟩, ⟨4, 4⟩⟩ (ends_apart _ (by decide)) (.same _ (.turn ⟨⟨7, 1⟩, ⟨-1, 1⟩⟩ (ends_apart _ (by decide)) .nil))

/-- … and the lines of `gpExample` with a vertex table -/
example : EdgeLines ([⟨0, 0⟩, ⟨4, 4⟩, ⟨5, 1⟩, ⟨0, 3⟩, ⟨9, 5⟩] : List (V2 ℝ)) [(0, 1), (2, 3), (1, 4)] gpExample ∧
    GeneralPosition gpExample := by
  refine ⟨⟨rfl, ?_⟩, gpExample_general⟩
  intro i e l he hl
  match i, he, hl with
  | 0, he, hl => simp [gpExample] at he hl; subst he hl; exact ⟨rfl, rfl⟩
  | 1, he, hl => simp [gpExample] at he hl; subst he hl; exact ⟨rfl, rfl⟩
  | 2, he, hl => simp [gpExample] at he hl; subst he hl; exact ⟨rfl, rfl⟩
  | n + 3, he, hl => simp [gpExample] at hl

end Verif.Props
