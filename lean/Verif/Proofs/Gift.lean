import Verif.Proofs.HullModel
import Mathlib.Data.Finset.Card
/-!
# Gift wrapping
-/
set_option linter.unusedSectionVars false
set_option linter.unusedVariables false
set_option linter.unusedSimpArgs false
namespace Verif.Hull
open Verif Verif.Spec Verif.Model

/-! ## termination, for any arithmetic -/
section
variable {α : Type} [Scalar α]

theorem giftStep_spec (get : Nat → Except Err (V2 α)) (n : Nat) (hget : ∀ j < n, ∃ p, get j = .ok p)
    (start p : Nat) (hp : p < n) (s : Nat × List Nat) (he : s.1 < n) (hs : start ∉ s.2) (j : Nat) (hj : j < n) :
    ∃ s', giftStep get start p s j = .ok s' ∧ s'.1 < n ∧ start ∉ s'.2 ∧ (∀ x ∈ s.2, x ∈ s'.2) ∧
      (∀ x ∈ s'.2, x ∈ s.2 ∨ x < n) ∧
      ((s'.1 = s.1 ∧ (s.1 ∈ s'.2 → s.1 ∈ s.2)) ∨ s'.1 ∉ s'.2) := by
  unfold giftStep
  by_cases hc : (j == p || j == s.1 || s.2.contains j) = true
  · rw [if_pos hc]
    exact ⟨s, rfl, he, hs, fun x h => h, fun x h => Or.inl h, Or.inl ⟨rfl, id⟩⟩
  · rw [if_neg hc]
    simp only [Bool.or_eq_true, beq_iff_eq, List.contains_iff_mem, not_or] at hc
    obtain ⟨⟨hjp, hje⟩, hjv⟩ := hc
    obtain ⟨pp, h1⟩ := hget p hp
    obtain ⟨pe, h2⟩ := hget s.1 he
    obtain ⟨pj, h3⟩ := hget j hj
    rw [h1, h2, h3]
    simp only [bind, Except.bind]
    have hsel : ∃ s', (Except.ok (j, s.2) : Except Err (Nat × List Nat)) = .ok s' ∧ s'.1 < n ∧ start ∉ s'.2 ∧
        (∀ x ∈ s.2, x ∈ s'.2) ∧ (∀ x ∈ s'.2, x ∈ s.2 ∨ x < n) ∧
        ((s'.1 = s.1 ∧ (s.1 ∈ s'.2 → s.1 ∈ s.2)) ∨ s'.1 ∉ s'.2) :=
      ⟨_, rfl, hj, hs, fun x h => h, fun x h => Or.inl h, Or.inr hjv⟩
    have hkeep : ∃ s', (Except.ok s : Except Err (Nat × List Nat)) = .ok s' ∧ s'.1 < n ∧ start ∉ s'.2 ∧
        (∀ x ∈ s.2, x ∈ s'.2) ∧ (∀ x ∈ s'.2, x ∈ s.2 ∨ x < n) ∧
        ((s'.1 = s.1 ∧ (s.1 ∈ s'.2 → s.1 ∈ s.2)) ∨ s'.1 ∉ s'.2) :=
      ⟨s, rfl, he, hs, fun x h => h, fun x h => Or.inl h, Or.inl ⟨rfl, id⟩⟩
    cases pointOrientation pp pe pj with
    | left => exact hkeep
    | right => exact hsel
    | collinear =>
      simp only
      by_cases hd : Scalar.gt (pp.distSq pj) (pp.distSq pe) = true
      · rw [if_pos hd]; exact hsel
      · rw [if_neg hd]
        by_cases hst : (j != start) = true
        · rw [if_pos hst]
          refine ⟨_, rfl, he, ?_, fun x h => List.mem_cons_of_mem _ h, ?_, Or.inl ⟨rfl, ?_⟩⟩
          · simp only [bne_iff_ne, ne_eq] at hst
            simp only [List.mem_cons, not_or]
            exact ⟨fun e => hst e.symm, hs⟩
          · intro x hx
            rcases List.mem_cons.1 hx with rfl | hx
            · exact Or.inr hj
            · exact Or.inl hx
          · intro hm
            rcases List.mem_cons.1 hm with e | hm
            · exact absurd e.symm hje
            · exact hm
        · rw [if_neg hst]; exact hkeep

theorem giftFold_spec (get : Nat → Except Err (V2 α)) (n : Nat) (hget : ∀ j < n, ∃ p, get j = .ok p)
    (start p : Nat) (hp : p < n) : ∀ (l : List Nat) (s : Nat × List Nat), (∀ j ∈ l, j < n) → s.1 < n →
    start ∉ s.2 →
    ∃ s', l.foldlM (giftStep get start p) s = .ok s' ∧ s'.1 < n ∧ start ∉ s'.2 ∧ (∀ x ∈ s.2, x ∈ s'.2) ∧
      (∀ x ∈ s'.2, x ∈ s.2 ∨ x < n) ∧
      ((s'.1 = s.1 ∧ (s.1 ∈ s'.2 → s.1 ∈ s.2)) ∨ s'.1 ∉ s'.2) := by
  intro l
  induction l with
  | nil =>
    intro s _ he hs
    exact ⟨s, rfl, he, hs, fun x h => h, fun x h => Or.inl h, Or.inl ⟨rfl, id⟩⟩
  | cons j l ih =>
    intro s hl he hs
    obtain ⟨s1, a1, a2, a3, a4, a5, a6⟩ := giftStep_spec get n hget start p hp s he hs j (hl j List.mem_cons_self)
    obtain ⟨s2, b1, b2, b3, b4, b5, b6⟩ := ih s1 (fun x hx => hl x (List.mem_cons_of_mem _ hx)) a2 a3
    refine ⟨s2, ?_, b2, b3, fun x hx => b4 x (a4 x hx), ?_, ?_⟩
    · rw [List.foldlM_cons, a1]; exact b1
    · intro x hx
      rcases b5 x hx with h | h
      · exact a5 x h
      · exact Or.inr h
    · rcases b6 with ⟨e, h⟩ | h
      · rcases a6 with ⟨e', h'⟩ | h'
        · refine Or.inl ⟨e.trans e', fun hm => ?_⟩
          rw [← e'] at hm
          have := h hm
          rw [e'] at this
          exact h' this
        · right
          rw [e]
          exact fun hm => h' (h hm)
      · exact Or.inr h

/-- distance from `p` forward to `start` in a circle of `n` positions -/
def fwd (n start p : Nat) : Nat := (start + n - p) % n

theorem fwd_succ {n start p : Nat} (hs : start < n) (hp : p < n) (h : (p + 1) % n ≠ start) :
    fwd n start ((p + 1) % n) < fwd n start p ∨ p = start := by
  unfold fwd
  by_cases e : p = start
  · exact Or.inr e
  · left
    by_cases hp1 : p + 1 = n
    · rw [hp1, Nat.mod_self] at h ⊢
      have h0 : start ≠ 0 := fun e => h e.symm
      rw [Nat.sub_zero, Nat.add_mod_right, Nat.mod_eq_of_lt hs]
      have : start + n - p = start + 1 := by omega
      rw [this, Nat.mod_eq_of_lt (by omega)]
      omega
    · have hlt : p + 1 < n := by omega
      rw [Nat.mod_eq_of_lt hlt] at h ⊢
      rcases Nat.lt_or_ge p start with hps | hps
      · have e1 : start + n - p = (start - p) + n := by omega
        have e2 : start + n - (p + 1) = (start - p - 1) + n := by omega
        rw [e1, e2, Nat.add_mod_right, Nat.add_mod_right, Nat.mod_eq_of_lt (by omega), Nat.mod_eq_of_lt (by omega)]
        omega
      · rw [Nat.mod_eq_of_lt (by omega), Nat.mod_eq_of_lt (by omega)]
        omega

/-- the positions not visited when the round of `p` starts -/
def unvisited (n : Nat) (p : Nat) (V : List Nat) : Finset Nat := (Finset.range n).filter (fun x => x ≠ p ∧ x ∉ V)

theorem giftLoop_terminates (get : Nat → Except Err (V2 α)) (n : Nat) (hget : ∀ j < n, ∃ p, get j = .ok p)
    (start : Nat) (hst : start < n) : ∀ (fuel p : Nat) (V hull : List Nat), p < n → start ∉ V →
    (∀ x ∈ V, x < n) → (p = start → V = []) → (∀ x ∈ hull, x < n) →
    (if p = start then (n + 1) * (n + 1) else (unvisited n p V).card * (n + 1) + fwd n start p) < fuel →
    ∃ r, giftLoop get n start fuel p V hull = .ok r ∧ (∀ x ∈ r, x < n) ∧ r ≠ [] := by
  intro fuel
  induction fuel with
  | zero => intro p V hull _ _ _ _ _ h; omega
  | succ fuel ih =>
    intro p V hull hp hs hV hVe hh hf
    have hn : 0 < n := by omega
    unfold giftLoop giftRound
    obtain ⟨V', hV'⟩ : ∃ V', V' = (if (p != start) = true then p :: V else V) := ⟨_, rfl⟩
    have hV'lt : ∀ x ∈ V', x < n := by
      intro x hx
      rw [hV'] at hx
      split at hx
      · rcases List.mem_cons.1 hx with rfl | hx
        · exact hp
        · exact hV x hx
      · exact hV x hx
    have hV's : start ∉ V' := by
      rw [hV']
      split
      · rename_i h
        simp only [bne_iff_ne, ne_eq] at h
        simp only [List.mem_cons, not_or]
        exact ⟨fun e => h e.symm, hs⟩
      · exact hs
    have he0 : (p + 1) % n < n := Nat.mod_lt _ hn
    obtain ⟨s', a1, a2, a3, a4, a5, a6⟩ := giftFold_spec get n hget start p hp (List.range n) ((p + 1) % n, V')
      (fun j hj => List.mem_range.1 hj) he0 hV's
    simp only
    rw [← hV', a1]
    simp only [bind, Except.bind]
    have hh' : ∀ x ∈ p :: hull, x < n := by
      intro x hx
      rcases List.mem_cons.1 hx with rfl | hx
      · exact hp
      · exact hh x hx
    by_cases hend : s'.1 = start
    · rw [if_pos (by simpa using hend)]
      refine ⟨_, rfl, fun x hx => hh' x (List.mem_reverse.1 hx), by simp⟩
    · rw [if_neg (by simpa using hend)]
      have hV'' : ∀ x ∈ s'.2, x < n := fun x hx => (a5 x hx).elim (hV'lt x) id
      refine ih s'.1 s'.2 (p :: hull) a2 a3 hV'' (fun e => absurd e hend) hh' ?_
      rw [if_neg hend]
      have hcard : (unvisited n s'.1 s'.2).card ≤ n := by
        refine (Finset.card_filter_le _ _).trans ?_
        rw [Finset.card_range]
      have hfwd : fwd n start s'.1 < n := Nat.mod_lt _ hn
      by_cases hps : p = start
      · rw [if_pos hps] at hf
        nlinarith
      · rw [if_neg hps] at hf
        have hpV : p ∈ V' := by rw [hV', if_pos (by simpa using hps)]; exact List.mem_cons_self
        have hsub : unvisited n s'.1 s'.2 ⊆ unvisited n p V := by
          intro x hx
          simp only [unvisited, Finset.mem_filter] at hx ⊢
          refine ⟨hx.1, ?_, ?_⟩
          · rintro rfl; exact hx.2.2 (a4 x hpV)
          · intro hxV
            refine hx.2.2 (a4 x ?_)
            rw [hV']
            split
            · exact List.mem_cons_of_mem _ hxV
            · exact hxV
        by_cases hm : s'.1 ∈ s'.2
        · -- a visited point: the successor in the list
          have e : s'.1 = (p + 1) % n := by
            rcases a6 with ⟨e, -⟩ | h
            · exact e
            · exact absurd hm h
          have hlt := (fwd_succ hst hp (by rw [← e]; exact hend)).resolve_right hps
          rw [← e] at hlt
          have := Finset.card_le_card hsub
          have := Nat.mul_le_mul_right (n + 1) this
          omega
        · have hss : unvisited n s'.1 s'.2 ⊂ unvisited n p V ∨ s'.1 ∉ unvisited n p V := by
            by_cases hmem : s'.1 ∈ unvisited n p V
            · left
              refine Finset.ssubset_iff_subset_ne.2 ⟨hsub, fun e => ?_⟩
              rw [← e] at hmem
              simp [unvisited] at hmem
            · exact Or.inr hmem
          rcases hss with hss | hno
          · have := Finset.card_lt_card hss
            have h2 : (unvisited n s'.1 s'.2).card + 1 ≤ (unvisited n p V).card := this
            have := Nat.mul_le_mul_right (n + 1) h2
            rw [Nat.add_mul] at this
            omega
          · exfalso
            apply hno
            simp only [unvisited, Finset.mem_filter, Finset.mem_range]
            refine ⟨a2, ?_, ?_⟩
            · rintro e
              apply hm
              rw [e]
              exact a4 p hpV
            · intro hxV
              apply hm
              refine a4 _ ?_
              rw [hV']
              split
              · exact List.mem_cons_of_mem _ hxV
              · exact hxV
end
end Verif.Hull

namespace Verif.Hull
open Verif Verif.Spec Verif.Model
section
variable {K : Type} [Field K] [LinearOrder K] [IsStrictOrderedRing K]

/-! ## the next vertex of the hull -/

/-- coordinates in which the direction `d` points down -/
def turnPt (d p : V2 K) : V2 K := ⟨d.x * p.y - d.y * p.x, -(d.x * p.x + d.y * p.y)⟩

theorem turn_orient (d a b c : V2 K) :
    orient (turnPt d a) (turnPt d b) (turnPt d c) = (d.x ^ 2 + d.y ^ 2) * orient a b c := by
  simp only [orient, turnPt]; ring
theorem turn_sqDist (d a b : V2 K) :
    sqDist2 (turnPt d a) (turnPt d b) = (d.x ^ 2 + d.y ^ 2) * sqDist2 a b := by
  simp only [sqDist2, turnPt]; ring

/-- `w` is the next vertex of the hull of `P` after `p`: everything is on or left of the line from `p`
to `w`, and on the segment if it is on the line -/
structure Best (P : List (V2 K)) (p w : V2 K) : Prop where
  mem : w ∈ P
  ne : w ≠ p
  left : ∀ x ∈ P, 0 ≤ orient p w x
  seg : ∀ x ∈ P, orient p w x = 0 → OnSegment2 p w x

/-- `p` is a vertex of the hull of `P`: all other points are on one side of a line -/
def Exposed (P : List (V2 K)) (p : V2 K) : Prop :=
  ∃ d : V2 K, 0 < d.x ^ 2 + d.y ^ 2 ∧ ∀ x ∈ P, x ≠ p → LexLt (turnPt d p) (turnPt d x)

theorem sqDist2_pos' {a b : V2 K} (h : a ≠ b) : 0 < sqDist2 a b := by
  simp only [sqDist2]
  by_contra hn
  have h1 := sq_nonneg (a.x - b.x)
  have h2 := sq_nonneg (a.y - b.y)
  have e1 : (a.x - b.x) ^ 2 = 0 := by linarith
  have e2 : (a.y - b.y) ^ 2 = 0 := by linarith
  apply h
  cases a; cases b
  simp only [sq_eq_zero_iff, sub_eq_zero] at e1 e2
  rw [e1, e2]

theorem Exposed.segment {P : List (V2 K)} {p w x : V2 K} (hp : Exposed P p) (hw : w ∈ P) (hwp : w ≠ p)
    (hx : x ∈ P) (hxp : x ≠ p) (h0 : orient p w x = 0) (h : sqDist2 p x ≤ sqDist2 p w) : OnSegment2 p w x := by
  obtain ⟨d, hd, hdir⟩ := hp
  have hdd : sqDist2 (turnPt d p) (turnPt d x) ≤ sqDist2 (turnPt d p) (turnPt d w) := by
    rw [turn_sqDist, turn_sqDist]
    exact mul_le_mul_of_nonneg_left h hd.le
  obtain ⟨t, ht0, ht1, ex, ey⟩ := on_segment_of_collinear (hdir w hw hwp) (hdir x hx hxp)
    (by rw [turn_orient, h0, mul_zero]) hdd
  simp only [turnPt] at ex ey
  have e1 : x.x = p.x + t * (w.x - p.x) := by
    have : (d.x ^ 2 + d.y ^ 2) * (x.x - (p.x + t * (w.x - p.x))) = 0 := by
      linear_combination (-d.y) * ex - d.x * ey
    have := (mul_eq_zero.1 this).resolve_left hd.ne'
    linarith
  have e2 : x.y = p.y + t * (w.y - p.y) := by
    have : (d.x ^ 2 + d.y ^ 2) * (x.y - (p.y + t * (w.y - p.y))) = 0 := by
      linear_combination d.x * ex - d.y * ey
    have := (mul_eq_zero.1 this).resolve_left hd.ne'
    linarith
  refine ⟨t, ht0, ht1, ?_⟩
  cases x
  simp only [lerp2] at *
  rw [← e1, ← e2]

theorem best_exists {P : List (V2 K)} {p : V2 K} (hp : Exposed P p) (hne : ∃ x ∈ P, x ≠ p) :
    ∃ w, Best P p w := by
  obtain ⟨d, hd, hdir⟩ := hp
  have good : ∀ Q : List (V2 K), (∀ x ∈ Q, x ∈ P) → (∃ x ∈ Q, x ≠ p) →
      ∃ w ∈ Q, w ≠ p ∧ ∀ x ∈ Q, x ≠ p → 0 < orient p w x ∨ (orient p w x = 0 ∧ sqDist2 p x ≤ sqDist2 p w) := by
    intro Q
    induction Q with
    | nil => rintro - ⟨x, hx, -⟩; cases hx
    | cons a Q ih =>
      intro hQ hex
      have hself : ∀ w : V2 K, 0 < orient p w w ∨ (orient p w w = 0 ∧ sqDist2 p w ≤ sqDist2 p w) :=
        fun w => Or.inr ⟨(orient_self p w).2.1, le_refl _⟩
      by_cases hQex : ∃ x ∈ Q, x ≠ p
      · obtain ⟨w, hw, hwp, hall⟩ := ih (fun x hx => hQ x (List.mem_cons_of_mem _ hx)) hQex
        by_cases hap : a = p
        · refine ⟨w, List.mem_cons_of_mem _ hw, hwp, fun x hx hxp => ?_⟩
          rcases List.mem_cons.1 hx with rfl | hx
          · exact absurd hap hxp
          · exact hall x hx hxp
        · -- compare a and w
          by_cases hc : 0 < orient p w a ∨ (orient p w a = 0 ∧ sqDist2 p a ≤ sqDist2 p w)
          · refine ⟨w, List.mem_cons_of_mem _ hw, hwp, fun x hx hxp => ?_⟩
            rcases List.mem_cons.1 hx with rfl | hx
            · exact hc
            · exact hall x hx hxp
          · refine ⟨a, List.mem_cons_self, hap, fun x hx hxp => ?_⟩
            rcases List.mem_cons.1 hx with rfl | hx
            · exact hself x
            · have la := hdir a (hQ a List.mem_cons_self) hap
              have lw := hdir w (hQ w (List.mem_cons_of_mem _ hw)) hwp
              have lx := hdir x (hQ x (List.mem_cons_of_mem _ hx)) hxp
              have haw : 0 ≤ orient p a w := by
                have e := orient_swap p w a
                push Not at hc
                rw [e]; linarith [hc.1]
              have hwx : 0 ≤ orient p w x := by
                rcases hall x hx hxp with h | ⟨h, -⟩
                · exact h.le
                · exact h.ge
              have t := ang_trans la lw lx (by rw [turn_orient]; positivity) (by rw [turn_orient]; positivity)
              rw [turn_orient, turn_orient, turn_orient] at t
              have ht0 : 0 ≤ orient p a x := nonneg_of_mul_nonneg_right t.1 hd
              rcases lt_or_eq_of_le haw with h | h
              · exact Or.inl (pos_of_mul_pos_right (t.2 (Or.inl (by positivity))) hd.le)
              · rcases hall x hx hxp with hx' | ⟨hx', hdx⟩
                · exact Or.inl (pos_of_mul_pos_right (t.2 (Or.inr (by positivity))) hd.le)
                · rcases lt_or_eq_of_le ht0 with h0 | h0
                  · exact Or.inl h0
                  · refine Or.inr ⟨h0.symm, ?_⟩
                    have e : orient p w a = 0 := by rw [orient_swap, ← h, neg_zero]
                    push Not at hc
                    exact hdx.trans (hc.2 e).le
      · obtain ⟨x, hx, hxp⟩ := hex
        rcases List.mem_cons.1 hx with rfl | hx
        · refine ⟨x, List.mem_cons_self, hxp, fun y hy hyp => ?_⟩
          rcases List.mem_cons.1 hy with rfl | hy
          · exact hself _
          · exact absurd ⟨y, hy, hyp⟩ hQex
        · exact absurd ⟨x, hx, hxp⟩ hQex
  obtain ⟨w, hw, hwp, hall⟩ := good P (fun _ h => h) hne
  refine ⟨w, hw, hwp, fun x hx => ?_, fun x hx h0 => ?_⟩
  · by_cases hxp : x = p
    · rw [hxp]; exact (orient_self _ _).1.ge
    · rcases hall x hx hxp with h | ⟨h, -⟩
      · exact h.le
      · exact h.ge
  · by_cases hxp : x = p
    · exact ⟨0, le_refl _, zero_le_one, by rw [hxp]; simp [lerp2]⟩
    · rcases hall x hx hxp with h | ⟨-, h⟩
      · exact absurd h0 h.ne'
      · exact Exposed.segment ⟨d, hd, hdir⟩ hw hwp hx hxp h0 h

/-- the lowest point is exposed -/
theorem exposed_lowest {P : List (V2 K)} {s : V2 K} (h : ∀ x ∈ P, x ≠ s → LexLt s x) : Exposed P s := by
  refine ⟨⟨0, -1⟩, by norm_num, fun x hx hxs => ?_⟩
  rcases h x hx hxs with h | ⟨h, h'⟩
  · exact Or.inl (by simpa [turnPt] using h)
  · exact Or.inr ⟨by simpa [turnPt] using h, by simpa [turnPt] using h'⟩

/-- the next vertex is exposed -/
theorem Best.exposed {P : List (V2 K)} {b p : V2 K} (h : Best P b p) : Exposed P p := by
  refine ⟨⟨p.x - b.x, p.y - b.y⟩, ?_, fun x hx hxp => ?_⟩
  · have := sqDist2_pos' h.ne
    simpa [sqDist2] using this
  · have e1 : (p.x - b.x) * x.y - (p.y - b.y) * x.x - ((p.x - b.x) * p.y - (p.y - b.y) * p.x) = orient b p x := by
      simp only [orient]; ring
    rcases lt_or_eq_of_le (h.left x hx) with h0 | h0
    · left
      simp only [turnPt]
      rw [← e1] at h0
      exact sub_pos.1 h0
    · right
      simp only [turnPt]
      refine ⟨?_, ?_⟩
      · rw [← h0] at e1
        exact (sub_eq_zero.1 e1).symm
      · obtain ⟨t, ht0, ht1, rfl⟩ := h.seg x hx h0.symm
        have hpos : 0 < (p.x - b.x) ^ 2 + (p.y - b.y) ^ 2 := by
          have := sqDist2_pos' h.ne
          simpa [sqDist2] using this
        have ht : t < 1 := by
          refine lt_of_le_of_ne ht1 ?_
          rintro rfl
          exact hxp (by cases p; simp [lerp2])
        simp only [lerp2]
        have := mul_pos (sub_pos.2 ht) hpos
        nlinarith

/-- strictly between two points of `P` -/
def NonExtreme (P : List (V2 K)) (x : V2 K) : Prop :=
  ∃ a ∈ P, ∃ b ∈ P, a ≠ b ∧ ∃ t : K, 0 < t ∧ t < 1 ∧ x = lerp2 a b t

theorem Best.extreme {P : List (V2 K)} {p w : V2 K} (h : Best P p w) : ¬ NonExtreme P w := by
  rintro ⟨a, ha, b, hb, hab, t, ht0, ht1, e⟩
  have key : (1 - t) * orient p w a + t * orient p w b = 0 := by
    have e1 : w.x = a.x + t * (b.x - a.x) := by rw [e]; rfl
    have e2 : w.y = a.y + t * (b.y - a.y) := by rw [e]; rfl
    simp only [orient]
    linear_combination (w.y - p.y) * e1 - (w.x - p.x) * e2
  have h1 := mul_nonneg (sub_pos.2 ht1).le (h.left a ha)
  have h2 := mul_nonneg ht0.le (h.left b hb)
  have ea : orient p w a = 0 := (mul_eq_zero.1 (by linarith : (1 - t) * orient p w a = 0)).resolve_left (sub_pos.2 ht1).ne'
  have eb : orient p w b = 0 := (mul_eq_zero.1 (by linarith : t * orient p w b = 0)).resolve_left ht0.ne'
  obtain ⟨u, hu0, hu1, eu⟩ := h.seg a ha ea
  obtain ⟨v, hv0, hv1, ev⟩ := h.seg b hb eb
  have hpos := sqDist2_pos' h.ne
  have key2 : (1 - ((1 - t) * u + t * v)) * sqDist2 w p = 0 := by
    have e1 : w.x = a.x + t * (b.x - a.x) := by rw [e]; rfl
    have e2 : w.y = a.y + t * (b.y - a.y) := by rw [e]; rfl
    have a1 : a.x = p.x + u * (w.x - p.x) := by rw [eu]; rfl
    have a2 : a.y = p.y + u * (w.y - p.y) := by rw [eu]; rfl
    have b1 : b.x = p.x + v * (w.x - p.x) := by rw [ev]; rfl
    have b2 : b.y = p.y + v * (w.y - p.y) := by rw [ev]; rfl
    simp only [sqDist2]
    linear_combination (w.x - p.x) * e1 + (w.y - p.y) * e2 + (1 - t) * (w.x - p.x) * a1 + (1 - t) * (w.y - p.y) * a2
      + t * (w.x - p.x) * b1 + t * (w.y - p.y) * b2
  have hc : 1 - ((1 - t) * u + t * v) = 0 := (mul_eq_zero.1 key2).resolve_right hpos.ne'
  have hu : u = 1 := by
    by_contra hne
    have : u < 1 := lt_of_le_of_ne hu1 hne
    nlinarith [mul_pos (sub_pos.2 ht1) (sub_pos.2 this), mul_nonneg ht0.le (sub_nonneg.2 hv1)]
  have hv : v = 1 := by
    by_contra hne
    have : v < 1 := lt_of_le_of_ne hv1 hne
    nlinarith [mul_pos ht0 (sub_pos.2 this), mul_nonneg (sub_pos.2 ht1).le (sub_nonneg.2 hu1)]
  rw [hu] at eu
  rw [hv] at ev
  exact hab (eu.trans ev.symm)

theorem nonExtreme_of_collinear {P : List (V2 K)} {p e j : V2 K} (hp : Exposed P p) (hpP : p ∈ P) (he : e ∈ P)
    (hep : e ≠ p) (hj : j ∈ P) (hjp : j ≠ p) (hje : j ≠ e) (h0 : orient p e j = 0)
    (hd : sqDist2 p j ≤ sqDist2 p e) : NonExtreme P j := by
  obtain ⟨t, ht0, ht1, rfl⟩ := hp.segment he hep hj hjp h0 hd
  refine ⟨p, hpP, e, he, hep.symm, t, lt_of_le_of_ne ht0 ?_, lt_of_le_of_ne ht1 ?_, rfl⟩
  · rintro rfl
    exact hjp (by cases p; simp [lerp2])
  · rintro rfl
    exact hje (by cases e; simp [lerp2])

/-- two next vertices in a row stay in the chain around the lowest point -/
theorem chain_step {s a b w : V2 K} {P xs rest : List (V2 K)} (hlow : ∀ x ∈ P, x ≠ s → LexLt s x) (hs : s ∈ P)
    (hxs : ∀ x, x ∈ xs ↔ x ∈ P ∧ x ≠ s) (hc : Chain s xs (a :: b :: rest)) (hba : Best P b a) (haw : Best P a w)
    (hws : w ≠ s) : Chain s xs (w :: a :: b :: rest) := by
  have hw : LexLt s w := hlow w haw.mem hws
  have ha := hc.top_lex.1
  have h1 : 0 < orient s a w := by
    rw [orient_rot]
    refine lt_of_le_of_ne (haw.left s hs) (fun e => ?_)
    obtain ⟨t, ht0, ht1, e2⟩ := haw.seg s hs e.symm
    have ex : s.x = a.x + t * (w.x - a.x) := congrArg V2.x e2
    have ey : s.y = a.y + t * (w.y - a.y) := congrArg V2.y e2
    have hsx : s.x ≤ a.x := by rcases ha with h | ⟨h, -⟩; exacts [h.le, h.le]
    have hsw : s.x ≤ w.x := by rcases hw with h | ⟨h, -⟩; exacts [h.le, h.le]
    have hp : (1 - t) * (a.x - s.x) + t * (w.x - s.x) = 0 := by linear_combination -ex
    have hq : (1 - t) * (a.y - s.y) + t * (w.y - s.y) = 0 := by linear_combination -ey
    have n1 := mul_nonneg (sub_nonneg.2 ht1) (sub_nonneg.2 hsx)
    have n2 := mul_nonneg ht0 (sub_nonneg.2 hsw)
    have z1 : (1 - t) * (a.x - s.x) = 0 := by linarith
    have z2 : t * (w.x - s.x) = 0 := by linarith
    by_cases ht : t = 0
    · subst ht
      have : s = a := by cases s; cases a; simp at ex ey; rw [ex, ey]
      rw [this] at ha; exact lexLt_irrefl ha
    · by_cases ht' : t = 1
      · subst ht'
        exact hws (by cases s; cases w; simp at ex ey; rw [ex, ey])
      · have p1 : 0 < t := lt_of_le_of_ne ht0 (Ne.symm ht)
        have p2 : 0 < 1 - t := sub_pos.2 (lt_of_le_of_ne ht1 ht')
        have za := (mul_eq_zero.1 z1).resolve_left p2.ne'
        have zw := (mul_eq_zero.1 z2).resolve_left p1.ne'
        have ya : 0 < a.y - s.y := by
          rcases ha with h | ⟨-, h⟩
          · linarith
          · exact sub_pos.2 h
        have yw : 0 < w.y - s.y := by
          rcases hw with h | ⟨-, h⟩
          · linarith
          · exact sub_pos.2 h
        have := mul_pos p2 ya
        have := mul_pos p1 yw
        linarith
  have h2 : 0 < orient b a w := by
    refine lt_of_le_of_ne (hba.left w haw.mem) (fun e => ?_)
    obtain ⟨t, ht0, ht1, e2⟩ := hba.seg w haw.mem e.symm
    have ht : t < 1 := by
      refine lt_of_le_of_ne ht1 ?_
      rintro rfl
      exact haw.ne (by rw [e2]; cases a; simp [lerp2])
    have ex : w.x = b.x + t * (a.x - b.x) := congrArg V2.x e2
    have ey : w.y = b.y + t * (a.y - b.y) := congrArg V2.y e2
    have key : orient s a w = (t - 1) * orient b a s := by
      simp only [orient]; rw [ex, ey]; ring
    have := mul_nonneg (sub_pos.2 ht).le (hba.left s hs)
    rw [key] at h1
    linarith
  exact ⟨hw, (hxs w).2 ⟨haw.mem, hws⟩, h2, h1, fun x hx => haw.left x ((hxs x).1 hx).1, hc⟩

theorem seg_sqDist {p w x : V2 K} (h : OnSegment2 p w x) : sqDist2 p x ≤ sqDist2 p w := by
  obtain ⟨t, ht0, ht1, rfl⟩ := h
  have : sqDist2 p (lerp2 p w t) = t ^ 2 * sqDist2 p w := by simp only [sqDist2, lerp2]; ring
  rw [this]
  have h1 : t ^ 2 ≤ 1 := by nlinarith
  have h2 : 0 ≤ sqDist2 p w := by simp only [sqDist2]; positivity
  nlinarith

theorem chain_start {s w : V2 K} {P xs : List (V2 K)} (hlow : ∀ x ∈ P, x ≠ s → LexLt s x)
    (hxs : ∀ x, x ∈ xs ↔ x ∈ P ∧ x ≠ s) (hw : Best P s w) : Chain s xs [w, s] :=
  ⟨rfl, hlow w hw.mem hw.ne, (hxs w).2 ⟨hw.mem, hw.ne⟩, fun x hx => ⟨hw.left x ((hxs x).1 hx).1,
    fun h => seg_sqDist (hw.seg x ((hxs x).1 hx).1 h)⟩⟩

end

section
variable {K : Type} [Scalar K] [Field K] [LinearOrder K] [ExactScalar K]

/-! ## the rounds of gift wrapping -/

theorem giftStep_exact (get : Nat → Except Err (V2 K)) (pt : Nat → V2 K) (n : Nat)
    (hget : ∀ j < n, get j = .ok (pt j)) (hinj : ∀ i < n, ∀ j < n, pt i = pt j → i = j)
    (start p w : Nat) (hp : p < n) (hw : w < n) (hexp : Exposed ((List.range n).map pt) (pt p))
    (hbest : Best ((List.range n).map pt) (pt p) (pt w)) (V0 : List Nat) (hV0 : w ∉ V0)
    (s : Nat × List Nat) (he : s.1 < n) (hep : s.1 ≠ p)
    (hV : ∀ x ∈ s.2, x ∈ V0 ∨ NonExtreme ((List.range n).map pt) (pt x)) (j : Nat) (hj : j < n) :
    ∃ s', giftStep get start p s j = .ok s' ∧ s'.1 < n ∧ s'.1 ≠ p ∧
      (∀ x ∈ s'.2, x ∈ V0 ∨ NonExtreme ((List.range n).map pt) (pt x)) ∧
      (s.1 = w → s'.1 = w) ∧ (j = w → s'.1 = w) := by
  have hP : ∀ j < n, pt j ∈ (List.range n).map pt := fun j hj => List.mem_map_of_mem (List.mem_range.2 hj)
  have hwp : w ≠ p := by rintro rfl; exact hbest.ne rfl
  have hwV : w ∉ s.2 := fun h => (hV w h).elim hV0 hbest.extreme
  unfold giftStep
  by_cases hc : (j == p || j == s.1 || s.2.contains j) = true
  · rw [if_pos hc]
    refine ⟨s, rfl, he, hep, hV, id, ?_⟩
    rintro rfl
    simp only [Bool.or_eq_true, beq_iff_eq, List.contains_iff_mem] at hc
    rcases hc with (h | h) | h
    · exact absurd h hwp
    · exact h.symm
    · exact absurd h hwV
  · rw [if_neg hc]
    simp only [Bool.or_eq_true, beq_iff_eq, List.contains_iff_mem, not_or] at hc
    obtain ⟨⟨hjp, hje⟩, hjv⟩ := hc
    rw [hget p hp, hget s.1 he, hget j hj]
    simp only [bind, Except.bind, pointOrientation_eq, distSq_eq, Scalar.gt, lt_decide, decide_eq_true_eq]
    have npt : ∀ {i j : Nat}, i < n → j < n → i ≠ j → pt i ≠ pt j := fun hi hj hne e => hne (hinj _ hi _ hj e)
    -- facts about the best vertex
    have hwj := hbest.left (pt j) (hP j hj)
    have hwe := hbest.left (pt s.1) (hP s.1 he)
    have eswap := orient_swap (pt p) (pt w) (pt s.1)
    rcases lt_trichotomy (orient (pt p) (pt s.1) (pt j)) 0 with h | h | h
    · -- right
      rw [if_neg (not_lt.2 h.le), if_neg h.ne]
      refine ⟨_, rfl, hj, hjp, hV, ?_, fun e => e⟩
      rintro e
      rw [e] at h
      exact absurd hwj (not_le.2 h)
    · rw [if_neg (by rw [h]; exact lt_irrefl _), if_pos h]
      simp only
      by_cases hd : sqDist2 (pt p) (pt s.1) < sqDist2 (pt p) (pt j)
      · rw [if_pos hd]
        refine ⟨_, rfl, hj, hjp, hV, ?_, fun e => e⟩
        rintro e
        rw [e] at h hd
        exact absurd (seg_sqDist (hbest.seg (pt j) (hP j hj) h)) (not_le.2 hd)
      · rw [if_neg hd]
        have hnon : NonExtreme ((List.range n).map pt) (pt j) :=
          nonExtreme_of_collinear hexp (hP p hp) (hP _ he) (npt he hp hep) (hP j hj) (npt hj hp hjp)
            (npt hj he hje) h (not_lt.1 hd)
        have hjw : j ≠ w := by
          rintro rfl
          exact hbest.extreme hnon
        split
        · refine ⟨_, rfl, he, hep, ?_, id, fun e => absurd e hjw⟩
          intro x hx
          rcases List.mem_cons.1 hx with rfl | hx
          · exact Or.inr hnon
          · exact hV x hx
        · exact ⟨_, rfl, he, hep, hV, id, fun e => absurd e hjw⟩
    · rw [if_pos h]
      refine ⟨_, rfl, he, hep, hV, id, ?_⟩
      rintro rfl
      rw [eswap] at h
      linarith

theorem giftFold_exact (get : Nat → Except Err (V2 K)) (pt : Nat → V2 K) (n : Nat)
    (hget : ∀ j < n, get j = .ok (pt j)) (hinj : ∀ i < n, ∀ j < n, pt i = pt j → i = j)
    (start p w : Nat) (hp : p < n) (hw : w < n) (hexp : Exposed ((List.range n).map pt) (pt p))
    (hbest : Best ((List.range n).map pt) (pt p) (pt w)) (V0 : List Nat) (hV0 : w ∉ V0) :
    ∀ (l : List Nat) (s : Nat × List Nat), (∀ j ∈ l, j < n) → s.1 < n → s.1 ≠ p →
    (∀ x ∈ s.2, x ∈ V0 ∨ NonExtreme ((List.range n).map pt) (pt x)) →
    ∃ s', l.foldlM (giftStep get start p) s = .ok s' ∧
      (∀ x ∈ s'.2, x ∈ V0 ∨ NonExtreme ((List.range n).map pt) (pt x)) ∧
      (s.1 = w ∨ w ∈ l → s'.1 = w) := by
  intro l
  induction l with
  | nil =>
    intro s _ _ _ hV
    exact ⟨s, rfl, hV, fun h => h.elim id (fun h => by cases h)⟩
  | cons j l ih =>
    intro s hl he hep hV
    obtain ⟨s1, a1, a2, a3, a4, a5, a6⟩ := giftStep_exact get pt n hget hinj start p w hp hw hexp hbest V0 hV0 s he hep
      hV j (hl j List.mem_cons_self)
    obtain ⟨s2, b1, b2, b3⟩ := ih s1 (fun x hx => hl x (List.mem_cons_of_mem _ hx)) a2 a3 a4
    refine ⟨s2, ?_, b2, ?_⟩
    · rw [List.foldlM_cons, a1]; exact b1
    · rintro (h | h)
      · exact b3 (Or.inl (a5 h))
      · rcases List.mem_cons.1 h with rfl | h
        · exact b3 (Or.inl (a6 rfl))
        · exact b3 (Or.inr h)

theorem giftRound_exact (get : Nat → Except Err (V2 K)) (pt : Nat → V2 K) (n : Nat) (hn : 2 ≤ n)
    (hget : ∀ j < n, get j = .ok (pt j)) (hinj : ∀ i < n, ∀ j < n, pt i = pt j → i = j)
    (start p w : Nat) (hp : p < n) (hw : w < n) (hexp : Exposed ((List.range n).map pt) (pt p))
    (hbest : Best ((List.range n).map pt) (pt p) (pt w)) (V : List Nat) (hV : w ∉ V) :
    ∃ V', giftRound get n start p V = .ok (w, V') ∧
      ∀ x ∈ V', x ∈ V ∨ (x = p ∧ p ≠ start) ∨ NonExtreme ((List.range n).map pt) (pt x) := by
  unfold giftRound
  have hwp : w ≠ p := by rintro rfl; exact hbest.ne rfl
  have hne : (p + 1) % n ≠ p := by
    intro e
    by_cases h : p + 1 = n
    · rw [h, Nat.mod_self] at e; omega
    · rw [Nat.mod_eq_of_lt (by omega)] at e; omega
  obtain ⟨V0, hV0⟩ : ∃ V0, V0 = (if (p != start) = true then p :: V else V) := ⟨_, rfl⟩
  have hw0 : w ∉ V0 := by
    rw [hV0]
    split
    · simp only [List.mem_cons, not_or]; exact ⟨hwp, hV⟩
    · exact hV
  obtain ⟨s', h1, h2, h3⟩ := giftFold_exact get pt n hget hinj start p w hp hw hexp hbest V0 hw0 (List.range n)
    ((p + 1) % n, V0) (fun j hj => List.mem_range.1 hj) (Nat.mod_lt _ (by omega)) hne (fun x hx => Or.inl hx)
  simp only
  rw [← hV0, h1]
  have := h3 (Or.inr (List.mem_range.2 hw))
  refine ⟨s'.2, by rw [← this], fun x hx => ?_⟩
  rcases h2 x hx with h | h
  · rw [hV0] at h
    split at h
    · rename_i hps
      rcases List.mem_cons.1 h with rfl | h
      · exact Or.inr (Or.inl ⟨rfl, by simpa using hps⟩)
      · exact Or.inl h
    · exact Or.inl h
  · exact Or.inr (Or.inr h)

/-- Gift wrapping from the lowest point, for different points -/
theorem giftLoop_exact (get : Nat → Except Err (V2 K)) (pt : Nat → V2 K) (n : Nat) (hn : 2 ≤ n)
    (hget : ∀ j < n, get j = .ok (pt j)) (hinj : ∀ i < n, ∀ j < n, pt i = pt j → i = j)
    (start : Nat) (hst : start < n) (hlow : ∀ j < n, pt j = pt start ∨ LexLt (pt start) (pt j)) :
    ∀ (fuel p : Nat) (V st : List Nat) (r : List Nat), p < n →
    (∀ x ∈ V, (x ∈ st ∧ x ≠ start) ∨ NonExtreme ((List.range n).map pt) (pt x)) → (∀ x ∈ st, x < n) →
    ((st = [] ∧ p = start) ∨ (∃ b rest, st = b :: rest ∧ Best ((List.range n).map pt) (pt b) (pt p) ∧ p ≠ start ∧
      Chain (pt start) (((List.range n).map pt).filter (fun x => decide (x ≠ pt start))) ((p :: st).map pt))) →
    giftLoop get n start fuel p V st = .ok r →
    IsHullLoop ((List.range n).map pt) (r.map pt ++ [pt start]) ∧ r.head? = some start := by
  have hP : ∀ j < n, pt j ∈ (List.range n).map pt := fun j hj => List.mem_map_of_mem (List.mem_range.2 hj)
  have hP' : ∀ x ∈ (List.range n).map pt, ∃ j < n, pt j = x := by
    intro x hx
    obtain ⟨j, hj, rfl⟩ := List.mem_map.1 hx
    exact ⟨j, List.mem_range.1 hj, rfl⟩
  have hlowP : ∀ x ∈ (List.range n).map pt, x ≠ pt start → LexLt (pt start) x := by
    intro x hx hne
    obtain ⟨j, hj, rfl⟩ := hP' x hx
    exact (hlow j hj).resolve_left hne
  obtain ⟨xs, hxs'⟩ : ∃ xs, xs = ((List.range n).map pt).filter (fun x => decide (x ≠ pt start)) := ⟨_, rfl⟩
  have hxs : ∀ x, x ∈ xs ↔ x ∈ (List.range n).map pt ∧ x ≠ pt start := by
    intro x; rw [hxs', List.mem_filter]; simp
  have hother : ∀ p < n, ∃ x ∈ (List.range n).map pt, x ≠ pt p := by
    intro p hp
    by_cases h : p = 0
    · exact ⟨pt 1, hP 1 (by omega), fun e => by have := hinj 1 (by omega) p hp e; omega⟩
    · exact ⟨pt 0, hP 0 (by omega), fun e => by have := hinj 0 (by omega) p hp e; omega⟩
  intro fuel
  induction fuel with
  | zero => intro p V st r _ _ _ _ h; exact absurd h (by simp [giftLoop])
  | succ fuel ih =>
    intro p V st r hp hV hstn hinv h
    have hexp : Exposed ((List.range n).map pt) (pt p) := by
      rcases hinv with ⟨-, rfl⟩ | ⟨b, rest, -, hb, -⟩
      · exact exposed_lowest hlowP
      · exact hb.exposed
    obtain ⟨w', hbest⟩ := best_exists hexp (hother p hp)
    obtain ⟨w, hw, rfl⟩ := hP' w' hbest.mem
    have hwV : w ∉ V := by
      intro hm
      rcases hV w hm with ⟨hwst, hws⟩ | hne
      · -- an old vertex
        rcases hinv with ⟨rfl, -⟩ | ⟨b, rest, rfl, hb, hps, hch⟩
        · cases hwst
        · have hws' : pt w ≠ pt start := fun e => hws (hinj _ hw _ hst e)
          rw [← hxs'] at hch
          have hch' := chain_step hlowP (hP start hst) hxs (a := pt p) (b := pt b) (rest := rest.map pt) hch hb hbest hws'
          have hnd := hch'.nodup
          rw [List.nodup_cons] at hnd
          exact hnd.1 (List.mem_cons_of_mem _ (by simpa using List.mem_map_of_mem (f := pt) hwst))
      · exact hbest.extreme hne
    obtain ⟨V', e1, e2⟩ := giftRound_exact get pt n hn hget hinj start p w hp hw hexp hbest V hwV
    unfold giftLoop at h
    simp only [bind, Except.bind] at h
    rw [e1] at h
    simp only at h
    by_cases hws : w = start
    · subst hws
      rw [if_pos (by simp)] at h
      simp only [Except.ok.injEq] at h
      subst h
      rcases hinv with ⟨rfl, rfl⟩ | ⟨b, rest, rfl, hb, hps, hch⟩
      · exact absurd rfl hbest.ne
      · rw [← hxs'] at hch
        have hdone : ScanDone (pt w) xs (pt p) ((b :: rest).map pt) := by
          refine ⟨hch, fun x hx => ?_, fun e => by simp at e⟩
          rw [← orient_rot]
          exact hbest.left x ((hxs x).1 hx).1
        have := hdone.hull (pts := (List.range n).map pt) (by simp) (hP w hw)
          (fun x hx => hlowP x ((hxs x).1 hx).1 ((hxs x).1 hx).2) (by
            intro x
            rw [hxs]
            constructor
            · intro hx
              by_cases e : x = pt w
              · exact Or.inl e
              · exact Or.inr ⟨hx, e⟩
            · rintro (rfl | ⟨hx, -⟩)
              · exact hP w hw
              · exact hx)
        refine ⟨by simpa using this, ?_⟩
        obtain ⟨st', hlast⟩ := hch.last
        have hl : ((p :: b :: rest).map pt).getLast? = some (pt w) := by
          rw [hlast, List.getLast?_append]; simp
        rw [List.getLast?_map] at hl
        rw [List.head?_reverse]
        cases hg : (p :: b :: rest).getLast? with
        | none => rw [hg] at hl; simp at hl
        | some q =>
          rw [hg] at hl
          simp only [Option.map_some, Option.some_inj] at hl
          have hq : q < n := by
            have := List.mem_of_getLast? hg
            rcases List.mem_cons.1 this with rfl | h
            · exact hp
            · exact hstn q h
          rw [hinj q hq w hw hl]
    · rw [if_neg (by simpa using hws)] at h
      have hws' : pt w ≠ pt start := fun e => hws (hinj _ hw _ hst e)
      refine ih w V' (p :: st) r hw ?_ ?_ (Or.inr ⟨p, st, rfl, hbest, hws, ?_⟩) h
      · intro x hx
        rcases e2 x hx with h | ⟨rfl, h⟩ | h
        · rcases hV x h with ⟨h1, h2⟩ | h
          · exact Or.inl ⟨List.mem_cons_of_mem _ h1, h2⟩
          · exact Or.inr h
        · exact Or.inl ⟨List.mem_cons_self, h⟩
        · exact Or.inr h
      · intro x hx
        rcases List.mem_cons.1 hx with rfl | hx
        · exact hp
        · exact hstn x hx
      · rcases hinv with ⟨rfl, rfl⟩ | ⟨b, rest, rfl, hb, hps, hch⟩
        · rw [← hxs']
          exact chain_start hlowP hxs hbest
        · rw [← hxs'] at hch ⊢
          exact chain_step hlowP (hP start hst) hxs (a := pt p) (b := pt b) (rest := rest.map pt) hch hb hbest hws'

end
end Verif.Hull
