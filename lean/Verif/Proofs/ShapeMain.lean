import Verif.Proofs.ShapeCover
/-! Invariants of the two stages of `divide_into_shapes`. -/
namespace Verif.Shape
open Verif Verif.Spec.Shape
open scoped Classical

def Pend (cands : List (Nat × List Nat)) (a b : Nat) : Prop := ∃ arr, (a, arr) ∈ cands ∧ b ∈ arr
def Done (cands : List (Nat × List Nat)) (u v : Nat) : Prop := ¬ Pend cands (min u v) (max u v)

/-- the form of a returned shape -/
def ShapeOk (m : Nat) (term : SetVob) (g : List Nat) : Prop :=
  ∃ a mid b, g = a :: (mid ++ [b]) ∧ (∀ x ∈ mid, x ≤ m ∧ term.test x = false) ∧ mid.Nodup ∧ a ∉ mid ∧
    a ≤ m ∧ b ≤ m ∧ ((term.test a = true ∧ term.test b = true) ∨ a = b)

structure Inv1 (E : Nat → Nat → Prop) (m : Nat) (term : SetVob) (cands : List (Nat × List Nat))
    (visited : SetVob) (groups : List (List Nat)) (x : Option (Nat × Nat)) : Prop where
  wf : visited.WF (m + 1)
  disj : Disj visited term
  clos : ∀ w u, visited.test w = true → E w u → visited.test u = true ∨ term.test u = true
  occ : ∀ u v, occurrences groups u v =
    if E u v ∧ (visited.test u = true ∨ visited.test v = true ∨
      (term.test u = true ∧ term.test v = true ∧ Done cands u v)) then 1 else 0
  cand : ∀ p ∈ cands, term.test p.1 = true ∧ p.2.Nodup ∧ ∀ n ∈ p.2, E p.1 n
  nodup : (cands.map Prod.fst).Nodup
  doneT : ∀ t n, term.test t = true → E t n → ¬ Pend cands t n →
    visited.test n = true ∨ term.test n = true ∨ x = some (t, n)
  shapes : ∀ g ∈ groups, ShapeOk m term g

theorem pend_pop (t n : Nat) (arr : List Nat) (cs : List (Nat × List Nat)) (a b : Nat) :
    Pend ((t, n :: arr) :: cs) a b ↔ Pend ((t, arr) :: cs) a b ∨ (a = t ∧ b = n) := by
  simp only [Pend, List.mem_cons, Prod.mk.injEq]
  constructor
  · rintro ⟨ar, (⟨rfl, rfl⟩ | h), hb⟩
    · rcases List.mem_cons.1 hb with rfl | hb
      · exact Or.inr ⟨rfl, rfl⟩
      · exact Or.inl ⟨arr, Or.inl ⟨rfl, rfl⟩, hb⟩
    · exact Or.inl ⟨ar, Or.inr h, hb⟩
  · rintro (⟨ar, (⟨rfl, rfl⟩ | h), hb⟩ | ⟨rfl, rfl⟩)
    · exact ⟨n :: ar, Or.inl ⟨rfl, rfl⟩, by simp [hb]⟩
    · exact ⟨ar, Or.inr h, hb⟩
    · exact ⟨b :: arr, Or.inl ⟨rfl, rfl⟩, by simp⟩

theorem not_pend_top {t n : Nat} {arr : List Nat} {cs : List (Nat × List Nat)}
    (hn : (((t, n :: arr) :: cs).map Prod.fst).Nodup) (ha : (n :: arr).Nodup) :
    ¬ Pend ((t, arr) :: cs) t n := by
  rintro ⟨ar, h, hb⟩
  rcases List.mem_cons.1 h with h | h
  · simp only [Prod.mk.injEq, true_and] at h
    subst h
    exact (List.nodup_cons.1 ha).1 hb
  · simp only [List.map_cons, List.nodup_cons] at hn
    exact hn.1 (List.mem_map.2 ⟨_, h, rfl⟩)

theorem min_max_eq {u v t n : Nat} : (min u v = t ∧ max u v = n) ↔
    (t ≤ n ∧ ((u = t ∧ v = n) ∨ (u = n ∧ v = t))) := by
  omega

theorem scanArray_inv {E m adj term} (c : Ctx E m adj term) (hns : ∀ v, ¬ E v v) {visited : SetVob}
    (t : Nat) (cs : List (Nat × List Nat)) :
    ∀ (arr : List Nat) (groups : List (List Nat)),
    Inv1 E m term ((t, arr) :: cs) visited groups none →
    ∃ next arr' groups', scanArray term visited t arr groups = .ok (next, arr', groups') ∧
      (next = none → arr' = [] ∧ Inv1 E m term ((t, []) :: cs) visited groups' none) ∧
      (∀ n, next = some n → Inv1 E m term ((t, arr') :: cs) visited groups' (some (t, n)) ∧
        E t n ∧ visited.test n = false ∧ term.test n = false ∧ arr'.length < arr.length) := by
  intro arr
  induction arr with
  | nil =>
    intro groups h
    exact ⟨none, [], groups, rfl, fun _ => ⟨rfl, h⟩, by simp⟩
  | cons n arr ih =>
    intro groups h
    have hcand := h.cand (t, n :: arr) (by simp)
    have hEn : E t n := hcand.2.2 n (by simp)
    have hn : n ≤ m := (c.rng _ _ hEn).2
    have hTt : term.test t = true := hcand.1
    have hnp := not_pend_top h.nodup hcand.2.1
    have htn : t ≠ n := by rintro rfl; exact hns _ hEn
    have hVt : visited.test t = false := by
      by_contra hcon
      exact h.disj t ⟨by simpa using hcon, hTt⟩
    have hcand' : ∀ p ∈ (t, arr) :: cs, term.test p.1 = true ∧ p.2.Nodup ∧ ∀ k ∈ p.2, E p.1 k := by
      intro p hp
      rcases List.mem_cons.1 hp with rfl | hp
      · exact ⟨hTt, (List.nodup_cons.1 hcand.2.1).2, fun k hk => hcand.2.2 k (by simp [hk])⟩
      · exact h.cand p (by simp [hp])
    have hnodup' : (((t, arr) :: cs).map Prod.fst).Nodup := by simpa using h.nodup
    -- `Done` only changes for the popped pair
    have hdone : ∀ u v, ¬ (t < n ∧ isEdge u v (t, n) = true) →
        (Done ((t, n :: arr) :: cs) u v ↔ Done ((t, arr) :: cs) u v) := by
      intro u v hne
      unfold Done
      rw [pend_pop, not_or]
      constructor
      · exact fun h => h.1
      · intro h
        refine ⟨h, ?_⟩
        rw [min_max_eq, ]
        rintro ⟨h1, h2⟩
        apply hne
        refine ⟨lt_of_le_of_ne h1 htn, ?_⟩
        rw [isEdge_iff]
        rcases h2 with ⟨rfl, rfl⟩ | ⟨rfl, rfl⟩
        · exact Or.inl ⟨rfl, rfl⟩
        · exact Or.inr ⟨rfl, rfl⟩
    have hdoneT : ∀ (P : Prop), (visited.test n = true ∨ term.test n = true ∨ P) →
        ∀ t' n', term.test t' = true → E t' n' → ¬ Pend ((t, arr) :: cs) t' n' →
        visited.test n' = true ∨ term.test n' = true ∨ (P ∧ t' = t ∧ n' = n) := by
      intro P hP t' n' h1 h2 h3
      by_cases hp : t' = t ∧ n' = n
      · obtain ⟨rfl, rfl⟩ := hp
        rcases hP with h | h | h
        · exact Or.inl h
        · exact Or.inr (Or.inl h)
        · exact Or.inr (Or.inr ⟨h, rfl, rfl⟩)
      · rcases h.doneT t' n' h1 h2 (by rw [pend_pop]; tauto) with h | h | h
        · exact Or.inl h
        · exact Or.inr (Or.inl h)
        · simp at h
    rw [scanArray, SetVob.get_ok c.twf (show n < m + 1 by omega)]
    simp only [bind_ok]
    have lift : ∀ g', Inv1 E m term ((t, arr) :: cs) visited g' none →
        ∃ next arr' groups', scanArray term visited t arr g' = .ok (next, arr', groups') ∧
        (next = none → arr' = [] ∧ Inv1 E m term ((t, []) :: cs) visited groups' none) ∧
        (∀ k, next = some k → Inv1 E m term ((t, arr') :: cs) visited groups' (some (t, k)) ∧
          E t k ∧ visited.test k = false ∧ term.test k = false ∧
          arr'.length < (n :: arr).length) := by
      intro g' hi
      obtain ⟨a1, a2, a3, a4, a5, a6⟩ := ih g' hi
      refine ⟨a1, a2, a3, a4, a5, fun k hk => ?_⟩
      obtain ⟨b1, b2, b3, b4, b5⟩ := a6 k hk
      exact ⟨b1, b2, b3, b4, by simp; omega⟩
    by_cases hTn : term.test n = true
    · simp only [hTn, if_true]
      have hdT : ∀ t' n', term.test t' = true → E t' n' → ¬ Pend ((t, arr) :: cs) t' n' →
          visited.test n' = true ∨ term.test n' = true ∨ (none : Option (Nat × Nat)) = some (t', n') := by
        intro t' n' h1 h2 h3
        rcases hdoneT False (Or.inr (Or.inl hTn)) t' n' h1 h2 h3 with h | h | h
        · exact Or.inl h
        · exact Or.inr (Or.inl h)
        · exact absurd h.1 (by simp)
      have hVn : visited.test n = false := by
        by_contra hcon
        exact h.disj n ⟨by simpa using hcon, hTn⟩
      by_cases hlt : t < n
      · simp only [hlt, if_true]
        apply lift
        refine ⟨h.wf, h.disj, h.clos, ?_, hcand', hnodup', hdT, ?_⟩
        · intro u v
          rw [occ_append, h.occ u v]
          have e1 : occL [t, n] u v = if isEdge u v (t, n) then 1 else 0 := by
            simp [occL, windows, List.countP_cons]
          rw [e1]
          by_cases he : isEdge u v (t, n) = true
          · have hmm : min u v = t ∧ max u v = n := by
              rw [min_max_eq]
              rcases (isEdge_iff _ _ _ _).1 he with ⟨rfl, rfl⟩ | ⟨rfl, rfl⟩
              · exact ⟨hlt.le, Or.inl ⟨rfl, rfl⟩⟩
              · exact ⟨hlt.le, Or.inr ⟨rfl, rfl⟩⟩
            have hd1 : ¬ Done ((t, n :: arr) :: cs) u v := by
              unfold Done; rw [hmm.1, hmm.2, pend_pop]; simp
            have hd2 : Done ((t, arr) :: cs) u v := by
              unfold Done; rw [hmm.1, hmm.2]; exact hnp
            rw [if_pos he]
            rcases (isEdge_iff _ _ _ _).1 he with ⟨rfl, rfl⟩ | ⟨rfl, rfl⟩
            · rw [if_neg, if_pos ⟨hEn, Or.inr (Or.inr ⟨hTt, hTn, hd2⟩)⟩]
              rintro ⟨_, h | h | h⟩
              · rw [hVt] at h; simp at h
              · rw [hVn] at h; simp at h
              · exact hd1 h.2.2
            · rw [if_neg, if_pos ⟨c.symm _ _ hEn, Or.inr (Or.inr ⟨hTn, hTt, hd2⟩)⟩]
              rintro ⟨_, h | h | h⟩
              · rw [hVn] at h; simp at h
              · rw [hVt] at h; simp at h
              · exact hd1 h.2.2
          · rw [if_neg he, Nat.add_zero, hdone u v (fun h => he h.2)]
        · intro g hg
          rcases List.mem_append.1 hg with hg | hg
          · exact h.shapes g hg
          · have hg : g = [t, n] := by simpa using hg
            subst hg
            have := (c.rng _ _ hEn).1
            exact ⟨t, [], n, rfl, by simp, by simp, by simp, this, hn, Or.inl ⟨hTt, hTn⟩⟩
      · simp only [hlt, if_false]
        apply lift
        refine ⟨h.wf, h.disj, h.clos, ?_, hcand', hnodup', hdT, h.shapes⟩
        intro u v
        rw [h.occ u v, hdone u v (fun h => hlt h.1)]
    · have hTn' : term.test n = false := by simpa using hTn
      simp only [hTn', Bool.false_eq_true, if_false]
      rw [SetVob.get_ok h.wf (show n < m + 1 by omega)]
      simp only [bind_ok]
      have hocc : ∀ u v, occurrences groups u v =
          if E u v ∧ (visited.test u = true ∨ visited.test v = true ∨
            (term.test u = true ∧ term.test v = true ∧ Done ((t, arr) :: cs) u v)) then 1 else 0 := by
        intro u v
        rw [h.occ u v]
        by_cases he : t < n ∧ isEdge u v (t, n) = true
        · congr 2
          rw [eq_iff_iff]
          rcases (isEdge_iff _ _ _ _).1 he.2 with ⟨rfl, rfl⟩ | ⟨rfl, rfl⟩ <;> simp [hTn']
        · rw [hdone u v he]
      by_cases hVn : visited.test n = true
      · simp only [hVn, if_true]
        apply lift
        refine ⟨h.wf, h.disj, h.clos, hocc, hcand', hnodup', ?_, h.shapes⟩
        intro t' n' h1 h2 h3
        rcases hdoneT False (Or.inl hVn) t' n' h1 h2 h3 with h | h | h
        · exact Or.inl h
        · exact Or.inr (Or.inl h)
        · exact absurd h.1 (by simp)
      · have hVn' : visited.test n = false := by simpa using hVn
        simp only [hVn', Bool.false_eq_true, if_false]
        refine ⟨some n, arr, groups, rfl, by simp, ?_⟩
        rintro k hk
        have hk : n = k := by simpa using hk
        subst hk
        refine ⟨⟨h.wf, h.disj, h.clos, hocc, hcand', hnodup', ?_, h.shapes⟩, hEn, hVn', hTn', by simp⟩
        intro t' n' h1 h2 h3
        rcases hdoneT True (Or.inr (Or.inr trivial)) t' n' h1 h2 h3 with h | h | ⟨_, rfl, rfl⟩
        · exact Or.inl h
        · exact Or.inr (Or.inl h)
        · exact Or.inr (Or.inr rfl)

theorem stage1_inv {E m adj term} (c : Ctx E m adj term) (hns : ∀ v, ¬ E v v) :
    ∀ (fuel : Nat) (cands : List (Nat × List Nat)) (visited : SetVob) (groups : List (List Nat)),
    Inv1 E m term cands visited groups none →
    (cands.map fun c => c.2.length + 1).sum + 1 ≤ fuel →
    ∃ v' g', stage1 adj term fuel cands visited groups = .ok (v', g') ∧ Inv1 E m term [] v' g' none := by
  intro fuel
  induction fuel with
  | zero => intros; omega
  | succ fuel ih =>
    intro cands visited groups h hf
    rcases cands with _ | ⟨⟨t, arr⟩, cs⟩
    · exact ⟨_, _, rfl, h⟩
    · obtain ⟨next, arr', g', e, h1, h2⟩ := scanArray_inv c hns t cs arr groups h
      rw [stage1, e]
      simp only [bind_ok]
      simp only [List.map_cons, List.sum_cons] at hf
      rcases next with _ | n
      · obtain ⟨rfl, hi⟩ := h1 rfl
        simp only [List.isEmpty_nil, Bool.not_true, Bool.false_eq_true, if_false]
        apply ih _ _ _ _ (by omega)
        have hp : ∀ a b, Pend ((t, []) :: cs) a b ↔ Pend cs a b := by
          intro a b
          simp only [Pend, List.mem_cons, Prod.mk.injEq]
          constructor
          · rintro ⟨ar, (⟨rfl, rfl⟩ | h), hb⟩
            · simp at hb
            · exact ⟨ar, h, hb⟩
          · rintro ⟨ar, h, hb⟩; exact ⟨ar, Or.inr h, hb⟩
        have hp' : Pend ((t, []) :: cs) = Pend cs := by funext a b; exact propext (hp a b)
        refine ⟨hi.wf, hi.disj, hi.clos, ?_, fun p hp => hi.cand p (by simp [hp]), ?_, ?_, hi.shapes⟩
        · have hdd : Done ((t, []) :: cs) = Done cs := by
            funext a b; simp only [Done, hp']
          have := hi.occ
          rw [hdd] at this
          exact this
        · have := hi.nodup
          simp only [List.map_cons, List.nodup_cons] at this
          exact this.2
        · have := hi.doneT
          rw [hp'] at this
          exact this
      · obtain ⟨hi, hEn, hVn, hTn, hlen⟩ := h2 n rfl
        simp only
        have hTt := (hi.cand (t, arr') (by simp)).1
        have hVt : visited.test t = false := by
          by_contra hcon
          exact h.disj t ⟨by simpa using hcon, hTt⟩
        have htm := (c.rng _ _ hEn).1
        have hwalk := walk1 c hns (occurrences g') (Done ((t, arr') :: cs)) (visited.vob.length + 2) n t []
          visited hi.wf hi.disj (by rw [hi.wf.len]; omega) hVn hEn (Or.inl hTt) (fun _ => hTn)
          (fun w u h1 h2 => (hi.clos w u h1 h2).imp id Or.inl)
          (by
            intro u v
            rw [List.nil_append, occL_single, Nat.add_zero, hi.occ u v]
            congr 1
            rw [eq_iff_iff]
            constructor
            · rintro ⟨h1, h2⟩
              refine ⟨h1, h2, ?_⟩
              rw [← Bool.not_eq_true, isEdge_iff]
              rintro (⟨rfl, rfl⟩ | ⟨rfl, rfl⟩)
              · rw [hVn, hVt, hTn] at h2; simp at h2
              · rw [hVn, hVt, hTn] at h2; simp at h2
            · rintro ⟨h1, h2, _⟩; exact ⟨h1, h2⟩)
        obtain ⟨line', v', e', w1, hVn'⟩ := hwalk
        have e'' : unwindLine t (some n) adj term visited = .ok (line', v') := by
          unfold unwindLine
          simp only
          rw [SetVob.get_ok c.twf (show t < m + 1 by omega)]
          simp only [bind_ok, hTt, Bool.not_true, Bool.false_eq_true, if_false, pure_ok]
          exact e'
        rw [e'']
        simp only [bind_ok]
        apply ih _ _ _ _ (by simp only [List.map_cons, List.sum_cons]; omega)
        refine ⟨w1.wf, w1.disj, w1.clos, ?_, hi.cand, hi.nodup, ?_, ?_⟩
        · intro u v
          rw [occ_append, w1.occ u v]
        · intro t' n' h1 h2 h3
          rcases hi.doneT t' n' h1 h2 h3 with h | h | h
          · exact Or.inl (w1.mono _ h)
          · exact Or.inr (Or.inl h)
          · simp only [Option.some.injEq, Prod.mk.injEq] at h
            exact Or.inl (h.2 ▸ hVn' hTn)
        · intro g hg
          rcases List.mem_append.1 hg with hg | hg
          · exact hi.shapes g hg
          · have hg : g = line' := by simpa using hg
            subst hg
            obtain ⟨mid, ee, s1, s2, s3, s4⟩ := w1.shape
            have hmT : ∀ x ∈ mid, x ≤ m ∧ term.test x = false := by
              intro x hx
              have hx' := (s4 x hx).2
              refine ⟨by have := SetVob.test_lt w1.wf hx'; omega, ?_⟩
              by_contra hcon
              exact w1.disj x ⟨hx', by simpa using hcon⟩
            refine ⟨t, mid, ee, by rw [s1]; simp, hmT, s3, ?_, htm, ?_, Or.inl ⟨hTt, s2⟩⟩
            · intro hm
              have := (hmT t hm).2
              rw [hTt] at this; simp at this
            · have := SetVob.test_lt c.twf s2; omega

structure Inv2 (E : Nat → Nat → Prop) (m : Nat) (term : SetVob)
    (visited : SetVob) (groups : List (List Nat)) : Prop where
  wf : visited.WF (m + 1)
  disj : Disj visited term
  clos : ∀ w u, visited.test w = true → E w u → visited.test u = true ∨ term.test u = true
  occ : ∀ u v, occurrences groups u v =
    if E u v ∧ (visited.test u = true ∨ visited.test v = true ∨
      (term.test u = true ∧ term.test v = true ∧ True)) then 1 else 0
  doneT : ∀ t n, term.test t = true → E t n → visited.test n = true ∨ term.test n = true
  shapes : ∀ g ∈ groups, ShapeOk m term g

theorem Inv1.toInv2 {E m term visited groups} (h : Inv1 E m term [] visited groups none) :
    Inv2 E m term visited groups := by
  have hp : ∀ a b, ¬ Pend [] a b := by intro a b; simp [Pend]
  refine ⟨h.wf, h.disj, h.clos, ?_, ?_, h.shapes⟩
  · intro u v
    rw [h.occ u v]
    simp [Done, hp]
  · intro t n h1 h2
    rcases h.doneT t n h1 h2 (hp _ _) with h | h | h
    · exact Or.inl h
    · exact Or.inr h
    · simp at h

/-- neighbours of a free vertex are free -/
theorem Inv2.free {E m adj term visited groups} (c : Ctx E m adj term)
    (h : Inv2 E m term visited groups) {w u : Nat} (hE : E w u) (hV : visited.test w = false)
    (hT : term.test w = false) : visited.test u = false ∧ term.test u = false := by
  constructor
  · by_contra hcon
    rcases h.clos u w (by simpa using hcon) (c.symm _ _ hE) with h' | h'
    · rw [hV] at h'; simp at h'
    · rw [hT] at h'; simp at h'
  · by_contra hcon
    rcases h.doneT u w (by simpa using hcon) (c.symm _ _ hE) with h' | h'
    · rw [hV] at h'; simp at h'
    · rw [hT] at h'; simp at h'

/-- a second stage walk from a free vertex -/
theorem walkLoop {E m adj term visited groups} (c : Ctx E m adj term) (hns : ∀ v, ¬ E v v)
    (h : Inv2 E m term visited groups) {k : Nat} (hk : k ≤ m) (hV : visited.test k = false)
    (hT : term.test k = false) :
    ∃ y rest v', unwindLine k none adj term visited = .ok (k :: y :: rest, v') ∧
      Inv2 E m term v' (groups ++ [(k :: y :: rest) ++ [k]]) ∧
      (∀ j, visited.test j = true → v'.test j = true) ∧ v'.test k = true ∧
      visited.numberOfSetBits + 1 ≤ v'.numberOfSetBits := by
  obtain ⟨lx, vx, ex, _, hcntx⟩ := unwindLine_ok c (next := none) h.wf hk (by simp) h.disj
  have hcntx := hcntx rfl hV hT
  have hc1 : k < m + 1 := by omega
  obtain ⟨s', hs, hw', htest, hcount, _⟩ := SetVob.set_ok h.wf hc1
  have hcount := hcount hV
  have hcle := SetVob.count_le hw'
  have hd' : Disj s' term := disj_set h.disj hT htest
  have hdeg : ∃ a b, adj k = some [a, b] := by
    have := c.tspec k hk
    by_contra hcon
    rw [this.2 hcon] at hT; simp at hT
  obtain ⟨n0, n1, hadj⟩ := hdeg
  obtain ⟨hnd, hmem⟩ := c.of_adj hadj
  have hn01 : n0 ≠ n1 := by simpa using hnd
  have hE0 : E k n0 := (hmem n0).1 (by simp)
  have hE1 : E k n1 := (hmem n1).1 (by simp)
  have hr0 := (c.rng _ _ hE0).2
  have hr1 := (c.rng _ _ hE1).2
  have f0 := h.free c hE0 hV hT
  have f1 := h.free c hE1 hV hT
  have hk0 : n0 ≠ k := by rintro rfl; exact hns _ hE0
  have hk1 : n1 ≠ k := by rintro rfl; exact hns _ hE1
  have s0 : s'.test n0 = false := by rw [htest, f0.1]; simp [hk0]
  have s1 : s'.test n1 = false := by rw [htest, f1.1]; simp [hk1]
  have sk : s'.test k = true := by rw [htest]; simp
  have hnb : ∀ u, E k u ↔ u = n0 ∨ u = n1 := fun u => by rw [← hmem u]; simp
  have hmono' : ∀ j, visited.test j = true → s'.test j = true := fun j hj => by
      rw [htest, hj]; rfl
  obtain ⟨line', v', e', w2⟩ := walk2 c hns (occurrences groups) (fun _ _ => True) k n1 hE1 f1.2
    (visited.vob.length + 1) n0 k [] s' hw' hd' (by rw [h.wf.len]; omega) s0 f0.2 hE0 sk sk s1
    (fun h => absurd h hn01)
    (by
      intro w u h1 h2 h3
      have h2' : visited.test w = false := by
        rw [htest] at h2
        simp only [Bool.or_eq_false_iff] at h2
        exact h2.1
      exact (h.free c h1 h2' h3).2)
    (by
      intro w u h1 h2
      rw [htest] at h1
      simp only [Bool.or_eq_true, decide_eq_true_eq] at h1
      rcases h1 with h1 | rfl
      · rcases h.clos w u h1 h2 with h | h
        · exact Or.inl (hmono' _ h)
        · exact Or.inr (Or.inl h)
      · rcases (hnb u).1 h2 with rfl | rfl
        · exact Or.inr (Or.inr (Or.inl ⟨rfl, rfl⟩))
        · exact Or.inr (Or.inr (Or.inr ⟨rfl, rfl⟩)))
    (by
      intro u v
      rw [List.nil_append, occL_single, Nat.add_zero, h.occ u v]
      congr 1
      rw [eq_iff_iff]
      constructor
      · rintro ⟨h1, h2⟩
        refine ⟨h1, ?_, ?_, ?_⟩
        · rcases h2 with h | h | h
          · exact Or.inl (hmono' _ h)
          · exact Or.inr (Or.inl (hmono' _ h))
          · exact Or.inr (Or.inr h)
        · rw [← Bool.not_eq_true, isEdge_iff]
          rintro (⟨rfl, rfl⟩ | ⟨rfl, rfl⟩)
          · rw [hV, f0.1, hT] at h2; simp at h2
          · rw [hV, f0.1, hT] at h2; simp at h2
        · rw [← Bool.not_eq_true, isEdge_iff]
          rintro (⟨rfl, rfl⟩ | ⟨rfl, rfl⟩)
          · rw [hV, f1.1, hT] at h2; simp at h2
          · rw [hV, f1.1, hT] at h2; simp at h2
      · rintro ⟨h1, h2, h3, h4⟩
        refine ⟨h1, ?_⟩
        rw [← Bool.not_eq_true, isEdge_iff] at h3 h4
        have huk : u ≠ k := by
          rintro rfl
          rcases (hnb v).1 h1 with rfl | rfl
          · exact h3 (Or.inl ⟨rfl, rfl⟩)
          · exact h4 (Or.inl ⟨rfl, rfl⟩)
        have hvk : v ≠ k := by
          rintro rfl
          rcases (hnb u).1 (c.symm _ _ h1) with rfl | rfl
          · exact h3 (Or.inr ⟨rfl, rfl⟩)
          · exact h4 (Or.inr ⟨rfl, rfl⟩)
        rw [htest, htest] at h2
        simpa [huk, hvk] using h2)
  have e'' : unwindLine k none adj term visited = .ok (line', v') := by
    unfold unwindLine
    simp only
    rw [unwindLoop, SetVob.get_ok h.wf hc1, SetVob.get_ok c.twf hc1, hs, hadj]
    simp only [bind_ok, hV, hT, Bool.or_self, Bool.false_eq_true, if_false]
    rw [SetVob.get_ok hw' (show n0 < m + 1 by omega)]
    have : ((none : Option Nat) == some n0) = false := rfl
    simp only [bind_ok, s0, this, Bool.or_self, Bool.not_false, if_true]
    exact e'
  rw [ex] at e''
  simp only [Except.ok.injEq, Prod.mk.injEq] at e''
  obtain ⟨rfl, rfl⟩ := e''
  obtain ⟨mid, q1, q2, q3, q4⟩ := w2.shape
  rcases mid with _ | ⟨y, rest⟩
  · exact absurd rfl q2
  have q1 : lx = k :: y :: rest := by rw [q1]; rfl
  subst q1
  refine ⟨y, rest, vx, ex, ⟨w2.wf, w2.disj, w2.clos, ?_, ?_, ?_⟩, fun j hj => w2.mono _ (hmono' _ hj),
    hcntx.1, hcntx.2⟩
  · intro u v
    rw [occ_append, w2.occ u v]
    simp only [and_true]
  · intro t n h1 h2
    exact (h.doneT t n h1 h2).imp (fun h => w2.mono _ (hmono' _ h)) id
  · intro g hg
    rcases List.mem_append.1 hg with hg | hg
    · exact h.shapes g hg
    · have hg : g = (k :: y :: rest) ++ [k] := by simpa using hg
      subst hg
      refine ⟨k, y :: rest, k, by simp, ?_, q3, ?_, hk, hk, Or.inr rfl⟩
      · intro x hx
        have hx' := (q4 x hx).2
        refine ⟨by have := SetVob.test_lt w2.wf hx'; omega, ?_⟩
        by_contra hcon
        exact w2.disj x ⟨hx', by simpa using hcon⟩
      · intro hm
        have := (q4 k hm).1
        rw [sk] at this; simp at this

/-- fewer than two free places -/
theorem no_free {E m adj term visited groups} (c : Ctx E m adj term) (hns : ∀ v, ¬ E v v)
    (h : Inv2 E m term visited groups)
    (hcnt : visited.numberOfSetBits + term.numberOfSetBits ≥ m) :
    ∀ x, x ≤ m → visited.test x = true ∨ term.test x = true := by
  intro x hx
  by_contra hcon
  simp only [not_or, Bool.not_eq_true] at hcon
  have hdeg : ∃ a b, adj x = some [a, b] := by
    have := c.tspec x hx
    by_contra hc
    rw [this.2 hc] at hcon; simp at hcon
  obtain ⟨n0, n1, hadj⟩ := hdeg
  have hE : E x n0 := ((c.of_adj hadj).2 n0).1 (by simp)
  have f := h.free c hE hcon.1 hcon.2
  have hne : n0 ≠ x := by rintro rfl; exact hns _ hE
  obtain ⟨s', hs, hw', htest, hcount, _⟩ := SetVob.set_ok h.wf (show x < m + 1 by omega)
  have hcount := hcount hcon.1
  have hd' : Disj s' term := disj_set h.disj hcon.2 htest
  have := (exists_free hw' c.twf hd').2 ⟨n0, (c.rng _ _ hE).2, by rw [htest, f.1]; simp [hne], f.2⟩
  omega

theorem stage2_inv {E m adj term} (c : Ctx E m adj term) (hns : ∀ v, ¬ E v v) :
    ∀ (fuel mn : Nat) (visited : SetVob) (groups : List (List Nat)),
    Inv2 E m term visited groups → mn ≤ m →
    (∀ i, i < mn → visited.test i = true ∨ term.test i = true) →
    visited.numberOfSetBits + term.numberOfSetBits < m + 1 →
    m + 1 - visited.numberOfSetBits ≤ fuel →
    ∃ v' g', stage2 adj term m fuel mn visited groups = .ok (v', g') ∧ Inv2 E m term v' g' ∧
      v'.numberOfSetBits + term.numberOfSetBits ≥ m := by
  intro fuel
  induction fuel with
  | zero => intro mn v g h _ _ _ h'; have := SetVob.count_le h.wf; omega
  | succ fuel ih =>
    intro mn visited groups h hmn hlt hcnt hf
    obtain ⟨x, hx, hxv, hxt⟩ := (exists_free h.wf c.twf h.disj).1 hcnt
    obtain ⟨k, e, hk, hkv, hkt, hklt⟩ := scanMin_ok c h.wf hx hxv hxt (m + 2) mn hmn (by omega) hlt
    rw [stage2, e]
    simp only [bind_ok]
    have hkm : ¬ k > m := by omega
    simp only [hkm, false_and, if_false]
    rw [SetVob.get_ok h.wf (show k < m + 1 by omega), hkv]
    simp only [bind_ok, Bool.false_eq_true, if_false]
    obtain ⟨y, rest, v', e', hi, hmono, hVk, hc⟩ := walkLoop c hns h hk hkv hkt
    rw [e']
    simp only [bind_ok]
    split
    · next hge => exact ⟨_, _, rfl, hi, hge⟩
    · next hlt2 =>
      exact ih k v' _ hi hk (fun i hi => (hklt i hi).imp (hmono i) id) (by omega) (by omega)

/-- two neighbours in terms of the adjacency map -/
theorem twoNeighbours_iff {indices m adj term} (c : Ctx (Edge indices) m adj term) (v : Nat) :
    TwoNeighbours indices v ↔ ∃ a b, adj v = some [a, b] := by
  constructor
  · rintro ⟨a, b, hab, h⟩
    have := c.adjS v
    rcases hm : adj v with _ | ns
    · rw [hm] at this
      exact absurd ((h a).2 (Or.inl rfl)) (this a)
    · rw [hm] at this
      simp only at this
      obtain ⟨_, hnd, hmem⟩ := this
      have hperm : ns.Perm [a, b] := by
        rw [List.perm_ext_iff_of_nodup hnd (by simpa using hab)]
        intro x
        rw [hmem, h]; simp
      have hl := hperm.length_eq
      obtain ⟨x, y, rfl⟩ := List.length_eq_two.1 hl
      exact ⟨x, y, rfl⟩
  · rintro ⟨a, b, h⟩
    obtain ⟨h1, h2⟩ := c.of_adj h
    exact ⟨a, b, by simpa using h1, fun u => by rw [← h2 u]; simp⟩

/-- Everything about a run without self edges. -/
theorem divide_spec (indices : List Nat) (hns : NoSelfEdge indices) :
    ∃ groups vob, divideIntoShapes indices = .ok (groups, vob) ∧
      vob.length = (adjacencyMap indices).1 + 1 ∧
      (∀ v, vob.getD v false = true ↔ TwoNeighbours indices v) ∧
      (∀ u v, occurrences groups u v = if Edge indices u v then 1 else 0) ∧
      (∀ g ∈ groups, ∃ a mid b, g = a :: (mid ++ [b]) ∧ (∀ x ∈ mid, TwoNeighbours indices x) ∧
        mid.Nodup ∧ a ∉ mid ∧
        ((¬ TwoNeighbours indices a ∧ ¬ TwoNeighbours indices b) ∨ a = b)) := by
  obtain ⟨r, e, cs⟩ := termCand_spec (adjacencyMap indices).1 (adjacencyMap indices).2
  have c := ctx_of indices cs
  set m := (adjacencyMap indices).1 with hm
  set adj := (adjacencyMap indices).2 with hadj
  have htwo : ∀ v, v ≤ m → (r.1.test v = true ↔ ¬ TwoNeighbours indices v) := fun v hv => by
    rw [c.tspec v hv, twoNeighbours_iff c]
  have hinit : Inv1 (Edge indices) m r.1 r.2 (SetVob.fillWithFalse (m + 1)) [] none := by
    have hcover : ∀ t n, r.1.test t = true → Edge indices t n → Pend r.2 t n := by
      intro t n h1 h2
      have ht := (c.rng _ _ h2).1
      have hspec := c.adjS t
      rcases hn : adj t with _ | ns
      · rw [hn] at hspec; exact absurd h2 (hspec n)
      · rw [hn] at hspec
        refine ⟨ns.reverse, (cs.cands (t, ns.reverse)).2 ⟨by simp; omega, ns, hn, ?_, rfl⟩, ?_⟩
        · intro hl
          obtain ⟨x, y, rfl⟩ := List.length_eq_two.1 hl
          exact (c.tspec t ht).1 h1 ⟨x, y, hn⟩
        · rw [List.mem_reverse]; exact (hspec.2.2 n).2 h2
    refine ⟨SetVob.fill_wf _, ?_, ?_, ?_, ?_, cs.nodup, ?_, by simp⟩
    · intro i; simp [SetVob.fill_test]
    · intro w u h; simp [SetVob.fill_test] at h
    · intro u v
      rw [if_neg]
      · simp [occurrences]
      · rintro ⟨h1, h | h | ⟨h2, h3, h4⟩⟩
        · simp [SetVob.fill_test] at h
        · simp [SetVob.fill_test] at h
        · unfold Done at h4
          rcases le_total u v with h | h
          · rw [min_eq_left h, max_eq_right h] at h4
            exact h4 (hcover u v h2 h1)
          · rw [min_eq_right h, max_eq_left h] at h4
            exact h4 (hcover v u h3 (edge_symm h1))
    · intro p hp
      obtain ⟨h1, ns, h2, h3, h4⟩ := (cs.cands p).1 hp
      obtain ⟨h5, h6⟩ := c.of_adj h2
      refine ⟨(c.tspec p.1 (by omega)).2 ?_, by rw [h4]; exact List.nodup_reverse.2 h5, ?_⟩
      · rintro ⟨a, b, hab⟩
        rw [h2] at hab
        simp only [Option.some.injEq] at hab
        subst hab; simp at h3
      · intro n hn
        rw [h4, List.mem_reverse] at hn
        exact (h6 n).1 hn
    · intro t n h1 h2 h3
      exact absurd (hcover t n h1 h2) h3
  obtain ⟨v', g', e', hi⟩ := stage1_inv c hns ((r.2.map fun c => c.2.length + 1).sum + 1) r.2 _ _ hinit
    (le_refl _)
  have hi2 := hi.toInv2
  have final : ∀ v'' g'', Inv2 (Edge indices) m r.1 v'' g'' →
      v''.numberOfSetBits + r.1.numberOfSetBits ≥ m →
      v''.vob.length = m + 1 ∧
      (∀ v, v''.vob.getD v false = true ↔ TwoNeighbours indices v) ∧
      (∀ u v, occurrences g'' u v = if Edge indices u v then 1 else 0) ∧
      (∀ g ∈ g'', ∃ a mid b, g = a :: (mid ++ [b]) ∧ (∀ x ∈ mid, TwoNeighbours indices x) ∧
        mid.Nodup ∧ a ∉ mid ∧
        ((¬ TwoNeighbours indices a ∧ ¬ TwoNeighbours indices b) ∨ a = b)) := by
    intro v'' g'' h hcnt
    have hnf := no_free c hns h hcnt
    refine ⟨h.wf.len, ?_, ?_, ?_⟩
    · intro v
      constructor
      · intro hv
        have hvm : v ≤ m := by have := SetVob.test_lt h.wf (i := v) hv; omega
        by_contra hcon
        exact h.disj v ⟨hv, (htwo v hvm).2 hcon⟩
      · intro hv
        have hvm : v ≤ m := by
          obtain ⟨a, b, _, hab⟩ := hv
          exact (c.rng _ _ ((hab a).2 (Or.inl rfl))).1
        rcases hnf v hvm with h' | h'
        · exact h'
        · exact absurd hv ((htwo v hvm).1 h')
    · intro u v
      rw [h.occ u v]
      congr 1
      rw [eq_iff_iff]
      refine ⟨fun h => h.1, fun hE => ⟨hE, ?_⟩⟩
      have hr := c.rng _ _ hE
      rcases hnf u hr.1 with h1 | h1
      · exact Or.inl h1
      · rcases hnf v hr.2 with h2 | h2
        · exact Or.inr (Or.inl h2)
        · exact Or.inr (Or.inr ⟨h1, h2, trivial⟩)
    · intro g hg
      obtain ⟨a, mid, b, h1, h2, h3, h4, h5, h6, h7⟩ := h.shapes g hg
      refine ⟨a, mid, b, h1, ?_, h3, h4, ?_⟩
      · intro x hx
        obtain ⟨hx1, hx2⟩ := h2 x hx
        by_contra hcon
        rw [(htwo x hx1).2 hcon] at hx2; simp at hx2
      · rcases h7 with ⟨ha, hb⟩ | h
        · exact Or.inl ⟨(htwo a h5).1 ha, (htwo b h6).1 hb⟩
        · exact Or.inr h
  unfold divideIntoShapes
  simp only [← hm, ← hadj]
  rw [e]
  simp only [bind_ok]
  rw [e']
  simp only [bind_ok]
  split
  · next hlt =>
    obtain ⟨v'', g'', e'', hi3, hge⟩ := stage2_inv c hns (m + 2) 0 v' g' hi2 (by omega) (by simp) hlt
      (by omega)
    rw [e'']
    exact ⟨_, _, rfl, final _ _ hi3 hge⟩
  · next hge => exact ⟨_, _, rfl, final _ _ hi2 (by omega)⟩

end Verif.Shape
