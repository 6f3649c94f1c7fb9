import Verif.Proofs.ShapeBasic
/-! `divide_into_shapes` never panics and always terminates. -/
namespace Verif.Shape
open Verif Verif.Spec.Shape

/-- everything the two stages know about the graph -/
structure Ctx (E : Nat → Nat → Prop) (m : Nat) (adj : AdjMap) (term : SetVob) : Prop where
  adjS : AdjSpec adj E
  rng : ∀ u v, E u v → u ≤ m ∧ v ≤ m
  symm : ∀ u v, E u v → E v u
  twf : term.WF (m + 1)
  tspec : ∀ v, v ≤ m → (term.test v = true ↔ ¬ ∃ a b, adj v = some [a, b])

theorem Ctx.of_adj {E m adj term} (c : Ctx E m adj term) {v : Nat} {ns : List Nat}
    (h : adj v = some ns) : ns.Nodup ∧ ∀ u, u ∈ ns ↔ E v u := by
  have := c.adjS v
  rw [h] at this
  exact ⟨this.2.1, this.2.2⟩

def Disj (a b : SetVob) : Prop := ∀ i, ¬ (a.test i = true ∧ b.test i = true)

@[simp] theorem bind_ok {ε α β : Type} (a : α) (f : α → Except ε β) :
    (Except.ok a >>= f) = f a := rfl
@[simp] theorem pure_ok {ε α : Type} (a : α) : (pure a : Except ε α) = .ok a := rfl

/-- result of a walk in an arbitrary graph -/
structure WalkOk (m : Nat) (term visited visited' : SetVob) : Prop where
  wf : visited'.WF (m + 1)
  disj : Disj visited' term
  mono : ∀ j, visited.test j = true → visited'.test j = true
  cnt : visited.numberOfSetBits ≤ visited'.numberOfSetBits

theorem disj_set {term v v' : SetVob} {cur : Nat} (hd : Disj v term)
    (ht : term.test cur = false) (h : ∀ j, v'.test j = (v.test j || decide (j = cur))) :
    Disj v' term := by
  rintro i ⟨h1, h2⟩
  rw [h] at h1
  simp at h1
  rcases h1 with h1 | rfl
  · exact hd i ⟨h1, h2⟩
  · rw [ht] at h2; simp at h2

theorem unwindLoop_ok {E m adj term} (c : Ctx E m adj term) :
    ∀ (fuel cur : Nat) (prev : Option Nat) (line : List Nat) (visited : SetVob),
    visited.WF (m + 1) → cur ≤ m → Disj visited term →
    (m + 1) - visited.numberOfSetBits + 1 ≤ fuel →
    ∃ line' v', unwindLoop adj term fuel cur prev line visited = .ok (line', v') ∧
      WalkOk m term visited v' ∧
      (visited.test cur = false → term.test cur = false →
        v'.test cur = true ∧ visited.numberOfSetBits + 1 ≤ v'.numberOfSetBits) := by
  intro fuel
  induction fuel with
  | zero => intro cur prev line visited hw hc hd hf; omega
  | succ fuel ih =>
    intro cur prev line visited hw hc hd hf
    have hc1 : cur < m + 1 := by omega
    rw [unwindLoop, SetVob.get_ok hw hc1, SetVob.get_ok c.twf hc1]
    simp only [bind_ok]
    by_cases hvt : (visited.test cur || term.test cur) = true
    · simp only [hvt, if_true, pure_ok]
      refine ⟨_, _, rfl, ⟨hw, hd, fun _ h => h, le_refl _⟩, ?_⟩
      intro h1 h2; simp [h1, h2] at hvt
    · simp only [hvt, Bool.false_eq_true, if_false]
      simp only [Bool.or_eq_true, not_or, Bool.not_eq_true] at hvt
      obtain ⟨hv0, ht0⟩ := hvt
      obtain ⟨s', hs, hw', htest, hcount, _⟩ := SetVob.set_ok hw hc1
      have hcount := hcount hv0
      have hd' : Disj s' term := disj_set hd ht0 htest
      have hok : WalkOk m term visited s' :=
        ⟨hw', hd', fun j hj => by rw [htest, hj]; rfl, by omega⟩
      have hcur : s'.test cur = true ∧ visited.numberOfSetBits + 1 ≤ s'.numberOfSetBits :=
        ⟨by rw [htest]; simp, by omega⟩
      have hcle := SetVob.count_le hw'
      rw [hs]
      simp only [bind_ok, pure_ok]
      have fin : ∀ (n : Nat), n ≤ m → ∀ line : List Nat,
          ∃ line' v', unwindLoop adj term fuel n (some cur) line s' = .ok (line', v') ∧
            WalkOk m term visited v' ∧
            (visited.test cur = false → term.test cur = false →
              v'.test cur = true ∧ visited.numberOfSetBits + 1 ≤ v'.numberOfSetBits) := by
        intro n hn line
        obtain ⟨l', v', e, wo, _⟩ := ih n (some cur) line s' hw' hn hd' (by omega)
        refine ⟨l', v', e, ⟨wo.wf, wo.disj, fun j hj => wo.mono j (hok.mono j hj), ?_⟩, ?_⟩
        · have := wo.cnt; omega
        · intro _ _; exact ⟨wo.mono _ hcur.1, by have := wo.cnt; omega⟩
      rcases hadj : adj cur with _ | ns
      · exact ⟨_, _, rfl, hok, fun _ _ => hcur⟩
      · rcases ns with _ | ⟨n0, _ | ⟨n1, _ | ⟨n2, ns⟩⟩⟩
        · exact ⟨_, _, rfl, hok, fun _ _ => hcur⟩
        · exact ⟨_, _, rfl, hok, fun _ _ => hcur⟩
        · have hmem := (c.of_adj hadj).2
          have h0 : n0 ≤ m := (c.rng _ _ ((hmem n0).1 (by simp))).2
          have h1 : n1 ≤ m := (c.rng _ _ ((hmem n1).1 (by simp))).2
          simp only
          rw [SetVob.get_ok hw' (show n0 < m + 1 by omega),
            SetVob.get_ok hw' (show n1 < m + 1 by omega)]
          simp only [bind_ok]
          split
          · exact fin n0 h0 _
          · split
            · exact fin n1 h1 _
            · exact ⟨_, _, rfl, hok, fun _ _ => hcur⟩
        · exact ⟨_, _, rfl, hok, fun _ _ => hcur⟩

theorem unwindLine_ok {E m adj term} (c : Ctx E m adj term) {cur : Nat} {next : Option Nat}
    {visited : SetVob} (hw : visited.WF (m + 1)) (hc : cur ≤ m) (hn : ∀ n ∈ next, n ≤ m)
    (hd : Disj visited term) :
    ∃ line v', unwindLine cur next adj term visited = .ok (line, v') ∧
      WalkOk m term visited v' ∧
      (next = none → visited.test cur = false → term.test cur = false →
        v'.test cur = true ∧ visited.numberOfSetBits + 1 ≤ v'.numberOfSetBits) := by
  unfold unwindLine
  rcases next with _ | n
  · simp only
    obtain ⟨l, v', e, wo, h⟩ := unwindLoop_ok c (visited.vob.length + 2) cur none [] visited hw hc hd
      (by rw [hw.len]; omega)
    exact ⟨l, v', e, wo, fun _ => h⟩
  · simp only
    have hn := hn n rfl
    rw [SetVob.get_ok c.twf (show cur < m + 1 by omega)]
    simp only [bind_ok, pure_ok]
    by_cases ht : term.test cur = true
    · simp only [ht, Bool.not_true, Bool.false_eq_true, if_false]
      obtain ⟨l, v', e, wo, h⟩ := unwindLoop_ok c (visited.vob.length + 2) n (some cur) [cur] visited
        hw hn hd (by rw [hw.len]; omega)
      exact ⟨l, v', e, wo, fun h => by simp at h⟩
    · simp only [Bool.not_eq_true] at ht
      obtain ⟨s', hs, hw', htest, _, hle⟩ := SetVob.set_ok hw (show cur < m + 1 by omega)
      simp only [ht, Bool.not_false, if_true, hs, bind_ok]
      obtain ⟨l, v', e, wo, h⟩ := unwindLoop_ok c (visited.vob.length + 2) n (some cur) [cur] s'
        hw' hn (disj_set hd ht htest) (by rw [hw.len]; omega)
      exact ⟨l, v', e, ⟨wo.wf, wo.disj, fun j hj => wo.mono j (by rw [htest, hj]; rfl),
        le_trans hle wo.cnt⟩, fun h => by simp at h⟩

theorem scanArray_ok {E m adj term} (c : Ctx E m adj term) {visited : SetVob}
    (hw : visited.WF (m + 1)) (cur : Nat) :
    ∀ (arr : List Nat) (groups : List (List Nat)), (∀ n ∈ arr, n ≤ m) →
    ∃ next arr' groups', scanArray term visited cur arr groups = .ok (next, arr', groups') ∧
      (∀ n ∈ arr', n ∈ arr) ∧ (∀ n ∈ next, n ∈ arr) ∧
      (next = none → arr' = []) ∧ (next ≠ none → arr'.length < arr.length) := by
  intro arr
  induction arr with
  | nil => intro groups _; exact ⟨none, [], groups, rfl, by simp, by simp, by simp, by simp⟩
  | cons n arr ih =>
    intro groups h
    have hn : n ≤ m := h n (by simp)
    have ih' := fun g => ih g (fun k hk => h k (by simp [hk]))
    rw [scanArray, SetVob.get_ok c.twf (show n < m + 1 by omega)]
    have ext : ∀ g, ∃ next arr' groups', scanArray term visited cur arr g = .ok (next, arr', groups') ∧
      (∀ k ∈ arr', k ∈ n :: arr) ∧ (∀ k ∈ next, k ∈ n :: arr) ∧
      (next = none → arr' = []) ∧ (next ≠ none → arr'.length < (n :: arr).length) := by
      intro g
      obtain ⟨a, b, d, e, h1, h2, h3, h4⟩ := ih' g
      exact ⟨a, b, d, e, fun k hk => by simp [h1 k hk], fun k hk => by simp [h2 k hk], h3,
        fun hh => by have := h4 hh; simp; omega⟩
    simp only [bind_ok]
    split
    · split
      · exact ext _
      · exact ext _
    · rw [SetVob.get_ok hw (show n < m + 1 by omega)]
      simp only [bind_ok]
      split
      · exact ext _
      · exact ⟨some n, arr, groups, rfl, fun k hk => by simp [hk],
          fun k hk => by simp at hk; simp [hk], by simp, by simp⟩

theorem stage1_ok {E m adj term} (c : Ctx E m adj term) :
    ∀ (fuel : Nat) (cands : List (Nat × List Nat)) (visited : SetVob) (groups : List (List Nat)),
    visited.WF (m + 1) → Disj visited term →
    (∀ p ∈ cands, p.1 ≤ m ∧ ∀ n ∈ p.2, n ≤ m) →
    (cands.map fun c => c.2.length + 1).sum + 1 ≤ fuel →
    ∃ v' g', stage1 adj term fuel cands visited groups = .ok (v', g') ∧ WalkOk m term visited v' := by
  intro fuel
  induction fuel with
  | zero => intro cands v g _ _ _ h; omega
  | succ fuel ih =>
    intro cands visited groups hw hd hr hf
    rcases cands with _ | ⟨⟨cur, arr⟩, cands⟩
    · exact ⟨_, _, rfl, hw, hd, fun _ h => h, le_refl _⟩
    · have hcur := hr (cur, arr) (by simp)
      obtain ⟨next, arr', g', e, h1, h2, h3, h4⟩ := scanArray_ok c hw cur arr groups hcur.2
      rw [stage1, e]
      simp only [bind_ok]
      simp only [List.map_cons, List.sum_cons] at hf
      rcases next with _ | n
      · simp only [h3 rfl, List.isEmpty_nil, Bool.not_true, Bool.false_eq_true, if_false]
        exact ih _ _ _ hw hd (fun p hp => hr p (by simp [hp])) (by omega)
      · simp only
        obtain ⟨line, v', e', wo, _⟩ := unwindLine_ok c (next := some n) hw hcur.1
          (fun k hk => hcur.2 k (h2 k hk)) hd
        rw [e']
        simp only [bind_ok]
        obtain ⟨v'', g'', e'', wo'⟩ := ih ((cur, arr') :: cands) v' (g' ++ [line]) wo.wf wo.disj
          (by
            intro p hp
            simp only [List.mem_cons] at hp
            rcases hp with rfl | hp
            · exact ⟨hcur.1, fun k hk => hcur.2 k (h1 k hk)⟩
            · exact hr p (by simp [hp]))
          (by
            have := h4 (by simp)
            simp only [List.map_cons, List.sum_cons]; omega)
        exact ⟨v'', g'', e'', wo'.wf, wo'.disj, fun j hj => wo'.mono j (wo.mono j hj),
          le_trans wo.cnt wo'.cnt⟩

theorem scanMin_ok {E m adj term} (c : Ctx E m adj term) {visited : SetVob}
    (hw : visited.WF (m + 1)) {x : Nat} (hx : x ≤ m)
    (hxv : visited.test x = false) (hxt : term.test x = false) :
    ∀ (fuel mn : Nat), mn ≤ m → m + 1 - mn + 1 ≤ fuel →
    (∀ i, i < mn → visited.test i = true ∨ term.test i = true) →
    ∃ k, scanMin term visited m fuel mn mn = .ok (k, k) ∧ k ≤ m ∧
      visited.test k = false ∧ term.test k = false ∧
      (∀ i, i < k → visited.test i = true ∨ term.test i = true) := by
  intro fuel
  induction fuel with
  | zero => intro mn _ h; omega
  | succ fuel ih =>
    intro mn hmn hf hlt
    rw [scanMin, SetVob.get_ok hw (show mn < m + 1 by omega),
      SetVob.get_ok c.twf (show mn < m + 1 by omega)]
    simp only [bind_ok]
    split
    · next hvt =>
      simp only [Bool.or_eq_true] at hvt
      have hlt' : ∀ i, i < mn + 1 → visited.test i = true ∨ term.test i = true := by
        intro i hi
        rcases Nat.lt_succ_iff_lt_or_eq.1 hi with h | rfl
        · exact hlt i h
        · exact hvt
      have hxmn : mn + 1 ≤ x := by
        by_contra hcon
        have := hlt' x (by omega)
        simp [hxv, hxt] at this
      split
      · next hge =>
        have : mn + 1 = x := by omega
        subst this
        exact ⟨mn + 1, rfl, hx, hxv, hxt, hlt'⟩
      · exact ih (mn + 1) (by omega) (by omega) hlt'
    · next hvt =>
      simp only [Bool.or_eq_true, not_or, Bool.not_eq_true] at hvt
      exact ⟨mn, rfl, hmn, hvt.1, hvt.2, hlt⟩

/-- if the counts do not fill up, some vertex is neither visited nor a termination node -/
theorem exists_free {m : Nat} {visited term : SetVob} (hw : visited.WF (m + 1)) (ht : term.WF (m + 1))
    (hd : Disj visited term) :
    visited.numberOfSetBits + term.numberOfSetBits < m + 1 ↔
      ∃ x, x ≤ m ∧ visited.test x = false ∧ term.test x = false := by
  have := (count_add_count_le visited.vob term.vob (by rw [hw.len, ht.len]) hd).2
  rw [← hw.cnt, ← ht.cnt, hw.len] at this
  rw [this]
  simp only [SetVob.test, Nat.lt_succ_iff]

theorem stage2_ok {E m adj term} (c : Ctx E m adj term) :
    ∀ (fuel mn : Nat) (visited : SetVob) (groups : List (List Nat)),
    visited.WF (m + 1) → Disj visited term → mn ≤ m →
    (∀ i, i < mn → visited.test i = true ∨ term.test i = true) →
    visited.numberOfSetBits + term.numberOfSetBits < m + 1 →
    m + 1 - visited.numberOfSetBits ≤ fuel →
    ∃ v' g', stage2 adj term m fuel mn visited groups = .ok (v', g') ∧ WalkOk m term visited v' := by
  intro fuel
  induction fuel with
  | zero => intro mn v g _ _ _ _ _ h; omega
  | succ fuel ih =>
    intro mn visited groups hw hd hmn hlt hcnt hf
    obtain ⟨x, hx, hxv, hxt⟩ := (exists_free hw c.twf hd).1 hcnt
    obtain ⟨k, e, hk, hkv, hkt, hklt⟩ := scanMin_ok c hw hx hxv hxt (m + 2) mn hmn (by omega) hlt
    rw [stage2, e]
    simp only [bind_ok]
    have hkm : ¬ k > m := by omega
    simp only [hkm, false_and, if_false]
    rw [SetVob.get_ok hw (show k < m + 1 by omega), hkv]
    simp only [bind_ok, Bool.false_eq_true, if_false]
    obtain ⟨line, v', e', wo, hnew⟩ := unwindLine_ok c (next := none) hw hk (by simp) hd
    have hnew := hnew rfl hkv hkt
    rw [e']
    simp only [bind_ok]
    split
    · exact ⟨_, _, rfl, wo⟩
    · next hlt2 =>
      have hle := SetVob.count_le wo.wf
      obtain ⟨v'', g'', e'', wo'⟩ := ih k v' _ wo.wf wo.disj hk
        (fun i hi => (hklt i hi).imp (wo.mono i) id) (by omega) (by omega)
      exact ⟨v'', g'', e'', wo'.wf, wo'.disj, fun j hj => wo'.mono j (wo.mono j hj),
          le_trans wo.cnt wo'.cnt⟩

/-! ### termination nodes and candidates -/

structure CandSpec (m : Nat) (adj : AdjMap) (n : Nat) (r : SetVob × List (Nat × List Nat)) : Prop where
  wf : r.1.WF (m + 1)
  tspec : ∀ v, r.1.test v = true ↔ v < n ∧ ¬ ∃ a b, adj v = some [a, b]
  cands : ∀ p, p ∈ r.2 ↔ p.1 < n ∧ ∃ ns, adj p.1 = some ns ∧ ns.length ≠ 2 ∧ p.2 = ns.reverse
  nodup : (r.2.map Prod.fst).Nodup

theorem termCand_aux (m : Nat) (adj : AdjMap) : ∀ n, n ≤ m + 1 →
    ∃ r, (List.range n).foldlM
      (fun (acc : SetVob × List (Nat × List Nat)) vId =>
        match adj vId with
        | some neighbours =>
          if neighbours.length ≠ 2 then do
            let t ← acc.1.set vId
            return (t, (vId, neighbours.reverse) :: acc.2)
          else return acc
        | none => do
          let t ← acc.1.set vId
          return (t, acc.2))
      (SetVob.fillWithFalse (m + 1), []) = (Except.ok r : Except Err _) ∧ CandSpec m adj n r := by
  intro n
  induction n with
  | zero =>
    intro _
    refine ⟨_, rfl, SetVob.fill_wf _, fun v => ?_, fun p => ?_, by simp⟩
    · simp [SetVob.fill_test]
    · simp
  | succ n ih =>
    intro hn
    obtain ⟨r, e, cs⟩ := ih (by omega)
    rw [List.range_succ, List.foldlM_append, e]
    simp only [bind_ok, List.foldlM_cons, List.foldlM_nil]
    obtain ⟨s', hs, hw', htest, _, _⟩ := SetVob.set_ok cs.wf (show n < m + 1 by omega)
    have keepT : ∀ v, v < n + 1 ↔ v < n ∨ v = n := fun v => Nat.lt_succ_iff_lt_or_eq
    rcases hadj : adj n with _ | ns
    · simp only [hs, bind_ok, pure_ok]
      refine ⟨_, rfl, hw', fun v => ?_, fun p => ?_, cs.nodup⟩
      · rw [htest, Bool.or_eq_true, cs.tspec, decide_eq_true_iff, keepT]
        constructor
        · rintro (h | rfl)
          · exact ⟨Or.inl h.1, h.2⟩
          · exact ⟨Or.inr rfl, by simp [hadj]⟩
        · rintro ⟨h | rfl, h2⟩
          · exact Or.inl ⟨h, h2⟩
          · exact Or.inr rfl
      · rw [cs.cands, keepT]
        constructor
        · rintro ⟨h1, h2⟩; exact ⟨Or.inl h1, h2⟩
        · rintro ⟨h | h, ns, h2, _⟩
          · exact ⟨h, ns, h2, by assumption⟩
          · rw [h, hadj] at h2; simp at h2
    · by_cases hl : ns.length = 2
      · simp only [hl, ne_eq, not_true, if_false, bind_ok, pure_ok]
        obtain ⟨a, b, rfl⟩ := List.length_eq_two.1 hl
        refine ⟨_, rfl, cs.wf, fun v => ?_, fun p => ?_, cs.nodup⟩
        · rw [cs.tspec, keepT]
          constructor
          · rintro ⟨h1, h2⟩; exact ⟨Or.inl h1, h2⟩
          · rintro ⟨h | rfl, h2⟩
            · exact ⟨h, h2⟩
            · exact absurd ⟨a, b, hadj⟩ h2
        · rw [cs.cands, keepT]
          constructor
          · rintro ⟨h1, h2⟩; exact ⟨Or.inl h1, h2⟩
          · rintro ⟨h | h, ns, h2, h3, h4⟩
            · exact ⟨h, ns, h2, h3, h4⟩
            · rw [h, hadj] at h2
              simp only [Option.some.injEq] at h2; subst h2; simp at h3
      · simp only [ne_eq, hl, not_false_iff, if_true, hs, bind_ok, pure_ok]
        refine ⟨_, rfl, hw', fun v => ?_, fun p => ?_, ?_⟩
        · rw [htest, Bool.or_eq_true, cs.tspec, decide_eq_true_iff, keepT]
          constructor
          · rintro (h | rfl)
            · exact ⟨Or.inl h.1, h.2⟩
            · refine ⟨Or.inr rfl, ?_⟩
              rintro ⟨a, b, hab⟩
              rw [hadj] at hab; simp at hab; subst hab; simp at hl
          · rintro ⟨h | rfl, h2⟩
            · exact Or.inl ⟨h, h2⟩
            · exact Or.inr rfl
        · simp only [List.mem_cons]
          rw [cs.cands, keepT]
          constructor
          · rintro (rfl | ⟨h1, h2⟩)
            · exact ⟨Or.inr rfl, ns, hadj, hl, rfl⟩
            · exact ⟨Or.inl h1, h2⟩
          · rintro ⟨h | h, ns', h2, h3, h4⟩
            · exact Or.inr ⟨h, ns', h2, h3, h4⟩
            · left
              rw [h, hadj] at h2; simp at h2; subst h2
              exact Prod.ext h h4
        · simp only [List.map_cons, List.nodup_cons]
          refine ⟨?_, cs.nodup⟩
          intro hmem
          obtain ⟨p, hp, hpn⟩ := List.mem_map.1 hmem
          have := ((cs.cands p).1 hp).1
          omega

theorem termCand_spec (m : Nat) (adj : AdjMap) :
    ∃ r, terminationCandidateNodes m adj = .ok r ∧ CandSpec m adj (m + 1) r :=
  termCand_aux m adj (m + 1) (le_refl _)

theorem ctx_of (indices : List Nat) {r : SetVob × List (Nat × List Nat)}
    (cs : CandSpec (adjacencyMap indices).1 (adjacencyMap indices).2
      ((adjacencyMap indices).1 + 1) r) :
    Ctx (Edge indices) (adjacencyMap indices).1 (adjacencyMap indices).2 r.1 where
  adjS := (adjacencyMap_spec indices).1
  rng := (adjacencyMap_spec indices).2
  symm := fun _ _ => edge_symm
  twf := cs.wf
  tspec := fun v hv => by rw [cs.tspec]; exact ⟨fun h => h.2, fun h => ⟨by omega, h⟩⟩

theorem divide_total (indices : List Nat) : ∃ r, divideIntoShapes indices = .ok r := by
  unfold divideIntoShapes
  simp only
  obtain ⟨r, e, cs⟩ := termCand_spec (adjacencyMap indices).1 (adjacencyMap indices).2
  have c := ctx_of indices cs
  rw [e]
  simp only [bind_ok]
  have hd : Disj (SetVob.fillWithFalse ((adjacencyMap indices).1 + 1)) r.1 := by
    intro i; simp [SetVob.fill_test]
  obtain ⟨v', g', e', wo⟩ := stage1_ok c ((r.2.map fun c => c.2.length + 1).sum + 1) r.2
    (SetVob.fillWithFalse ((adjacencyMap indices).1 + 1)) [] (SetVob.fill_wf _) hd
    (by
      intro p hp
      obtain ⟨h1, ns, h2, _, h4⟩ := (cs.cands p).1 hp
      refine ⟨by omega, fun n hn => ?_⟩
      rw [h4, List.mem_reverse] at hn
      exact (c.rng _ _ (((c.of_adj h2).2 n).1 hn)).2) (le_refl _)
  rw [e']
  simp only [bind_ok]
  split
  · next hlt =>
    obtain ⟨v'', g'', e'', _⟩ := stage2_ok c ((adjacencyMap indices).1 + 2) 0 v' g' wo.wf wo.disj
      (by omega) (by simp) hlt (by omega)
    rw [e'']
    exact ⟨_, rfl⟩
  · exact ⟨_, rfl⟩

end Verif.Shape
