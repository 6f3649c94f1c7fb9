import Verif.Proofs.ShapeTotal
/-! `divide_into_shapes` covers every edge exactly once (no self edges). -/
namespace Verif.Shape
open Verif Verif.Spec.Shape
open scoped Classical

def occL (l : List Nat) (u v : Nat) : Nat := (windows l).countP (isEdge u v)

theorem windows_push : ∀ (l : List Nat) (q c : Nat),
    windows (l ++ [q] ++ [c]) = windows (l ++ [q]) ++ [(q, c)]
  | [], q, c => by simp [windows]
  | [a], q, c => by simp [windows]
  | a :: b :: l, q, c => by
    have := windows_push (b :: l) q c
    simp only [windows, List.cons_append, List.tail_cons, List.zip_cons_cons] at this ⊢
    rw [this]

theorem occL_push (l : List Nat) (q c u v : Nat) :
    occL (l ++ [q] ++ [c]) u v = occL (l ++ [q]) u v + if isEdge u v (q, c) then 1 else 0 := by
  unfold occL
  rw [windows_push, List.countP_append]
  simp [List.countP_cons]

theorem occL_single (c u v : Nat) : occL [c] u v = 0 := by simp [occL, windows]

theorem occ_append (g : List (List Nat)) (l : List Nat) (u v : Nat) :
    occurrences (g ++ [l]) u v = occurrences g u v + occL l u v := by
  simp [occurrences, occL]

theorem isEdge_iff (u v a b : Nat) :
    isEdge u v (a, b) = true ↔ (a = u ∧ b = v) ∨ (a = v ∧ b = u) := by
  simp [isEdge]

/-- what a finished (first stage) walk guarantees -/
structure Walk1 (E : Nat → Nat → Prop) (m : Nat) (term : SetVob) (visited : SetVob) (B : Nat → Nat → Nat)
    (D : Nat → Nat → Prop) (line : List Nat) (line' : List Nat) (v' : SetVob) : Prop where
  wf : v'.WF (m + 1)
  disj : Disj v' term
  mono : ∀ j, visited.test j = true → v'.test j = true
  clos : ∀ w u, v'.test w = true → E w u → v'.test u = true ∨ term.test u = true
  occ : ∀ u v, B u v + occL line' u v =
    if E u v ∧ (v'.test u = true ∨ v'.test v = true ∨ (term.test u = true ∧ term.test v = true ∧ D u v))
    then 1 else 0
  shape : ∃ mid e, line' = line ++ mid ++ [e] ∧ term.test e = true ∧ mid.Nodup ∧
    ∀ x ∈ mid, visited.test x = false ∧ v'.test x = true

theorem walk1 {E m adj term} (c : Ctx E m adj term) (hns : ∀ v, ¬ E v v)
    (B : Nat → Nat → Nat) (D : Nat → Nat → Prop) :
    ∀ (fuel cur q : Nat) (l0 : List Nat) (visited : SetVob),
    visited.WF (m + 1) → Disj visited term →
    (m + 1) - visited.numberOfSetBits + 1 ≤ fuel →
    visited.test cur = false → E q cur → (term.test q = true ∨ visited.test q = true) →
    (term.test q = true → term.test cur = false) →
    (∀ w u, visited.test w = true → E w u →
      visited.test u = true ∨ term.test u = true ∨ (w = q ∧ u = cur)) →
    (∀ u v, B u v + occL (l0 ++ [q]) u v =
      if E u v ∧ (visited.test u = true ∨ visited.test v = true ∨
        (term.test u = true ∧ term.test v = true ∧ D u v)) ∧ isEdge u v (q, cur) = false
      then 1 else 0) →
    ∃ line' v', unwindLoop adj term fuel cur (some q) (l0 ++ [q]) visited = .ok (line', v') ∧
      Walk1 E m term visited B D (l0 ++ [q]) line' v' ∧ (term.test cur = false → v'.test cur = true) := by
  intro fuel
  induction fuel with
  | zero => intros; omega
  | succ fuel ih =>
    intro cur q l0 visited hw hd hf hnv hE hq hqT hclos hocc
    have hc1 : cur < m + 1 := by have := (c.rng _ _ hE).2; omega
    rw [unwindLoop, SetVob.get_ok hw hc1, SetVob.get_ok c.twf hc1]
    simp only [bind_ok, hnv, Bool.false_or]
    by_cases hT : term.test cur = true
    · simp only [hT, if_true, pure_ok]
      have hVq : visited.test q = true := by
        rcases hq with h | h
        · have := hqT h; rw [hT] at this; simp at this
        · exact h
      refine ⟨_, _, rfl, ⟨hw, hd, fun _ h => h, ?_, ?_, ⟨[], cur, by simp, hT, by simp, by simp⟩⟩,
        by simp⟩
      · intro w u h1 h2
        rcases hclos w u h1 h2 with h | h | ⟨rfl, rfl⟩
        · exact Or.inl h
        · exact Or.inr h
        · exact Or.inr hT
      · intro u v
        rw [occL_push, ← Nat.add_assoc, hocc u v]
        by_cases he : isEdge u v (q, cur) = true
        · have hcov : E u v ∧ (visited.test u = true ∨ visited.test v = true) := by
            rcases (isEdge_iff _ _ _ _).1 he with ⟨rfl, rfl⟩ | ⟨rfl, rfl⟩
            · exact ⟨hE, Or.inl hVq⟩
            · exact ⟨c.symm _ _ hE, Or.inr hVq⟩
          rw [if_neg (by rw [he]; simp), if_pos he, if_pos]
          exact ⟨hcov.1, hcov.2.imp id Or.inl⟩
        · have he' : isEdge u v (q, cur) = false := by simpa using he
          simp only [he', Bool.false_eq_true, if_false, Nat.add_zero, and_true]
    · have hT' : term.test cur = false := by simpa using hT
      simp only [hT', Bool.false_eq_true, if_false]
      obtain ⟨s', hs, hw', htest, hcount, _⟩ := SetVob.set_ok hw hc1
      have hcount := hcount hnv
      have hd' : Disj s' term := disj_set hd hT' htest
      have hcle := SetVob.count_le hw'
      rw [hs]
      simp only [bind_ok, pure_ok]
      have hdeg : ∃ a b, adj cur = some [a, b] := by
        have := c.tspec cur (by omega)
        by_contra hcon
        exact hT (this.2 hcon)
      obtain ⟨n0, n1, hadj⟩ := hdeg
      obtain ⟨hnd, hmem⟩ := c.of_adj hadj
      have hn01 : n0 ≠ n1 := by simpa using hnd
      have hE0 : E cur n0 := (hmem n0).1 (by simp)
      have hE1 : E cur n1 := (hmem n1).1 (by simp)
      have hr0 := (c.rng _ _ hE0).2
      have hr1 := (c.rng _ _ hE1).2
      rw [hadj]
      simp only
      rw [SetVob.get_ok hw' (show n0 < m + 1 by omega), SetVob.get_ok hw' (show n1 < m + 1 by omega)]
      simp only [bind_ok]
      have hVcur : s'.test cur = true := by rw [htest]; simp
      -- the other neighbour is unvisited and the walk goes on there
      have key : ∀ d, E cur d → d ≠ q → (∀ u, E cur u ↔ u = q ∨ u = d) →
          s'.test d = false ∧ ∃ line' v',
          unwindLoop adj term fuel d (some cur) (l0 ++ [q] ++ [cur]) s' = .ok (line', v') ∧
          Walk1 E m term visited B D (l0 ++ [q]) line' v' ∧
          (term.test cur = false → v'.test cur = true) := by
        intro d hEd hdq hnb
        have hdc : d ≠ cur := by rintro rfl; exact hns _ hEd
        have hVd : visited.test d = false := by
          by_contra hcon
          have hcon : visited.test d = true := by simpa using hcon
          rcases hclos d cur hcon (c.symm _ _ hEd) with h | h | ⟨h, _⟩
          · rw [hnv] at h; simp at h
          · rw [hT'] at h; simp at h
          · exact hdq h
        have hsd : s'.test d = false := by rw [htest, hVd]; simp [hdc]
        refine ⟨hsd, ?_⟩
        obtain ⟨line', v', e, w1, _⟩ := ih d cur (l0 ++ [q]) s' hw' hd' (by omega) hsd hEd
          (Or.inr hVcur) (by rw [hT']; simp)
          (by
            intro w u h1 h2
            rw [htest] at h1
            simp only [Bool.or_eq_true, decide_eq_true_eq] at h1
            rcases h1 with h1 | rfl
            · rcases hclos w u h1 h2 with h | h | ⟨rfl, rfl⟩
              · left; rw [htest, h]; rfl
              · exact Or.inr (Or.inl h)
              · exact Or.inl hVcur
            · rcases (hnb u).1 h2 with rfl | rfl
              · rcases hq with h | h
                · exact Or.inr (Or.inl h)
                · left; rw [htest, h]; rfl
              · exact Or.inr (Or.inr ⟨rfl, rfl⟩))
          (by
            intro u v
            rw [occL_push, ← Nat.add_assoc, hocc u v]
            by_cases he : isEdge u v (q, cur) = true
            · have he2 : isEdge u v (cur, d) = false := by
                rw [← Bool.not_eq_true, isEdge_iff]
                rcases (isEdge_iff _ _ _ _).1 he with ⟨rfl, rfl⟩ | ⟨rfl, rfl⟩
                · rintro (⟨rfl, rfl⟩ | ⟨_, rfl⟩) <;> exact hdq rfl
                · rintro (⟨_, rfl⟩ | ⟨rfl, rfl⟩) <;> exact hdq rfl
              have hcov : E u v ∧ (s'.test u = true ∨ s'.test v = true) := by
                rcases (isEdge_iff _ _ _ _).1 he with ⟨rfl, rfl⟩ | ⟨rfl, rfl⟩
                · exact ⟨hE, Or.inr hVcur⟩
                · exact ⟨c.symm _ _ hE, Or.inl hVcur⟩
              rw [if_neg (by rw [he]; simp), if_pos he, if_pos]
              exact ⟨hcov.1, hcov.2.imp id Or.inl, he2⟩
            · have he' : isEdge u v (q, cur) = false := by simpa using he
              rw [if_neg he, Nat.add_zero]
              by_cases he2 : isEdge u v (cur, d) = true
              · rw [if_neg, if_neg (by rw [he2]; simp)]
                rintro ⟨_, h, _⟩
                rcases (isEdge_iff _ _ _ _).1 he2 with ⟨rfl, rfl⟩ | ⟨rfl, rfl⟩
                · rw [hnv, hVd, hT'] at h; simp at h
                · rw [hnv, hVd, hT'] at h; simp at h
              · have he2' : isEdge u v (cur, d) = false := by simpa using he2
                simp only [he', he2', and_true]
                congr 1
                rw [eq_iff_iff]
                constructor
                · rintro ⟨h1, h2⟩
                  refine ⟨h1, ?_⟩
                  rw [htest, htest]
                  rcases h2 with h | h | h
                  · left; rw [h]; rfl
                  · right; left; rw [h]; rfl
                  · exact Or.inr (Or.inr h)
                · rintro ⟨h1, h2⟩
                  refine ⟨h1, ?_⟩
                  have huc : u ≠ cur := by
                    rintro rfl
                    rcases (hnb v).1 h1 with rfl | rfl
                    · exact he ((isEdge_iff _ _ _ _).2 (Or.inr ⟨rfl, rfl⟩))
                    · exact he2 ((isEdge_iff _ _ _ _).2 (Or.inl ⟨rfl, rfl⟩))
                  have hvc : v ≠ cur := by
                    rintro rfl
                    rcases (hnb u).1 (c.symm _ _ h1) with rfl | rfl
                    · exact he ((isEdge_iff _ _ _ _).2 (Or.inl ⟨rfl, rfl⟩))
                    · exact he2 ((isEdge_iff _ _ _ _).2 (Or.inr ⟨rfl, rfl⟩))
                  rw [htest, htest] at h2
                  simpa [huc, hvc] using h2)
        have hmono : ∀ j, visited.test j = true → v'.test j = true := fun j hj =>
          w1.mono j (by rw [htest, hj]; rfl)
        refine ⟨line', v', e, ⟨w1.wf, w1.disj, hmono, w1.clos, w1.occ, ?_⟩,
          fun _ => w1.mono _ hVcur⟩
        obtain ⟨mid, ee, h1, h2, h3, h4⟩ := w1.shape
        refine ⟨cur :: mid, ee, by rw [h1]; simp, h2, ?_, ?_⟩
        · rw [List.nodup_cons]
          refine ⟨fun hm => ?_, h3⟩
          have := (h4 cur hm).1
          rw [hVcur] at this; simp at this
        · intro x hx
          rcases List.mem_cons.1 hx with rfl | hx
          · exact ⟨hnv, w1.mono _ hVcur⟩
          · have := h4 x hx
            refine ⟨?_, this.2⟩
            have h := this.1
            rw [htest] at h
            simp only [Bool.or_eq_false_iff] at h
            exact h.1
      have hqmem : q = n0 ∨ q = n1 := by
        have := (hmem q).2 (c.symm _ _ hE)
        simpa using this
      rcases hqmem with rfl | rfl
      · obtain ⟨h1, h2⟩ := key n1 hE1 (Ne.symm hn01) (fun u => by rw [← hmem u]; simp)
        have hb : ((some q : Option Nat) == some n1) = false := by simpa using hn01
        simp only [beq_self_eq_true, Bool.or_true, Bool.not_true, Bool.false_eq_true, if_false, h1,
          hb, Bool.or_self, Bool.not_false, if_true]
        obtain ⟨x1, x2, x3, x4, x5⟩ := h2
        exact ⟨x1, x2, x3, x4, fun _ => x5 hT'⟩
      · obtain ⟨h1, h2⟩ := key n0 hE0 hn01 (fun u => by rw [← hmem u]; simp [or_comm])
        have hb : ((some q : Option Nat) == some n0) = false := by simpa using Ne.symm hn01
        simp only [h1, hb, Bool.or_self, Bool.not_false, if_true]
        obtain ⟨x1, x2, x3, x4, x5⟩ := h2
        exact ⟨x1, x2, x3, x4, fun _ => x5 hT'⟩

/-- what a finished second stage walk (before closing) guarantees -/
structure Walk2 (E : Nat → Nat → Prop) (m : Nat) (term : SetVob) (visited : SetVob) (B : Nat → Nat → Nat)
    (D : Nat → Nat → Prop) (s : Nat) (line : List Nat) (line' : List Nat) (v' : SetVob) : Prop where
  wf : v'.WF (m + 1)
  disj : Disj v' term
  mono : ∀ j, visited.test j = true → v'.test j = true
  clos : ∀ w u, v'.test w = true → E w u → v'.test u = true ∨ term.test u = true
  occ : ∀ u v, B u v + occL (line' ++ [s]) u v =
    if E u v ∧ (v'.test u = true ∨ v'.test v = true ∨ (term.test u = true ∧ term.test v = true ∧ D u v))
    then 1 else 0
  shape : ∃ mid, line' = line ++ mid ∧ mid ≠ [] ∧ mid.Nodup ∧
    ∀ x ∈ mid, visited.test x = false ∧ v'.test x = true

theorem walk2 {E m adj term} (c : Ctx E m adj term) (hns : ∀ v, ¬ E v v)
    (B : Nat → Nat → Nat) (D : Nat → Nat → Prop) (s e : Nat) (hse : E s e) (hTe : term.test e = false) :
    ∀ (fuel cur q : Nat) (l0 : List Nat) (visited : SetVob),
    visited.WF (m + 1) → Disj visited term →
    (m + 1) - visited.numberOfSetBits + 1 ≤ fuel →
    visited.test cur = false → term.test cur = false → E q cur → visited.test q = true →
    visited.test s = true → visited.test e = false → (cur = e → q ≠ s) →
    (∀ w u, E w u → visited.test w = false → term.test w = false → term.test u = false) →
    (∀ w u, visited.test w = true → E w u →
      visited.test u = true ∨ term.test u = true ∨ (w = q ∧ u = cur) ∨ (w = s ∧ u = e)) →
    (∀ u v, B u v + occL (l0 ++ [q]) u v =
      if E u v ∧ (visited.test u = true ∨ visited.test v = true ∨
        (term.test u = true ∧ term.test v = true ∧ D u v)) ∧ isEdge u v (q, cur) = false ∧
        isEdge u v (s, e) = false
      then 1 else 0) →
    ∃ line' v', unwindLoop adj term fuel cur (some q) (l0 ++ [q]) visited = .ok (line', v') ∧
      Walk2 E m term visited B D s (l0 ++ [q]) line' v' := by
  intro fuel
  induction fuel with
  | zero => intros; omega
  | succ fuel ih =>
    intro cur q l0 visited hw hd hf hnv hT' hE hVq hVs hVe hceq hfree hclos hocc
    have hc1 : cur < m + 1 := by have := (c.rng _ _ hE).2; omega
    rw [unwindLoop, SetVob.get_ok hw hc1, SetVob.get_ok c.twf hc1]
    simp only [bind_ok, hnv, hT', Bool.or_self, Bool.false_eq_true, if_false]
    obtain ⟨s', hs, hw', htest, hcount, _⟩ := SetVob.set_ok hw hc1
    have hcount := hcount hnv
    have hd' : Disj s' term := disj_set hd hT' htest
    have hcle := SetVob.count_le hw'
    rw [hs]
    simp only [bind_ok, pure_ok]
    have hdeg : ∃ a b, adj cur = some [a, b] := by
      have := c.tspec cur (by omega)
      by_contra hcon
      rw [this.2 hcon] at hT'; simp at hT'
    obtain ⟨n0, n1, hadj⟩ := hdeg
    obtain ⟨hnd, hmem⟩ := c.of_adj hadj
    have hn01 : n0 ≠ n1 := by simpa using hnd
    have hE0 : E cur n0 := (hmem n0).1 (by simp)
    have hE1 : E cur n1 := (hmem n1).1 (by simp)
    have hr0 := (c.rng _ _ hE0).2
    have hr1 := (c.rng _ _ hE1).2
    rw [hadj]
    simp only
    rw [SetVob.get_ok hw' (show n0 < m + 1 by omega), SetVob.get_ok hw' (show n1 < m + 1 by omega)]
    simp only [bind_ok]
    have hVcur : s'.test cur = true := by rw [htest]; simp
    have hmono' : ∀ j, visited.test j = true → s'.test j = true := fun j hj => by
      rw [htest, hj]; rfl
    have hqc : q ≠ cur := by rintro rfl; exact hns _ hE
    -- coverage of edges away from `cur`
    have hcovaway : ∀ d, (∀ u, E cur u ↔ u = q ∨ u = d) → ∀ u v, E u v →
        isEdge u v (q, cur) = false → isEdge u v (cur, d) = false →
        ((visited.test u = true ∨ visited.test v = true ∨
          (term.test u = true ∧ term.test v = true ∧ D u v)) ↔
        (s'.test u = true ∨ s'.test v = true ∨
          (term.test u = true ∧ term.test v = true ∧ D u v))) := by
      intro d hnb u v h1 he he2
      have huc : u ≠ cur := by
        rintro rfl
        rcases (hnb v).1 h1 with rfl | rfl
        · rw [(isEdge_iff _ _ _ _).2 (Or.inr ⟨rfl, rfl⟩)] at he; simp at he
        · rw [(isEdge_iff _ _ _ _).2 (Or.inl ⟨rfl, rfl⟩)] at he2; simp at he2
      have hvc : v ≠ cur := by
        rintro rfl
        rcases (hnb u).1 (c.symm _ _ h1) with rfl | rfl
        · rw [(isEdge_iff _ _ _ _).2 (Or.inl ⟨rfl, rfl⟩)] at he; simp at he
        · rw [(isEdge_iff _ _ _ _).2 (Or.inr ⟨rfl, rfl⟩)] at he2; simp at he2
      rw [htest, htest]
      simp [huc, hvc]
    by_cases hce : cur = e
    · -- the loop is closed: both neighbours are visited
      have hqs := hceq hce
      subst hce
      have hsn : E cur s := c.symm _ _ hse
      have hstop : ∀ d, d ≠ q → (∀ u, E cur u ↔ u = q ∨ u = d) → d = s := by
        intro d _ hnb
        rcases (hnb s).1 hsn with h | h
        · exact absurd h.symm hqs
        · exact h.symm
      have hfin : (∀ u, E cur u ↔ u = q ∨ u = s) →
          Walk2 E m term visited B D s (l0 ++ [q]) (l0 ++ [q] ++ [cur]) s' := by
        intro hnb
        refine ⟨hw', hd', hmono', ?_, ?_, ⟨[cur], rfl, by simp, by simp, ?_⟩⟩
        · intro w u h1 h2
          rw [htest] at h1
          simp only [Bool.or_eq_true, decide_eq_true_eq] at h1
          rcases h1 with h1 | rfl
          · rcases hclos w u h1 h2 with h | h | ⟨rfl, rfl⟩ | ⟨rfl, rfl⟩
            · exact Or.inl (hmono' _ h)
            · exact Or.inr h
            · exact Or.inl hVcur
            · exact Or.inl hVcur
          · rcases (hnb u).1 h2 with rfl | rfl
            · exact Or.inl (hmono' _ hVq)
            · exact Or.inl (hmono' _ hVs)
        · intro u v
          rw [occL_push, occL_push, ← Nat.add_assoc, ← Nat.add_assoc, hocc u v]
          by_cases he : isEdge u v (q, cur) = true
          · have he2 : isEdge u v (cur, s) = false := by
              rw [← Bool.not_eq_true, isEdge_iff]
              rcases (isEdge_iff _ _ _ _).1 he with ⟨rfl, rfl⟩ | ⟨rfl, rfl⟩
              · rintro (⟨h1, _⟩ | ⟨_, h2⟩)
                · exact hqc h1.symm
                · exact hqs h2.symm
              · rintro (⟨_, h2⟩ | ⟨h1, _⟩)
                · exact hqs h2.symm
                · exact hqc h1.symm
            rw [if_neg (by rw [he]; simp), if_pos he, he2, if_neg (by simp), if_pos]
            rcases (isEdge_iff _ _ _ _).1 he with ⟨rfl, rfl⟩ | ⟨rfl, rfl⟩
            · exact ⟨hE, Or.inr (Or.inl hVcur)⟩
            · exact ⟨c.symm _ _ hE, Or.inl hVcur⟩
          · have he' : isEdge u v (q, cur) = false := by simpa using he
            by_cases he2 : isEdge u v (cur, s) = true
            · have he3 : isEdge u v (s, cur) = true := by
                rw [isEdge_iff] at he2 ⊢; tauto
              rw [if_neg (by rw [he3]; simp), if_neg he, if_pos he2, if_pos]
              rcases (isEdge_iff _ _ _ _).1 he2 with ⟨rfl, rfl⟩ | ⟨rfl, rfl⟩
              · exact ⟨hsn, Or.inl hVcur⟩
              · exact ⟨hse, Or.inr (Or.inl hVcur)⟩
            · have he2' : isEdge u v (cur, s) = false := by simpa using he2
              have he3 : isEdge u v (s, cur) = false := by
                rw [← Bool.not_eq_true]
                intro h
                apply he2
                rw [isEdge_iff] at h ⊢; tauto
              simp only [he', he2', he3, Bool.false_eq_true, if_false, Nat.add_zero, and_true]
              congr 1
              rw [eq_iff_iff]
              exact ⟨fun h => ⟨h.1, (hcovaway s hnb u v h.1 he' he2').1 h.2⟩,
                fun h => ⟨h.1, (hcovaway s hnb u v h.1 he' he2').2 h.2⟩⟩
        · intro x hx
          have hx : x = cur := by simpa using hx
          subst hx
          exact ⟨hnv, hVcur⟩
      have hqmem : q = n0 ∨ q = n1 := by
        have := (hmem q).2 (c.symm _ _ hE)
        simpa using this
      have hVs' := hmono' _ hVs
      rcases hqmem with rfl | rfl
      · have hnb : ∀ u, E cur u ↔ u = q ∨ u = n1 := fun u => by rw [← hmem u]; simp
        have := hstop n1 (Ne.symm hn01) hnb
        subst this
        simp only [beq_self_eq_true, Bool.or_true, Bool.not_true, Bool.false_eq_true, if_false, hVs',
          Bool.true_or]
        exact ⟨_, _, rfl, hfin hnb⟩
      · have hnb : ∀ u, E cur u ↔ u = q ∨ u = n0 := fun u => by rw [← hmem u]; simp [or_comm]
        have := hstop n0 hn01 hnb
        subst this
        simp only [beq_self_eq_true, Bool.or_true, Bool.not_true, Bool.false_eq_true, if_false, hVs',
          Bool.true_or]
        exact ⟨_, _, rfl, hfin hnb⟩
    · have key : ∀ d, E cur d → d ≠ q → (∀ u, E cur u ↔ u = q ∨ u = d) →
          s'.test d = false ∧ ∃ line' v',
          unwindLoop adj term fuel d (some cur) (l0 ++ [q] ++ [cur]) s' = .ok (line', v') ∧
          Walk2 E m term visited B D s (l0 ++ [q]) line' v' := by
        intro d hEd hdq hnb
        have hdc : d ≠ cur := by rintro rfl; exact hns _ hEd
        have hVd : visited.test d = false := by
          by_contra hcon
          have hcon : visited.test d = true := by simpa using hcon
          rcases hclos d cur hcon (c.symm _ _ hEd) with h | h | ⟨h, _⟩ | ⟨_, h⟩
          · rw [hnv] at h; simp at h
          · rw [hT'] at h; simp at h
          · exact hdq h
          · exact hce h
        have hTd : term.test d = false := hfree cur d hEd hnv hT'
        have hsd : s'.test d = false := by rw [htest, hVd]; simp [hdc]
        refine ⟨hsd, ?_⟩
        have hse' : s'.test e = false := by
          rw [htest, hVe]; simp [Ne.symm hce]
        have hscur : s ≠ cur := by
          rintro rfl; rw [hVs] at hnv; simp at hnv
        have heq : e ≠ q := by rintro rfl; rw [hVe] at hVq; simp at hVq
        obtain ⟨line', v', eo, w2⟩ := ih d cur (l0 ++ [q]) s' hw' hd' (by omega) hsd hTd hEd
          hVcur (hmono' _ hVs) hse' (fun _ => Ne.symm hscur)
          (by
            intro w u h1 h2 h3
            apply hfree w u h1 _ h3
            rw [htest] at h2
            simp only [Bool.or_eq_false_iff] at h2
            exact h2.1)
          (by
            intro w u h1 h2
            rw [htest] at h1
            simp only [Bool.or_eq_true, decide_eq_true_eq] at h1
            rcases h1 with h1 | rfl
            · rcases hclos w u h1 h2 with h | h | ⟨rfl, rfl⟩ | h
              · exact Or.inl (hmono' _ h)
              · exact Or.inr (Or.inl h)
              · exact Or.inl hVcur
              · exact Or.inr (Or.inr (Or.inr h))
            · rcases (hnb u).1 h2 with rfl | rfl
              · exact Or.inl (hmono' _ hVq)
              · exact Or.inr (Or.inr (Or.inl ⟨rfl, rfl⟩)))
          (by
            intro u v
            rw [occL_push, ← Nat.add_assoc, hocc u v]
            by_cases he : isEdge u v (q, cur) = true
            · have he2 : isEdge u v (cur, d) = false := by
                rw [← Bool.not_eq_true, isEdge_iff]
                rcases (isEdge_iff _ _ _ _).1 he with ⟨rfl, rfl⟩ | ⟨rfl, rfl⟩
                · rintro (⟨rfl, rfl⟩ | ⟨_, rfl⟩) <;> exact hdq rfl
                · rintro (⟨_, rfl⟩ | ⟨rfl, rfl⟩) <;> exact hdq rfl
              have he3 : isEdge u v (s, e) = false := by
                rw [← Bool.not_eq_true, isEdge_iff]
                rcases (isEdge_iff _ _ _ _).1 he with ⟨rfl, rfl⟩ | ⟨rfl, rfl⟩
                · rintro (⟨_, h⟩ | ⟨h, _⟩)
                  · exact hce h.symm
                  · exact hscur h
                · rintro (⟨h, _⟩ | ⟨_, h⟩)
                  · exact hscur h
                  · exact hce h.symm
              rw [if_neg (by rw [he]; simp), if_pos he, if_pos]
              rcases (isEdge_iff _ _ _ _).1 he with ⟨rfl, rfl⟩ | ⟨rfl, rfl⟩
              · exact ⟨hE, Or.inr (Or.inl hVcur), he2, he3⟩
              · exact ⟨c.symm _ _ hE, Or.inl hVcur, he2, he3⟩
            · have he' : isEdge u v (q, cur) = false := by simpa using he
              rw [if_neg he, Nat.add_zero]
              by_cases he2 : isEdge u v (cur, d) = true
              · rw [if_neg, if_neg (by rw [he2]; simp)]
                rintro ⟨_, h, _⟩
                rcases (isEdge_iff _ _ _ _).1 he2 with ⟨rfl, rfl⟩ | ⟨rfl, rfl⟩
                · rw [hnv, hVd, hT'] at h; simp at h
                · rw [hnv, hVd, hT'] at h; simp at h
              · have he2' : isEdge u v (cur, d) = false := by simpa using he2
                simp only [he', he2', true_and]
                congr 1
                rw [eq_iff_iff]
                exact ⟨fun h => ⟨h.1, (hcovaway d hnb u v h.1 he' he2').1 h.2.1, h.2.2⟩,
                  fun h => ⟨h.1, (hcovaway d hnb u v h.1 he' he2').2 h.2.1, h.2.2⟩⟩)
        refine ⟨line', v', eo, ⟨w2.wf, w2.disj, fun j hj => w2.mono j (hmono' j hj), w2.clos, w2.occ, ?_⟩⟩
        obtain ⟨mid, h1, h2, h3, h4⟩ := w2.shape
        refine ⟨cur :: mid, by rw [h1]; simp, by simp, ?_, ?_⟩
        · rw [List.nodup_cons]
          refine ⟨fun hm => ?_, h3⟩
          have := (h4 cur hm).1
          rw [hVcur] at this; simp at this
        · intro x hx
          rcases List.mem_cons.1 hx with rfl | hx
          · exact ⟨hnv, w2.mono _ hVcur⟩
          · have := h4 x hx
            refine ⟨?_, this.2⟩
            have h := this.1
            rw [htest] at h
            simp only [Bool.or_eq_false_iff] at h
            exact h.1
      have hqmem : q = n0 ∨ q = n1 := by
        have := (hmem q).2 (c.symm _ _ hE)
        simpa using this
      rcases hqmem with rfl | rfl
      · obtain ⟨h1, h2⟩ := key n1 hE1 (Ne.symm hn01) (fun u => by rw [← hmem u]; simp)
        have hb : ((some q : Option Nat) == some n1) = false := by simpa using hn01
        simp only [beq_self_eq_true, Bool.or_true, Bool.not_true, Bool.false_eq_true, if_false, h1,
          hb, Bool.or_self, Bool.not_false, if_true]
        exact h2
      · obtain ⟨h1, h2⟩ := key n0 hE0 hn01 (fun u => by rw [← hmem u]; simp [or_comm])
        have hb : ((some q : Option Nat) == some n0) = false := by simpa using Ne.symm hn01
        simp only [h1, hb, Bool.or_self, Bool.not_false, if_true]
        exact h2

end Verif.Shape
