import Verif.Proofs.HullScan
/-!
# From the stack of the Graham scan to the hull
-/
set_option linter.unusedSectionVars false
set_option linter.unusedVariables false
namespace Verif.Hull
open Verif Verif.Spec
variable {K : Type} [Field K] [LinearOrder K] [IsStrictOrderedRing K]

/-- the scan on points -/
def scanPts : List (V2 K) → List (V2 K) → List (V2 K)
  | [], st => st
  | p :: l, st => scanPts l (p :: popPts p st)

theorem popPts_ne_nil (p a : V2 K) (st : List (V2 K)) : popPts p (a :: st) ≠ [] := by
  induction st generalizing a with
  | nil => simp [popPts]
  | cons b st ih =>
    rw [popPts]
    split
    · exact ih b
    · simp

theorem lexLt_irrefl {s : V2 K} : ¬ LexLt s s := by
  rintro (h | ⟨-, h⟩) <;> exact lt_irrefl _ h

/-- what is known when the scan is finished -/
structure ScanDone (s : V2 K) (xs : List (V2 K)) (a : V2 K) (st : List (V2 K)) : Prop where
  chain : Chain s xs (a :: st)
  max : ∀ x ∈ xs, 0 ≤ orient s x a
  short : st = [] → xs = []

theorem scan_chain {s : V2 K} : ∀ (l xs : List (V2 K)) (a : V2 K) (st : List (V2 K)),
    ScanDone s xs a st → (∀ x ∈ l, LexLt s x) → (∀ x ∈ xs, LexLt s x) →
    (∀ x ∈ xs, ∀ y ∈ l, After s x y) → l.Pairwise (After s) →
    ∃ a' st', scanPts l (a :: st) = a' :: st' ∧ ScanDone s (l.reverse ++ xs) a' st' := by
  intro l
  induction l with
  | nil => intro xs a st h _ _ _ _; exact ⟨a, st, rfl, h⟩
  | cons p l ih =>
    intro xs a st h hl hxs haft hpw
    have hp : LexLt s p := hl p List.mem_cons_self
    have hafter : ∀ x ∈ xs, After s x p := fun x hx => haft x hx p List.mem_cons_self
    have hch := pop_chain hp hxs hafter st a h.chain (fun e => Or.inl (h.short e)) (fun _ => Or.inl h.max)
    obtain ⟨b, st1, hst1⟩ := List.exists_cons_of_ne_nil (popPts_ne_nil p a st)
    have hd : ScanDone s (p :: xs) p (popPts p (a :: st)) := by
      refine ⟨hch, fun x hx => ?_, fun e => absurd e (popPts_ne_nil p a st)⟩
      rcases List.mem_cons.1 hx with rfl | hx
      · exact (orient_self _ _).2.1.ge
      · rcases hafter x hx with h | ⟨h, -⟩
        · exact h.le
        · exact h.ge
    have := ih (p :: xs) p (popPts p (a :: st)) hd (fun x hx => hl x (List.mem_cons_of_mem _ hx))
      (fun x hx => by
        rcases List.mem_cons.1 hx with rfl | hx
        · exact hp
        · exact hxs x hx)
      (fun x hx y hy => by
        rcases List.mem_cons.1 hx with rfl | hx
        · exact (List.pairwise_cons.1 hpw).1 y hy
        · exact haft x hx y (List.mem_cons_of_mem _ hy))
      (List.pairwise_cons.1 hpw).2
    rw [scanPts]
    simpa using this

/-! ## consecutive entries of the stack -/

theorem Chain.mem {s : V2 K} {xs : List (V2 K)} : ∀ (st : List (V2 K)), Chain s xs st →
    ∀ v ∈ st, v = s ∨ v ∈ xs := by
  intro st
  induction st with
  | nil => intro h; exact h.elim
  | cons a st ih =>
    intro h v hv
    cases st with
    | nil => rw [List.mem_singleton] at hv; exact Or.inl (hv.trans h)
    | cons b st =>
      rcases List.mem_cons.1 hv with rfl | hv
      · exact Or.inr h.top_lex.2
      · cases st with
        | nil => rw [List.mem_singleton] at hv; exact Or.inl (hv.trans h.1)
        | cons c st => exact ih h.2.2.2.2.2 v hv

theorem Chain.last {s : V2 K} {xs : List (V2 K)} : ∀ (st : List (V2 K)), Chain s xs st →
    ∃ st', st = st' ++ [s] := by
  intro st
  induction st with
  | nil => intro h; exact h.elim
  | cons a st ih =>
    intro h
    cases st with
    | nil => exact ⟨[], by rw [show a = s from h]; rfl⟩
    | cons b st =>
      cases st with
      | nil => exact ⟨[a], by rw [h.1]; rfl⟩
      | cons c st =>
        obtain ⟨st', e⟩ := ih h.2.2.2.2.2
        exact ⟨a :: st', by rw [e]; rfl⟩

/-- strict angular order of the stack -/
theorem Chain.strict {s : V2 K} {xs : List (V2 K)} : ∀ (st : List (V2 K)) (a : V2 K), Chain s xs (a :: st) →
    ∀ v ∈ st, v = s ∨ (LexLt s v ∧ 0 < orient s v a) := by
  intro st
  induction st with
  | nil => intro a h v hv; cases hv
  | cons b st ih =>
    intro a h v hv
    cases st with
    | nil => rw [List.mem_singleton] at hv; exact Or.inl (hv.trans h.1)
    | cons c st =>
      have hb := h.2.2.2.2.2.top_lex.1
      rcases List.mem_cons.1 hv with rfl | hv
      · exact Or.inr ⟨hb, h.2.2.2.1⟩
      · rcases ih b h.2.2.2.2.2 v hv with e | ⟨hl, ho⟩
        · exact Or.inl e
        · exact Or.inr ⟨hl, (ang_trans hl hb h.1 ho.le h.2.2.2.1.le).2 (Or.inl ho)⟩

theorem Chain.tail {s : V2 K} {xs : List (V2 K)} {a b : V2 K} {st : List (V2 K)}
    (h : Chain s xs (a :: b :: st)) : Chain s xs (b :: st) := by
  cases st with
  | nil => exact h.1
  | cons c st => exact h.2.2.2.2.2

theorem Chain.nodup {s : V2 K} {xs : List (V2 K)} : ∀ (st : List (V2 K)), Chain s xs st → st.Nodup := by
  intro st
  induction st with
  | nil => intro _; exact List.nodup_nil
  | cons a st ih =>
    intro h
    cases st with
    | nil => simp
    | cons b st =>
      refine List.nodup_cons.2 ⟨fun hm => ?_, ih h.tail⟩
      rcases h.strict _ _ a hm with e | ⟨-, h0⟩
      · have := h.top_lex.1
        rw [e] at this
        exact lexLt_irrefl this
      · rw [(orient_self s a).2.1] at h0
        exact lt_irrefl _ h0

/-- edges of the stack -/
theorem Chain.edge {s : V2 K} {xs : List (V2 K)} : ∀ (st : List (V2 K)), Chain s xs st →
    ∀ a b, [b, a] <:+: st → ∀ x, x = s ∨ x ∈ xs → 0 ≤ orient a b x := by
  intro st
  induction st with
  | nil => intro h; exact h.elim
  | cons t st ih =>
    intro h a b hi x hx
    rcases List.infix_cons_iff.1 hi with hpre | hi
    · cases st with
      | nil => simp at hpre
      | cons u st =>
        obtain ⟨rfl, rfl⟩ : b = t ∧ a = u := by simpa using hpre
        cases st with
        | nil =>
          rcases hx with rfl | hx
          · rw [h.1]; exact (orient_self _ _).1.ge
          · rw [h.1]; exact (h.2.2.2 x hx).1
        | cons c st =>
          rcases hx with rfl | hx
          · rw [← orient_rot]; exact h.2.2.2.1.le
          · exact h.2.2.2.2.1 x hx
    · cases st with
      | nil => simp at hi
      | cons u st => exact ih h.tail a b hi x hx

/-- turns of the stack -/
theorem Chain.turn {s : V2 K} {xs : List (V2 K)} : ∀ (st : List (V2 K)), Chain s xs st →
    ∀ a b c, [c, b, a] <:+: st → 0 < orient a b c := by
  intro st
  induction st with
  | nil => intro h; exact h.elim
  | cons t st ih =>
    intro h a b c hi
    rcases List.infix_cons_iff.1 hi with hpre | hi
    · cases st with
      | nil => simp at hpre
      | cons u st =>
        cases st with
        | nil => simp at hpre
        | cons v st =>
          obtain ⟨rfl, rfl, rfl⟩ : c = t ∧ b = u ∧ a = v := by simpa using hpre
          exact h.2.2.1
    · cases st with
      | nil => simp at hi
      | cons u st => exact ih h.tail a b c hi

theorem infix2_of_get {A : Type} {l : List A} {i : Nat} {a b : A} (h1 : l[i]? = some a)
    (h2 : l[i + 1]? = some b) : [a, b] <:+: l := by
  obtain ⟨hi1, rfl⟩ := List.getElem?_eq_some_iff.1 h1
  obtain ⟨hi2, rfl⟩ := List.getElem?_eq_some_iff.1 h2
  refine ⟨l.take i, l.drop (i + 2), ?_⟩
  have e1 := List.drop_eq_getElem_cons hi1
  have e2 := List.drop_eq_getElem_cons hi2
  rw [e2] at e1
  rw [List.append_assoc]
  simp

theorem infix3_of_get {A : Type} {l : List A} {i : Nat} {a b c : A} (h1 : l[i]? = some a)
    (h2 : l[i + 1]? = some b) (h3 : l[i + 2]? = some c) : [a, b, c] <:+: l := by
  obtain ⟨hi1, rfl⟩ := List.getElem?_eq_some_iff.1 h1
  obtain ⟨hi2, rfl⟩ := List.getElem?_eq_some_iff.1 h2
  obtain ⟨hi3, rfl⟩ := List.getElem?_eq_some_iff.1 h3
  refine ⟨l.take i, l.drop (i + 3), ?_⟩
  have e1 := List.drop_eq_getElem_cons hi1
  have e2 := List.drop_eq_getElem_cons hi2
  have e3 := List.drop_eq_getElem_cons hi3
  rw [e3] at e2
  rw [e2] at e1
  rw [List.append_assoc]
  simp

/-- the finished scan is a hull -/
theorem ScanDone.hull {s : V2 K} {xs pts : List (V2 K)} {a : V2 K} {st : List (V2 K)}
    (h : ScanDone s xs a st) (hne : st ≠ []) (hs : s ∈ pts) (hlex : ∀ x ∈ xs, LexLt s x)
    (hpts : ∀ p, p ∈ pts ↔ p = s ∨ p ∈ xs) :
    IsHullLoop pts ((a :: st).reverse ++ [s]) := by
  obtain ⟨b, st, rfl⟩ := List.exists_cons_of_ne_nil hne
  have hc := h.chain
  have ha := hc.top_lex
  obtain ⟨st', est⟩ := hc.last
  have hrev : ∀ l : List (V2 K), l <:+: ((a :: b :: st).reverse ++ [s]) → l.reverse <:+: s :: a :: b :: st := by
    intro l hl
    have := List.reverse_infix.2 hl
    simpa using this
  have hmax : ∀ x, x = s ∨ x ∈ xs → 0 ≤ orient a s x := by
    rintro x (rfl | hx)
    · exact (orient_self _ _).2.1.ge
    · rw [orient_rot]; exact h.max x hx
  have hedge : ∀ a' b', [b', a'] <:+: s :: a :: b :: st → ∀ x, x = s ∨ x ∈ xs → 0 ≤ orient a' b' x := by
    intro a' b' hi x hx
    rcases List.infix_cons_iff.1 hi with hpre | hi
    · obtain ⟨rfl, rfl⟩ : b' = s ∧ a' = a := by simpa using hpre
      exact hmax x hx
    · exact hc.edge _ a' b' hi x hx
  have hlen : ((a :: b :: st).reverse ++ [s]).length = st.length + 3 := by simp
  have hhead : ((a :: b :: st).reverse ++ [s])[0]? = some s := by
    rw [est]; simp
  refine ⟨by omega, ?_, ?_, ?_, ?_, ?_, ?_, ?_⟩
  · rw [List.head?_eq_getElem?, hhead, List.getLast?_append]; simp
  · intro v hv
    rw [hpts]
    rcases List.mem_append.1 hv with hv | hv
    · exact hc.mem _ v (List.mem_reverse.1 hv)
    · exact Or.inl (List.mem_singleton.1 hv)
  · have e : ((a :: b :: st).reverse ++ [s]).tail = st'.reverse ++ [s] := by rw [est]; simp
    rw [e]
    have := hc.nodup
    rw [est] at this
    rw [List.nodup_append] at this ⊢
    exact ⟨List.nodup_reverse.2 this.1, by simp, fun x hx y hy => this.2.2 x (List.mem_reverse.1 hx) y hy⟩
  · intro i a' b' h1 h2 p hp
    exact hedge a' b' (by simpa using hrev _ (infix2_of_get h1 h2)) p ((hpts p).1 hp)
  · intro h3 i a' b' c' h1 h2 h3'
    have hst : st ≠ [] := by rintro rfl; simp at h3
    obtain ⟨c, st, rfl⟩ := List.exists_cons_of_ne_nil hst
    have hi : [c', b', a'] <:+: s :: a :: b :: c :: st := by simpa using hrev _ (infix3_of_get h1 h2 h3')
    rcases List.infix_cons_iff.1 hi with hpre | hi
    · obtain ⟨rfl, rfl, rfl⟩ : c' = s ∧ b' = a ∧ a' = b := by simpa using hpre
      rw [← orient_rot]; exact hc.2.2.2.1
    · exact hc.turn _ a' b' c' hi
  · intro h3 a' b' c' h1 h2 h3'
    have hst : st ≠ [] := by rintro rfl; simp at h3
    obtain ⟨c, st, rfl⟩ := List.exists_cons_of_ne_nil hst
    rw [hhead, Option.some_inj] at h2
    subst h2
    have e1 : a' = a := by
      rw [hlen] at h1
      rw [List.getElem?_append_left (by simp)] at h1
      rw [List.getElem?_reverse (by simp)] at h1
      simpa using h1.symm
    subst e1
    have hmem : c' ∈ (b :: c :: st) := by
      rw [List.getElem?_append_left (by simp)] at h3'
      rw [List.getElem?_reverse (by simp)] at h3'
      have h4 : (a' :: b :: c :: st).length - 1 - 1 = st.length + 1 := by simp
      rw [h4, List.getElem?_cons_succ] at h3'
      exact List.mem_of_getElem? h3'
    have hns : c' ≠ s := by
      intro e
      have hnd := hc.nodup
      have hnd2 : ((a' :: b :: c :: st).reverse).Nodup := List.nodup_reverse.2 hnd
      rw [List.getElem?_append_left (by simp)] at h3'
      have h0 : ((a' :: b :: c :: st).reverse)[0]? = some s := by rw [est]; simp
      have := (List.getElem?_inj (i := 0) (j := 1) (by simp) hnd2).1 (by rw [h0, h3', e])
      omega
    rcases hc.strict _ _ c' hmem with e | ⟨-, h0⟩
    · exact absurd e hns
    · rw [orient_rot]; exact h0
  · intro a' b' c' e p hp
    have hst : st = [] := by
      have := congrArg List.length e
      rw [hlen] at this
      simpa using this
    subst hst
    have hb : b = s := hc.1
    subst hb
    obtain ⟨rfl, rfl, rfl⟩ : b = a' ∧ a = b' ∧ b = c' := by simpa using e
    rcases (hpts p).1 hp with rfl | hx
    · refine ⟨0, le_refl _, zero_le_one, ?_⟩
      simp [lerp2]
    · have h0 : orient b a p = 0 := by
        have := h.max p hx
        have := (hc.2.2.2 p hx).1
        rw [orient_swap] at this
        have e2 := orient_swap b p a
        linarith
      obtain ⟨t, h0, h1, ex, ey⟩ := on_segment_of_collinear ha.1 (hlex p hx) h0 ((hc.2.2.2 p hx).2 h0)
      refine ⟨t, h0, h1, ?_⟩
      have e1 : p.x = b.x + t * (a.x - b.x) := by linear_combination ex
      have e2 : p.y = b.y + t * (a.y - b.y) := by linear_combination ey
      cases p
      simp only [lerp2] at *
      rw [← e1, ← e2]

end Verif.Hull
