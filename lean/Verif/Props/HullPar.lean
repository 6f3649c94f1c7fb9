import Verif.Props.IndexedHull
/-!
# C39, C41: membership, and the parallel hull
-/
set_option linter.unusedSectionVars false
set_option linter.unusedVariables false
set_option linter.unusedSimpArgs false
namespace Verif.Props
open Verif Verif.Spec Verif.Model Verif.Hull

section
variable {α : Type} [Scalar α]

theorem except_bind_ok {A B : Type} {x : Except Err A} {f : A → Except Err B} {b : B}
    (h : (x >>= f) = .ok b) : ∃ a, x = .ok a ∧ f a = .ok b := by
  cases x with
  | error e => exact absurd h (by simp [bind, Except.bind])
  | ok a => exact ⟨a, rfl, h⟩

theorem idx_ok {A : Type} {l : List A} {i : Nat} {a : A} (h : idx l i = .ok a) : l[i]? = some a := by
  unfold idx at h
  cases hl : l[i]? with
  | none => rw [hl] at h; simp at h
  | some b => rw [hl] at h; simp at h; rw [h]

theorem idx_mem {A : Type} {l : List A} {i : Nat} {a : A} (h : idx l i = .ok a) : a ∈ l :=
  List.mem_of_getElem? (idx_ok h)

theorem popWhile_sub {ι : Type} (get : ι → Except Err (V2 α)) (p : V2 α) : ∀ (st st' : List ι),
    popWhile get p st = .ok st' → ∀ i ∈ st', i ∈ st := by
  intro st
  induction st with
  | nil => intro st' h; simp [popWhile] at h; subst h; exact fun i hi => hi
  | cons a st ih =>
    intro st' h
    cases st with
    | nil => simp [popWhile] at h; subst h; exact fun i hi => hi
    | cons b st =>
      unfold popWhile at h
      obtain ⟨pb, -, h⟩ := except_bind_ok h
      obtain ⟨pa, -, h⟩ := except_bind_ok h
      simp only at h
      split at h
      · exact fun i hi => List.mem_cons_of_mem _ (ih st' h i hi)
      · simp only [Except.ok.injEq] at h
        subst h
        exact fun i hi => hi

theorem grahamLoop_sub {ι : Type} (get : ι → Except Err (V2 α)) (skip : ι → Bool) : ∀ (l st st' : List ι),
    grahamLoop get skip l st = .ok st' → ∀ i ∈ st', i ∈ st ∨ i ∈ l := by
  intro l
  induction l with
  | nil => intro st st' h; simp [grahamLoop] at h; subst h; exact fun i hi => Or.inl hi
  | cons a l ih =>
    intro st st' h
    unfold grahamLoop at h
    split at h
    · exact fun i hi => (ih st st' h i hi).imp id (List.mem_cons_of_mem _)
    · obtain ⟨p, -, h⟩ := except_bind_ok h
      obtain ⟨st1, h1, h⟩ := except_bind_ok h
      intro i hi
      rcases ih _ st' h i hi with hi | hi
      · rcases List.mem_cons.1 hi with rfl | hi
        · exact Or.inr List.mem_cons_self
        · exact Or.inl (popWhile_sub get p st st1 h1 i hi)
      · exact Or.inr (List.mem_cons_of_mem _ hi)

theorem indexedShort_sub {vertices : List (V2 α)} {indices : List Nat} :
    (∀ r hull, indexedShort vertices indices = .inl r → r = .ok hull → ∀ i ∈ hull, i ∈ indices) ∧
    (∀ is, indexedShort vertices indices = .inr is → ∀ i ∈ is, i ∈ indices) := by
  have hsub := (openIndices_sub indices).1
  unfold indexedShort
  split
  · refine ⟨fun r hull h1 h2 i hi => ?_, fun is h => by simp at h⟩
    simp only [Sum.inl.injEq] at h1
    rw [← h1] at h2
    simp only [Except.ok.injEq] at h2
    rw [h2]; exact hi
  · generalize openIndices indices = l at *
    match l, hsub with
    | [], hs =>
      refine ⟨fun r hull h1 h2 i hi => ?_, fun is h => by simp at h⟩
      simp only [Sum.inl.injEq] at h1
      rw [← h1] at h2
      simp only [Except.ok.injEq] at h2
      rw [← h2] at hi; cases hi
    | [a], hs =>
      refine ⟨fun r hull h1 h2 i hi => ?_, fun is h => by simp at h⟩
      simp only [Sum.inl.injEq] at h1
      rw [← h1] at h2
      simp only [Except.ok.injEq] at h2
      rw [← h2] at hi; exact hs i hi
    | [a, b], hs =>
      refine ⟨fun r hull h1 h2 i hi => ?_, fun is h => by simp at h⟩
      simp only [Sum.inl.injEq] at h1
      rw [← h1] at h2
      simp only [Except.ok.injEq] at h2
      rw [← h2] at hi; exact hs i hi
    | [a, b, c], hs =>
      refine ⟨fun r hull h1 h2 i hi => ?_, fun is h => by simp at h⟩
      simp only [Sum.inl.injEq] at h1
      rw [← h1] at h2
      obtain ⟨pa, -, h2⟩ := except_bind_ok h2
      obtain ⟨pb, -, h2⟩ := except_bind_ok h2
      obtain ⟨pc, -, h2⟩ := except_bind_ok h2
      split at h2
      · simp only [Except.ok.injEq] at h2
        rw [← h2] at hi; exact hs i hi
      · simp only [Except.ok.injEq] at h2
        rw [← h2] at hi
        apply hs
        simp only [List.mem_cons, List.not_mem_nil, or_false] at hi ⊢
        tauto
    | a :: b :: c :: d :: l, hs =>
      refine ⟨fun r hull h1 h2 => by simp at h1, fun is h => ?_⟩
      simp only [Sum.inr.injEq] at h
      rw [← h]; exact hs

theorem indexedGraham_sub (srt : List (Nat × α × α) → List (Nat × α × α)) (hsrt : ∀ l, ∀ e ∈ srt l, e ∈ l)
    {vertices : List (V2 α)} {indices hull : List Nat}
    (h : indexedGrahamNoLoop srt vertices indices none = .ok hull) : ∀ i ∈ hull, i ∈ indices := by
  unfold indexedGrahamNoLoop at h
  have hs := indexedShort_sub (vertices := vertices) (indices := indices)
  split at h
  · rename_i r hr
    exact hs.1 r hull hr h
  · rename_i is hr
    have hsub := hs.2 is hr
    obtain ⟨⟨s, sp⟩, h1, h⟩ := except_bind_ok h
    obtain ⟨ents, h2, h⟩ := except_bind_ok h
    obtain ⟨st, h3, h⟩ := except_bind_ok h
    simp only at h1 h2 h3 h
    simp only [Except.ok.injEq] at h
    subst h
    obtain ⟨⟨ii, p⟩, h4, h1⟩ := except_bind_ok h1
    obtain ⟨i0, h5, h1⟩ := except_bind_ok h1
    simp only [Except.ok.injEq, Prod.mk.injEq] at h1
    rw [h1.1] at h5
    have hents : ∀ (is : List Nat) ents, is.mapM (fun i => do
        let p ← idx vertices i
        (.ok (angleEntry sp i p) : Except Err (Nat × α × α))) = .ok ents → ∀ e ∈ ents, e.1 ∈ is := by
      intro is
      induction is with
      | nil =>
        intro ents h e he
        rw [List.mapM_nil] at h
        simp only [pure, Except.pure, Except.ok.injEq] at h
        rw [← h] at he
        cases he
      | cons a is ih =>
        intro ents h e he
        rw [List.mapM_cons] at h
        obtain ⟨e0, g1, h⟩ := except_bind_ok h
        obtain ⟨es, g2, h⟩ := except_bind_ok h
        obtain ⟨p, -, g1⟩ := except_bind_ok g1
        simp only [Except.ok.injEq] at g1
        simp only [pure, Except.pure, Except.ok.injEq] at h
        rw [← h] at he
        rcases List.mem_cons.1 he with rfl | he
        · rw [← g1]; exact List.mem_cons_self
        · exact List.mem_cons_of_mem _ (ih es g2 e he)
    intro i hi
    rcases grahamLoop_sub _ _ _ _ _ h3 i (List.mem_reverse.1 hi) with hi | hi
    · rw [List.mem_singleton] at hi
      rw [hi]
      exact hsub s (idx_mem h5)
    · obtain ⟨e, he, rfl⟩ := List.mem_map.1 hi
      exact hsub _ (hents is ents h2 e (hsrt ents e he))

theorem closeLoop_sub (hull : List Nat) : ∀ i ∈ closeLoop hull, i ∈ hull := by
  intro i hi
  unfold closeLoop at hi
  split at hi
  · rcases List.mem_append.1 hi with h | h
    · exact h
    · cases hull with
      | nil => simp at h
      | cons a l => simp at h; rw [h]; exact List.mem_cons_self
  · exact hi

/-- indexed Graham scan: the result is a list of given indices -/
theorem C39_indexed_graham_members (srt : List (Nat × α × α) → List (Nat × α × α))
    (hsrt : ∀ l, (srt l).Perm l) (vertices : List (V2 α)) (indices hull : List Nat)
    (h : indexedGrahamScan srt vertices indices = .ok hull) : ∀ i ∈ hull, i ∈ indices := by
  unfold indexedGrahamScan at h
  cases hg : indexedGrahamNoLoop srt vertices indices none with
  | error e => rw [hg] at h; simp [Except.map] at h
  | ok r =>
    rw [hg] at h
    simp only [Except.map, Except.ok.injEq] at h
    subst h
    exact fun i hi => indexedGraham_sub srt (fun l e he => (hsrt l).mem_iff.1 he) hg i (closeLoop_sub r i hi)

theorem giftStep_lt (get : Nat → Except Err (V2 α)) (n start p : Nat) (s s' : Nat × List Nat) (he : s.1 < n) (j : Nat)
    (hj : j < n) (h : giftStep get start p s j = .ok s') : s'.1 < n := by
  unfold giftStep at h
  split at h
  · simp only [Except.ok.injEq] at h; rw [← h]; exact he
  · obtain ⟨pp, -, h⟩ := except_bind_ok h
    obtain ⟨pe, -, h⟩ := except_bind_ok h
    obtain ⟨pj, -, h⟩ := except_bind_ok h
    split at h
    · simp only [Except.ok.injEq] at h; rw [← h]; exact hj
    · split at h
      · simp only [Except.ok.injEq] at h; rw [← h]; exact hj
      · split at h
        · simp only [Except.ok.injEq] at h; rw [← h]; exact he
        · simp only [Except.ok.injEq] at h; rw [← h]; exact he
    · simp only [Except.ok.injEq] at h; rw [← h]; exact he

theorem giftFold_lt (get : Nat → Except Err (V2 α)) (n start p : Nat) : ∀ (l : List Nat) (s s' : Nat × List Nat),
    (∀ j ∈ l, j < n) → s.1 < n → l.foldlM (giftStep get start p) s = .ok s' → s'.1 < n := by
  intro l
  induction l with
  | nil =>
    intro s s' _ he h
    simp only [List.foldlM_nil, pure, Except.pure, Except.ok.injEq] at h
    rw [← h]; exact he
  | cons j l ih =>
    intro s s' hl he h
    rw [List.foldlM_cons] at h
    obtain ⟨s1, h1, h⟩ := except_bind_ok h
    exact ih s1 s' (fun x hx => hl x (List.mem_cons_of_mem _ hx))
      (giftStep_lt get n start p s s1 he j (hl j List.mem_cons_self) h1) h

theorem giftLoop_lt (get : Nat → Except Err (V2 α)) (n start : Nat) : ∀ (fuel p : Nat) (V hull r : List Nat), p < n →
    (∀ x ∈ hull, x < n) → giftLoop get n start fuel p V hull = .ok r → ∀ x ∈ r, x < n := by
  intro fuel
  induction fuel with
  | zero => intro p V hull r _ _ h; simp [giftLoop] at h
  | succ fuel ih =>
    intro p V hull r hp hh h
    unfold giftLoop at h
    obtain ⟨⟨e, V'⟩, h1, h⟩ := except_bind_ok h
    simp only at h
    have hh' : ∀ x ∈ p :: hull, x < n := by
      intro x hx
      rcases List.mem_cons.1 hx with rfl | hx
      · exact hp
      · exact hh x hx
    split at h
    · simp only [Except.ok.injEq] at h
      subst h
      exact fun x hx => hh' x (List.mem_reverse.1 hx)
    · unfold giftRound at h1
      have := giftFold_lt get n start p (List.range n) _ (e, V') (fun j hj => List.mem_range.1 hj)
        (Nat.mod_lt _ (by omega)) h1
      exact ih e V' (p :: hull) r this hh' h

theorem mapM_idx_sub {A : Type} (l : List A) : ∀ (is : List Nat) (r : List A), is.mapM (idx l) = .ok r → ∀ v ∈ r, v ∈ l := by
  intro is
  induction is with
  | nil =>
    intro r h v hv
    rw [List.mapM_nil] at h
    simp only [pure, Except.pure, Except.ok.injEq] at h
    rw [← h] at hv; cases hv
  | cons i is ih =>
    intro r h v hv
    rw [List.mapM_cons] at h
    obtain ⟨a, g1, h⟩ := except_bind_ok h
    obtain ⟨as, g2, h⟩ := except_bind_ok h
    simp only [pure, Except.pure, Except.ok.injEq] at h
    rw [← h] at hv
    rcases List.mem_cons.1 hv with rfl | hv
    · exact idx_mem g1
    · exact ih as g2 v hv

/-- indexed gift wrapping: the result is a list of given indices -/
theorem C39_indexed_gift_members (fuel : Nat) (vertices : List (V2 α)) (indices hull : List Nat)
    (h : indexedGiftWrap fuel vertices indices = .ok hull) : ∀ i ∈ hull, i ∈ indices := by
  unfold indexedGiftWrap at h
  cases hg : indexedGiftNoLoop fuel vertices indices with
  | error e => rw [hg] at h; simp [Except.map] at h
  | ok r =>
    rw [hg] at h
    simp only [Except.map, Except.ok.injEq] at h
    subst h
    intro i hi
    have hi := closeLoop_sub r i hi
    unfold indexedGiftNoLoop at hg
    have hs := indexedShort_sub (vertices := vertices) (indices := indices)
    split at hg
    · rename_i q hq
      exact hs.1 q r hq hg i hi
    · rename_i is hq
      obtain ⟨⟨s, sp⟩, h1, hg⟩ := except_bind_ok hg
      obtain ⟨ps, h2, hg⟩ := except_bind_ok hg
      exact hs.2 is hq i (mapM_idx_sub is ps r hg i hi)

/-! ## the parallel hull -/

theorem combineScan_sub (vertices : List (V2 α)) (p : VertexIndex) (S : Nat → Prop) : ∀ (l : List Nat) (jj : Nat)
    (e e' : VertexIndex) (found : Bool), (∀ i ∈ l, S i) → S e.index →
    combineScan vertices p l jj e found = .ok e' → S e'.index := by
  intro l
  induction l with
  | nil =>
    intro jj e e' found _ he h
    simp only [combineScan, Except.ok.injEq] at h
    rw [← h]; exact he
  | cons j l ih =>
    intro jj e e' found hl he h
    have hl' : ∀ i ∈ l, S i := fun i hi => hl i (List.mem_cons_of_mem _ hi)
    have hj := hl j List.mem_cons_self
    unfold combineScan at h
    split at h
    · exact ih _ e e' found hl' he h
    · obtain ⟨pp, -, h⟩ := except_bind_ok h
      obtain ⟨pe, -, h⟩ := except_bind_ok h
      obtain ⟨pj, -, h⟩ := except_bind_ok h
      split at h
      · exact ih _ _ e' true hl' hj h
      · split at h
        · exact ih _ _ e' true hl' hj h
        · exact ih _ e e' found hl' he h
      · split at h
        · simp only [Except.ok.injEq] at h
          rw [← h]; exact he
        · exact ih _ e e' found hl' he h

theorem combineLoop_sub (vertices : List (V2 α)) (a b : List Nat) (start : Nat) (S : Nat → Prop)
    (ha : ∀ i ∈ a, S i) (hb : ∀ i ∈ b, S i) : ∀ (fuel : Nat) (p : VertexIndex) (hull r : List Nat), S p.index →
    (∀ i ∈ hull, S i) → combineLoop vertices a b start fuel p hull = .ok r → ∀ i ∈ r, S i := by
  intro fuel
  induction fuel with
  | zero => intro p hull r _ _ h; simp [combineLoop] at h
  | succ fuel ih =>
    intro p hull r hp hh h
    unfold combineLoop at h
    simp only at h
    have hh' : ∀ x ∈ p.index :: hull, S x := by
      intro x hx
      rcases List.mem_cons.1 hx with rfl | hx
      · exact hp
      · exact hh x hx
    obtain ⟨e, h1, h⟩ := except_bind_ok h
    obtain ⟨e2, h2, h⟩ := except_bind_ok h
    have hown : ∀ i ∈ (if p.fromA = true then a else b), S i := by split <;> assumption
    have hoth : ∀ i ∈ (if p.fromA = true then b else a), S i := by split <;> assumption
    have he : S e.index := by
      unfold combineFirst at h1
      obtain ⟨i, g1, h1⟩ := except_bind_ok h1
      split at h1
      · simp only [Except.ok.injEq] at h1
        rw [← h1]; exact hown i (idx_mem g1)
      · obtain ⟨o, g2, h1⟩ := except_bind_ok h1
        simp only [Except.ok.injEq] at h1
        rw [← h1]; exact hoth o (idx_mem g2)
    have he2 := combineScan_sub vertices p S _ 0 e e2 false hoth he h2
    split at h
    · simp only [Except.ok.injEq] at h
      subst h
      exact fun x hx => hh' x (List.mem_reverse.1 hx)
    · exact ih e2 _ r he2 hh' h

theorem combineHulls_sub (fuel : Nat) (vertices : List (V2 α)) (S : Nat → Prop) (ra rb : Except Err (List Nat))
    (ha : ∀ a, ra = .ok a → ∀ i ∈ a, S i) (hb : ∀ b, rb = .ok b → ∀ i ∈ b, S i) (r : List Nat)
    (h : combineHulls fuel vertices ra rb = .ok r) : ∀ i ∈ r, S i := by
  unfold combineHulls at h
  obtain ⟨a, h1, h⟩ := except_bind_ok h
  obtain ⟨b, h2, h⟩ := except_bind_ok h
  have ha := ha a h1
  have hb := hb b h2
  cases a with
  | nil =>
    simp only [Except.ok.injEq] at h
    rw [← h]; exact hb
  | cons s a =>
    cases b with
    | nil =>
      simp only [Except.ok.injEq] at h
      rw [← h]; exact ha
    | cons t b =>
      simp only at h
      exact combineLoop_sub vertices (s :: a) (t :: b) s S ha hb fuel ⟨true, s, 0⟩ [] r (ha s List.mem_cons_self)
        (by simp) h

theorem combineOp_sub (fuel : Nat) (vertices : List (V2 α)) (S : Nat → Prop) (ra rb : Except Err (List Nat))
    (ha : ∀ a, ra = .ok a → ∀ i ∈ a, S i) (hb : ∀ b, rb = .ok b → ∀ i ∈ b, S i) (r : List Nat)
    (h : combineOp fuel vertices ra rb = .ok r) : ∀ i ∈ r, S i := by
  unfold combineOp at h
  cases ra with
  | error e => simp at h
  | ok a => exact combineHulls_sub fuel vertices S (.ok a) rb ha hb r h

theorem parReduce_sub (fuel : Nat) (vertices : List (V2 α)) (S : Nat → Prop) (s : Nat) (hs : S s) :
    ∀ (sched : Sched) (parts : List (Except Err (List Nat))), (∀ q ∈ parts, ∀ b, q = .ok b → ∀ i ∈ b, S i) →
    ∀ r, parReduce (.ok [s]) (combineOp fuel vertices) sched parts = .ok r → ∀ i ∈ r, S i := by
  intro sched
  induction sched with
  | leaf =>
    intro parts hp r h
    have gen : ∀ (parts : List (Except Err (List Nat))) (acc : Except Err (List Nat)),
        (∀ a, acc = .ok a → ∀ i ∈ a, S i) → (∀ q ∈ parts, ∀ b, q = .ok b → ∀ i ∈ b, S i) →
        ∀ r, parts.foldl (combineOp fuel vertices) acc = .ok r → ∀ i ∈ r, S i := by
      intro parts
      induction parts with
      | nil => intro acc ha _ r h; exact ha r h
      | cons q parts ih =>
        intro acc ha hq r h
        rw [List.foldl_cons] at h
        refine ih _ ?_ (fun x hx => hq x (List.mem_cons_of_mem _ hx)) r h
        intro a h'
        exact combineOp_sub fuel vertices S acc q ha (hq q List.mem_cons_self) a h'
    refine gen parts (.ok [s]) ?_ hp r h
    intro a h i hi
    simp only [Except.ok.injEq] at h
    rw [← h, List.mem_singleton] at hi
    rw [hi]; exact hs
  | node k l r ihl ihr =>
    intro parts hp q h
    exact combineOp_sub fuel vertices S _ _ (ihl _ (fun x hx => hp x (List.mem_of_mem_take hx)))
      (ihr _ (fun x hx => hp x (List.mem_of_mem_drop hx))) q h

theorem chunksOf_sub {A : Type} (size : Nat) : ∀ (fuel : Nat) (l : List A), ∀ c ∈ chunksOf size fuel l, ∀ i ∈ c, i ∈ l := by
  intro fuel
  induction fuel with
  | zero =>
    intro l c hc
    cases l <;> simp [chunksOf] at hc
  | succ fuel ih =>
    intro l c hc i hi
    cases l with
    | nil => simp [chunksOf] at hc
    | cons a l =>
      unfold chunksOf at hc
      rcases List.mem_cons.1 hc with rfl | hc
      · exact List.mem_of_mem_take hi
      · exact List.mem_of_mem_drop (ih _ c hc i hi)

theorem parStart_sub (vertices : List (V2 α)) (chunks : List (List Nat)) (s : Nat)
    (h : parStart vertices chunks = .ok s) : ∃ c ∈ chunks, s ∈ c := by
  unfold parStart at h
  obtain ⟨starts, h1, h⟩ := except_bind_ok h
  obtain ⟨⟨ii, p⟩, h2, h⟩ := except_bind_ok h
  have hs : s ∈ starts := idx_mem h
  have gen : ∀ (chunks : List (List Nat)) (starts : List Nat), chunks.mapM (fun chunk => do
      let (ii, _) ← findLowest vertices.isEmpty (idx vertices) chunk
      (idx chunk ii : Except Err Nat)) = .ok starts → ∀ s ∈ starts, ∃ c ∈ chunks, s ∈ c := by
    intro chunks
    induction chunks with
    | nil =>
      intro starts h s hs
      rw [List.mapM_nil] at h
      simp only [pure, Except.pure, Except.ok.injEq] at h
      rw [← h] at hs; cases hs
    | cons c chunks ih =>
      intro starts h s hs
      rw [List.mapM_cons] at h
      obtain ⟨a, g1, h⟩ := except_bind_ok h
      obtain ⟨as, g2, h⟩ := except_bind_ok h
      simp only [pure, Except.pure, Except.ok.injEq] at h
      rw [← h] at hs
      rcases List.mem_cons.1 hs with rfl | hs
      · obtain ⟨⟨ii, q⟩, -, g1⟩ := except_bind_ok g1
        exact ⟨c, List.mem_cons_self, idx_mem g1⟩
      · obtain ⟨c', hc', hsc⟩ := ih as g2 s hs
        exact ⟨c', List.mem_cons_of_mem _ hc', hsc⟩
  exact gen chunks starts h1 s hs

/-- the parallel hull: for every arithmetic, chunk size and schedule the result (if there is one) is a
list of given indices -/
theorem C39_par_members (fuel : Nat) (sched : Sched) (srt : List (Nat × α × α) → List (Nat × α × α))
    (hsrt : ∀ l, (srt l).Perm l) (vertices : List (V2 α)) (indices hull : List Nat) (chunk : Nat)
    (h : convexHullPar fuel sched srt vertices indices chunk = .ok hull) : ∀ i ∈ hull, i ∈ indices := by
  unfold convexHullPar at h
  have hs := indexedShort_sub (vertices := vertices) (indices := indices)
  split at h
  · rename_i r hr
    exact hs.1 r hull hr h
  · rename_i is hr
    have hsub := hs.2 is hr
    split at h
    · simp at h
    · obtain ⟨s, h1, h⟩ := except_bind_ok h
      obtain ⟨r, h2, h⟩ := except_bind_ok h
      simp only [Except.ok.injEq] at h
      subst h
      obtain ⟨c, hc, hsc⟩ := parStart_sub vertices _ s h1
      have hS : s ∈ indices := hsub s (chunksOf_sub chunk _ is c hc s hsc)
      have := parReduce_sub fuel vertices (fun i => i ∈ indices) s hS sched _ (by
        intro q hq b hb i hi
        obtain ⟨c, hc, rfl⟩ := List.mem_map.1 hq
        exact hsub i (chunksOf_sub chunk _ is c hc i
          (indexedGraham_sub srt (fun l e he => (hsrt l).mem_iff.1 he) hb i hi))) r h2
      exact fun i hi => this i (closeLoop_sub r i hi)

/-- `LineString2::convex_hull_par` returns points of the line -/
theorem C39_line_par_members (fuel : Nat) (sched : Sched) (srt : List (Nat × α × α) → List (Nat × α × α))
    (l hull : List (V2 α)) (chunk : Nat) (h : lineConvexHullPar fuel sched srt l chunk = .ok hull) :
    ∀ p ∈ hull, p ∈ l := by
  unfold lineConvexHullPar at h
  split at h
  · obtain ⟨is, -, h⟩ := except_bind_ok h
    exact mapM_idx_sub l is hull h
  · simp at h
end

end Verif.Props
