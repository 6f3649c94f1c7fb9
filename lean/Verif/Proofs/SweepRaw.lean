import Verif.Props.Sweep
import Mathlib.Algebra.Order.BigOperators.Group.List
/-!
# The sweep line without laws of arithmetic

Termination and soundness of the sweep line for scalars that need not obey any algebraic law (floats): it is
enough that finite values can be compared and that the test "not before the sweep line" of
`find_new_events` implies a strict order.
-/
set_option linter.unusedSectionVars false
set_option linter.unusedVariables false
set_option linter.unusedSimpArgs false
namespace Verif.SweepRaw
open Verif Verif.Model Verif.Props Scalar
variable {α : Type} [Scalar α] {ι σ V : Type}

/-- `find_new_events` takes a computed point `p` only if it is after the position `s` of the sweep line -/
def after (s p : V2 α) : Bool :=
  (p.y >=. s.y) && !((p.y ==. s.y) && (p.x <. s.x)) && !p.ulpsEq s

/-- the same as `OpsOk`, for any numbers -/
structure Ops (ops : SweepOps α ι σ) (L : List (Line2 α)) (T : σ → Prop) (Valid : σ → V2 α × ι → Prop) : Prop where
  line : ∀ tab, T tab → ∀ i l, L[i]? = some l → ops.line tab i = .ok l
  fresh : ∀ tab, T tab → ∀ p, T (ops.fresh tab p).2
  validNew : ∀ tab, T tab → ∀ p, Valid (ops.fresh tab p).2 (p, (ops.fresh tab p).1)
  validMono : ∀ tab, T tab → ∀ p k, Valid tab k → Valid (ops.fresh tab p).2 k
  keyPos : ∀ tab, T tab → ∀ k, Valid tab k → ops.keyPos tab k = .ok k.1

/-- `get_mut` or `insert` -/
theorem siteUpdate_cases [TreeShape α] (hc : FiniteComparable α) (k : V2 α × ι) (hk : FiniteV2 k.1) (f : Option V → Except Err V)
    (m : SiteMap α ι V) (hm : ∀ e ∈ m, FiniteV2 e.1.1) :
    (∃ pre e post, m = pre ++ e :: post ∧ Sweep.Finds k m pre.length true ∧ siteCmp k.1 e.1.1 = some .eq ∧
      siteUpdate k f m = (f (some e.2)).map (fun v => pre ++ (e.1, v) :: post)) ∨
    (∃ pre post, m = pre ++ post ∧ Sweep.Finds k m pre.length false ∧
      siteUpdate k f m = (f none).map (fun v => pre ++ (k, v) :: post)) := by
  rcases Sweep.siteUpdate_split k m (fun e he => siteCmp_some hc hk (hm e he)) with
    ⟨pre, e, post, h1, h2, h3, h4⟩ | ⟨pre, post, h1, h2, h3, h4, h5⟩
  · exact Or.inl ⟨pre, e, post, h1, h3, h2, h4 f⟩
  · exact Or.inr ⟨pre, post, h1, h4, h5 f⟩

/-- where a search ends depends only on the keys -/
theorem finds_congr [TreeShape α] {k : V2 α × ι} {m m' : SiteMap α ι V} (h : m.map (·.1) = m'.map (·.1)) {i : Nat} {b : Bool}
    (hf : Sweep.Finds k m i b) : Sweep.Finds k m' i b := by
  unfold Sweep.Finds at hf ⊢
  have e : m.length = m'.length := by simpa using congrArg List.length h
  rw [← h, ← e]; exact hf

/-- the positions of the keys -/
def poss (m : SiteMap α ι V) : List (V2 α) := m.map (fun e => e.1.1)

theorem poss_append (a b : SiteMap α ι V) : poss (a ++ b) = poss a ++ poss b := List.map_append
theorem poss_cons (e : (V2 α × ι) × V) (b : SiteMap α ι V) : poss (e :: b) = e.1.1 :: poss b := rfl
theorem poss_swap (pre post : SiteMap α ι V) (e : (V2 α × ι) × V) (v : V) :
    poss (pre ++ (e.1, v) :: post) = poss (pre ++ e :: post) := by
  rw [poss_append, poss_append, poss_cons, poss_cons]

/-- A reason to rely on the search trees: the comparison with tolerances is not transitive, and an insertion may
move other keys up in the tree, so that it is not automatic that a search for a key that has been inserted finds it.
If `holds`, the trees keep an invariant `Inv` (about the positions from left to right) as long as only keys with
`K` are inserted, and then the first key is found, and so is a key that has just been inserted. -/
structure Rely (α : Type) [Scalar α] [TreeShape α] where
  holds : Prop
  K : V2 α → Prop
  Inv : List (V2 α) → Prop
  nil : holds → Inv []
  tail : holds → ∀ p ps, Inv (p :: ps) → Inv ps
  insert : holds → ∀ {ι V : Type} (k : V2 α × ι) (pre post : SiteMap α ι V), K k.1 → Inv (poss (pre ++ post)) →
    Sweep.Finds k (pre ++ post) pre.length false → Inv (poss pre ++ k.1 :: poss post)
  first : holds → ∀ {ι V : Type} (k : V2 α × ι) (v : V) (rest : SiteMap α ι V), siteCmp k.1 k.1 = some .eq →
    K k.1 → Inv (poss ((k, v) :: rest)) → Sweep.Finds k ((k, v) :: rest) 0 true
  stable : holds → ∀ {ι V : Type} (k : V2 α × ι) (v : V) (pre post : SiteMap α ι V), siteCmp k.1 k.1 = some .eq →
    K k.1 → Inv (poss (pre ++ post)) → Sweep.Finds k (pre ++ post) pre.length false →
    Sweep.Finds k (pre ++ (k, v) :: post) pre.length true

/-- no reason to rely on the trees -/
def Rely.none (α : Type) [Scalar α] [TreeShape α] : Rely α where
  holds := False
  K := fun _ => True
  Inv := fun _ => True
  nil := fun h => h.elim
  tail := fun h => h.elim
  insert := fun h => h.elim
  first := fun h => h.elim
  stable := fun h => h.elim

/-- what the proof needs to know about the numbers: `N1`, `N2`, `N3`, `N4` say (with growing tolerance) that a
point is near a line -/
structure Laws [TreeShape α] (R : Rely α) (L : List (Line2 α)) (Lt : V2 α → V2 α → Prop) (N1 N2 N3 N4 : Line2 α → V2 α → Prop) : Prop where
  comparable : FiniteComparable α
  refl : ∀ p : V2 α, FiniteV2 p → p.ulpsEq p = true
  symm : ∀ p q : V2 α, FiniteV2 p → FiniteV2 q → siteCmp p q = some .eq → siteCmp q p = some .eq
  trans : ∀ a b c, Lt a b → Lt b c → Lt a c
  irrefl : ∀ a, ¬ Lt a a
  after : ∀ s p : V2 α, FiniteV2 s → FiniteV2 p → after s p = true → Lt s p
  finite : ∀ l ∈ L, FiniteV2 l.start ∧ FiniteV2 l.end
  n12 : ∀ l p, N1 l p → N2 l p
  m12 : ∀ l p k, FiniteV2 p → FiniteV2 k → siteCmp p k = some .eq → N1 l p → N2 l k
  n23 : ∀ l p, N2 l p → N3 l p
  m23 : ¬ R.holds → ∀ l p k, FiniteV2 p → FiniteV2 k → siteCmp p k = some .eq → N2 l p → N3 l k
  n34 : ∀ l p, N3 l p → N4 l p
  m34 : ∀ l p k, FiniteV2 p → FiniteV2 k → siteCmp p k = some .eq → N3 l p → N4 l k
  ends : ∀ l ∈ L, N1 l l.start ∧ N1 l l.end
  meet : ∀ l ∈ L, ∀ m ∈ L, ∀ i, l.intersectionPoint m = some i → FiniteV2 i.single → N1 l i.single ∧ N1 m i.single
  keyEnds : R.holds → ∀ l ∈ L, R.K l.start ∧ R.K l.end
  keyMeet : R.holds → ∀ l ∈ L, ∀ m ∈ L, ∀ i, l.intersectionPoint m = some i → FiniteV2 i.single → R.K i.single

/-- the search in a tree with a single key -/
theorem finds_single [TreeShape α] {k : V2 α × ι} (v : V) (h : siteCmp k.1 k.1 = some .eq) :
    Sweep.Finds k [(k, v)] 0 true := by
  unfold Sweep.Finds
  simp only [List.map_cons, List.map_nil, List.length_cons, List.length_nil]
  unfold siteSearch
  rw [if_pos (by omega)]
  simp only [Nat.mod_one, Nat.zero_add, Nat.sub_zero, List.getElem?_cons_zero, h]

/-- the search of a tree with one node -/
theorem search_oneNode (V : Type) (keys : List (V2 α × ι)) (k : V2 α × ι) :
    letI := TreeShape.oneNode α
    ∀ n lo, keys.length ≤ lo + n → ∀ i b, siteSearch V keys k n lo keys.length = .ok (i, b) →
      lo ≤ i ∧ ∀ j, lo ≤ j → j < i → ∀ e, keys[j]? = some e → siteCmp k.1 e.1 = some .gt := by
  intro n
  induction n with
  | zero =>
    intro lo _ i b h
    cases h
    exact ⟨Nat.le_refl _, fun j h1 h2 => by omega⟩
  | succ n ih =>
    intro lo hn i b h
    unfold siteSearch at h
    by_cases hlt : lo < keys.length
    · rw [if_pos hlt] at h
      have e0 : @TreeShape.next α (TreeShape.oneNode α) V ι keys k lo keys.length % (keys.length - lo) = 0 := Nat.zero_mod _
      simp only [e0, Nat.add_zero] at h
      rw [List.getElem?_eq_getElem hlt] at h
      simp only at h
      rcases hc : siteCmp k.1 keys[lo].1 with _ | o
      · rw [hc] at h; cases h
      · rw [hc] at h
        cases o with
        | lt =>
          simp only at h
          have : @siteSearch α _ ι (TreeShape.oneNode α) V keys k n lo lo = .ok (lo, false) := by
            cases n with
            | zero => rfl
            | succ n => unfold siteSearch; rw [if_neg (by omega)]
          rw [this] at h
          cases h
          exact ⟨Nat.le_refl _, fun j h1 h2 => by omega⟩
        | eq =>
          simp only at h
          cases h
          exact ⟨Nat.le_refl _, fun j h1 h2 => by omega⟩
        | gt =>
          simp only at h
          obtain ⟨h1, h2⟩ := ih (lo + 1) (by omega) i b h
          refine ⟨by omega, fun j h3 h4 e he => ?_⟩
          by_cases hj : j = lo
          · subst hj
            rw [List.getElem?_eq_getElem hlt] at he
            cases he
            exact hc
          · exact h2 j (by omega) h4 e he
    · rw [if_neg hlt] at h
      cases h
      exact ⟨Nat.le_refl _, fun j h1 h2 => by omega⟩

theorem search_oneNode_found (V : Type) (keys : List (V2 α × ι)) (k e : V2 α × ι) (i : Nat) (he : keys[i]? = some e)
    (hc : siteCmp k.1 e.1 = some .eq) (hb : ∀ j, j < i → ∀ e, keys[j]? = some e → siteCmp k.1 e.1 = some .gt) :
    letI := TreeShape.oneNode α
    ∀ n lo, lo ≤ i → keys.length ≤ lo + n → siteSearch V keys k n lo keys.length = .ok (i, true) := by
  intro n
  have hi : i < keys.length := (List.getElem?_eq_some_iff.1 he).1
  induction n with
  | zero => intro lo h1 h2; omega
  | succ n ih =>
    intro lo h1 h2
    unfold siteSearch
    rw [if_pos (by omega)]
    have e0 : @TreeShape.next α (TreeShape.oneNode α) V ι keys k lo keys.length % (keys.length - lo) = 0 := Nat.zero_mod _
    simp only [e0, Nat.add_zero]
    have hg : keys[lo]? = some keys[lo] := List.getElem?_eq_getElem (by omega)
    rw [hg]
    simp only
    by_cases hj : lo = i
    · subst hj
      rw [he] at hg
      cases hg
      rw [hc]
    · rw [hb lo (by omega) _ hg]
      exact ih (lo + 1) (by omega) (by omega)

/-- in a tree with one node every key that has been inserted is found -/
theorem stable_oneNode {ι V : Type} (k : V2 α × ι) (v : V) (pre post : SiteMap α ι V) (hk : siteCmp k.1 k.1 = some .eq)
    (hf : @Sweep.Finds α _ (TreeShape.oneNode α) ι V k (pre ++ post) pre.length false) :
    @Sweep.Finds α _ (TreeShape.oneNode α) ι V k (pre ++ (k, v) :: post) pre.length true := by
  let _ := TreeShape.oneNode α
  unfold Sweep.Finds at hf ⊢
  have e1 : (pre ++ post).length = ((pre ++ post).map (·.1)).length := by simp
  have e2 : (pre ++ (k, v) :: post).length = ((pre ++ (k, v) :: post).map (·.1)).length := by simp
  rw [e1] at hf
  rw [e2]
  obtain ⟨-, h⟩ := search_oneNode V ((pre ++ post).map (·.1)) k _ 0 (by omega) _ _ hf
  refine search_oneNode_found V _ k k pre.length (by simp) hk ?_ _ 0 (Nat.zero_le _) (by omega)
  intro j hj e he
  refine h j (Nat.zero_le _) hj e ?_
  rw [List.getElem?_map, List.getElem?_append_left hj] at he ⊢
  exact he

/-- in a tree with one node the first key is found -/
theorem first_oneNode {ι V : Type} (k : V2 α × ι) (v : V) (rest : SiteMap α ι V) (hk : siteCmp k.1 k.1 = some .eq) :
    @Sweep.Finds α _ (TreeShape.oneNode α) ι V k ((k, v) :: rest) 0 true := by
  let _ := TreeShape.oneNode α
  unfold Sweep.Finds
  have e2 : ((k, v) :: rest).length = (((k, v) :: rest).map (·.1)).length := by simp
  rw [e2]
  exact search_oneNode_found V _ k k 0 rfl hk (fun j hj => by omega) _ 0 (Nat.zero_le _) (by omega)

/-- trees with one node can be relied on -/
def Rely.oneNode (α : Type) [Scalar α] : @Rely α _ (TreeShape.oneNode α) :=
  letI := TreeShape.oneNode α
  { holds := True
    K := fun _ => True
    Inv := fun _ => True
    nil := fun _ => trivial
    tail := fun _ _ _ _ => trivial
    insert := fun _ _ _ _ _ _ _ _ _ => trivial
    first := fun _ _ _ k v rest hk _ _ => first_oneNode k v rest hk
    stable := fun _ _ _ k v pre post hk _ _ hf => stable_oneNode k v pre post hk hf }

/-- the comparison of keys is transitive on these positions -/
def Transitive (S : V2 α → Prop) : Prop := ∀ a b c, S a → S b → S c →
  siteCmp a b = some .lt → siteCmp b c = some .lt → siteCmp a c = some .lt

/-- in a tree with keys in order every key is found, whatever the shape -/
theorem finds_ordered [TreeShape α] {k : V2 α × ι} {v : V} {pre post : SiteMap α ι V} (hk : siteCmp k.1 k.1 = some .eq)
    (h1 : ∀ x ∈ pre, siteCmp k.1 x.1.1 = some .gt) (h2 : ∀ x ∈ post, siteCmp k.1 x.1.1 = some .lt) :
    Sweep.Finds k (pre ++ (k, v) :: post) pre.length true := by
  rcases Sweep.siteUpdate_split k (pre ++ (k, v) :: post) (by
    intro e he
    rcases List.mem_append.1 he with he | he
    · rw [h1 e he]; exact fun h => (nomatch h)
    · rcases List.mem_cons.1 he with rfl | he
      · rw [hk]; exact fun h => (nomatch h)
      · rw [h2 e he]; exact fun h => (nomatch h)) with ⟨pre', e, post', hm, hc, hf, -⟩ | ⟨pre', post', hm, hl, hr, -, -⟩
  · rcases List.append_eq_append_iff.1 hm with ⟨t, ht, ht'⟩ | ⟨t, ht, ht'⟩
    · cases t with
      | nil =>
        rw [List.append_nil] at ht
        rw [ht] at hf; exact hf
      | cons y t =>
        obtain ⟨rfl, ht2⟩ := List.cons.inj ht'
        have := h2 e (by rw [ht2]; exact List.mem_append_right _ List.mem_cons_self)
        rw [hc] at this; cases this
    · cases t with
      | nil =>
        rw [List.append_nil] at ht
        rw [← ht] at hf; exact hf
      | cons y t =>
        obtain ⟨rfl, ht'⟩ := List.cons.inj ht'
        have := h1 e (by rw [ht]; simp)
        rw [hc] at this; cases this
  · exfalso
    rcases List.append_eq_append_iff.1 hm with ⟨t, ht, ht'⟩ | ⟨t, ht, ht'⟩
    · cases t with
      | nil =>
        have := hr (k, v) (by rw [List.nil_append] at ht'; rw [← ht']; rfl)
        rw [hk] at this; cases this
      | cons y t =>
        obtain ⟨rfl, ht2⟩ := List.cons.inj ht'
        have h3 := hl _ (by rw [ht, List.getLast?_append_of_ne_nil _ (List.cons_ne_nil _ _), List.getLast?_eq_some_getLast (List.cons_ne_nil _ _)])
        have hmem := List.getLast_mem (List.cons_ne_nil (k, v) t)
        generalize ((k, v) :: t).getLast (List.cons_ne_nil (k, v) t) = y at h3 hmem
        rcases List.mem_cons.1 hmem with rfl | hy
        · rw [hk] at h3; cases h3
        · rw [h2 y (by rw [ht2]; exact List.mem_append_left _ hy)] at h3; cases h3
    · cases t with
      | nil =>
        have := hr (k, v) (by rw [List.nil_append] at ht'; rw [ht']; rfl)
        rw [hk] at this; cases this
      | cons y t =>
        have := hr y (by rw [ht']; rfl)
        rw [h1 y (by rw [ht]; simp)] at this; cases this

/-- where a key has to be inserted -/
theorem finds_place [TreeShape α] {k : V2 α × ι} {pre post : SiteMap α ι V} (hc : ∀ e ∈ pre ++ post, siteCmp k.1 e.1.1 ≠ none)
    (hf : Sweep.Finds k (pre ++ post) pre.length false) :
    (∀ x, pre.getLast? = some x → siteCmp k.1 x.1.1 = some .gt) ∧ (∀ x, post.head? = some x → siteCmp k.1 x.1.1 = some .lt) := by
  rcases Sweep.siteUpdate_split k (pre ++ post) hc with ⟨pre', e, post', hm, -, hf', -⟩ | ⟨pre', post', hm, hl, hr, hf', -⟩
  · unfold Sweep.Finds at hf hf'
    rw [hf] at hf'
    have := congrArg Prod.snd (Except.ok.inj hf')
    cases this
  · unfold Sweep.Finds at hf hf'
    rw [hf] at hf'
    have hlen : pre.length = pre'.length := by injection hf' with h; injection h
    obtain ⟨rfl, rfl⟩ := List.append_inj hm hlen
    exact ⟨hl, hr⟩

/-- trees of any shape can be relied on if the comparison of keys is transitive on the positions -/
def Rely.transitive [TreeShape α] (hc : FiniteComparable α)
    (swap : ∀ a b : V2 α, FiniteV2 a → FiniteV2 b → siteCmp a b = some .gt → siteCmp b a = some .lt)
    (swap' : ∀ a b : V2 α, FiniteV2 a → FiniteV2 b → siteCmp a b = some .lt → siteCmp b a = some .gt)
    (S : V2 α → Prop) : Rely α where
  holds := Transitive S
  K := fun p => S p ∧ FiniteV2 p
  Inv := fun ps => (∀ p ∈ ps, S p ∧ FiniteV2 p) ∧ ps.Pairwise (fun a b => siteCmp a b = some .lt)
  nil := fun _ => ⟨by simp, List.Pairwise.nil⟩
  tail := fun _ p ps h => ⟨fun q hq => h.1 q (List.mem_cons_of_mem _ hq), (List.pairwise_cons.1 h.2).2⟩
  insert := by
    intro hS ι V k pre post hk hI hf
    obtain ⟨h1, h2⟩ := hI
    have hin : ∀ e ∈ pre ++ post, S e.1.1 ∧ FiniteV2 e.1.1 := fun e he => h1 _ (List.mem_map.2 ⟨e, he, rfl⟩)
    obtain ⟨hl, hr⟩ := finds_place (fun e he => siteCmp_some hc hk.2 (hin e he).2) hf
    rw [poss_append, List.pairwise_append] at h2
    obtain ⟨q1, q2, q3⟩ := h2
    have hpre : ∀ p ∈ poss pre, siteCmp p k.1 = some .lt := by
      intro p hp
      rcases pre.eq_nil_or_concat' with rfl | ⟨pre', x, rfl⟩
      · cases hp
      · have hx := hl x (by simp)
        obtain ⟨sx, fx⟩ := hin x (by simp)
        have hx' := swap _ _ hk.2 fx hx
        rw [poss_append] at q1 hp
        rcases List.mem_append.1 hp with hp' | hp'
        · have := (List.pairwise_append.1 q1).2.2 p hp' x.1.1 (by simp [poss])
          obtain ⟨e, he, rfl⟩ := List.mem_map.1 hp'
          exact hS _ _ _ (hin e (by simp [he])).1 sx hk.1 this hx'
        · simp only [poss, List.map_cons, List.map_nil, List.mem_singleton] at hp'
          rw [hp']; exact hx'
    have hpost : ∀ p ∈ poss post, siteCmp k.1 p = some .lt := by
      intro p hp
      cases post with
      | nil => cases hp
      | cons x post =>
        have hx := hr x rfl
        obtain ⟨sx, fx⟩ := hin x (by simp)
        rw [poss_cons] at q2 hp
        rcases List.mem_cons.1 hp with rfl | hp'
        · exact hx
        · have := (List.pairwise_cons.1 q2).1 p hp'
          obtain ⟨e, he, rfl⟩ := List.mem_map.1 hp'
          exact hS _ _ _ hk.1 sx (hin e (by simp [he])).1 hx this
    refine ⟨?_, ?_⟩
    · intro p hp
      rw [poss_append] at h1
      rcases List.mem_append.1 hp with hp | hp
      · exact h1 p (List.mem_append_left _ hp)
      · rcases List.mem_cons.1 hp with rfl | hp
        · exact hk
        · exact h1 p (List.mem_append_right _ hp)
    · rw [List.pairwise_append, List.pairwise_cons]
      refine ⟨q1, ⟨hpost, q2⟩, fun a ha b hb => ?_⟩
      rcases List.mem_cons.1 hb with rfl | hb
      · exact hpre a ha
      · exact q3 a ha b hb
  first := by
    intro hS ι V k v rest hk hK hI
    obtain ⟨h1, h2⟩ := hI
    refine finds_ordered (pre := []) hk (fun x hx => by cases hx) (fun x hx => ?_)
    exact (List.pairwise_cons.1 h2).1 _ (List.mem_map.2 ⟨x, hx, rfl⟩)
  stable := by
    intro hS ι V k v pre post hk hK hI hf
    obtain ⟨h1, h2⟩ := hI
    have hin : ∀ e ∈ pre ++ post, S e.1.1 ∧ FiniteV2 e.1.1 := fun e he => h1 _ (List.mem_map.2 ⟨e, he, rfl⟩)
    obtain ⟨hl, hr⟩ := finds_place (fun e he => siteCmp_some hc hK.2 (hin e he).2) hf
    rw [poss_append, List.pairwise_append] at h2
    obtain ⟨q1, q2, q3⟩ := h2
    refine finds_ordered hk ?_ ?_
    · intro y hy
      rcases pre.eq_nil_or_concat' with rfl | ⟨pre', x, rfl⟩
      · cases hy
      · have hx := hl x (by simp)
        obtain ⟨sx, fx⟩ := hin x (by simp)
        obtain ⟨sy, fy⟩ := hin y (List.mem_append_left _ hy)
        have hx' := swap _ _ hK.2 fx hx
        rw [poss_append] at q1
        rcases List.mem_append.1 hy with hy' | hy'
        · have := (List.pairwise_append.1 q1).2.2 y.1.1 (List.mem_map.2 ⟨y, hy', rfl⟩) x.1.1 (by simp [poss])
          exact swap' _ _ fy hK.2 (hS _ _ _ sy sx hK.1 this hx')
        · rw [List.mem_singleton] at hy'
          rw [hy']; exact hx
    · intro y hy
      cases post with
      | nil => cases hy
      | cons x post =>
        have hx := hr x rfl
        obtain ⟨sx, fx⟩ := hin x (by simp)
        obtain ⟨sy, fy⟩ := hin y (List.mem_append_right _ hy)
        rw [poss_cons] at q2
        rcases List.mem_cons.1 hy with rfl | hy'
        · exact hx
        · have := (List.pairwise_cons.1 q2).1 y.1.1 (List.mem_map.2 ⟨y, hy', rfl⟩)
          exact hS _ _ _ hK.1 sx sy hx this

section
variable {L : List (Line2 α)} {Lt : V2 α → V2 α → Prop} {N1 N2 N3 N4 : Line2 α → V2 α → Prop}

/-- what an event at `p` contains -/
structure EvR (L : List (Line2 α)) (N2 : Line2 α → V2 α → Prop) (p : V2 α) (e : SiteEvent) : Prop where
  near : ∀ i, (i ∈ e.drop ∨ i ∈ e.add ∨ i ∈ e.inter) → ∃ l, L[i]? = some l ∧ N2 l p
  addN : e.add.Nodup
  interN : e.inter.Nodup
  one : 1 ≤ e.drop.length + e.add.length + e.inter.length
  two : e.inter ≠ [] → 2 ≤ e.drop.length + e.add.length + e.inter.length

/-- the event queue -/
structure EI [TreeShape α] (R : Rely α) (L : List (Line2 α)) (N2 : Line2 α → V2 α → Prop) (T : σ → Prop) (Valid : σ → V2 α × ι → Prop)
    (s : σ × SiteMap α ι SiteEvent) : Prop where
  tab : T s.1
  fin : ∀ e ∈ s.2, FiniteV2 e.1.1
  valid : ∀ e ∈ s.2, Valid s.1 e.1
  ev : ∀ e ∈ s.2, EvR L N2 e.1.1 e.2
  inv : R.holds → R.Inv (poss s.2)
  keys : R.holds → ∀ e ∈ s.2, R.K e.1.1

/-- all computed intersection points of two lines -/
def points (L : List (Line2 α)) : List (V2 α) :=
  L.flatMap (fun l => L.filterMap (fun m => (l.intersectionPoint m).map Intersection.single))

theorem mem_points {l m : Line2 α} (hl : l ∈ L) (hm : m ∈ L) {i : Intersection α} (h : l.intersectionPoint m = some i) :
    i.single ∈ points L := by
  unfold points
  rw [List.mem_flatMap]
  exact ⟨l, hl, List.mem_filterMap.2 ⟨m, hm, by rw [h]; rfl⟩⟩

theorem points_length (L : List (Line2 α)) : (points L).length ≤ L.length * L.length := by
  unfold points
  rw [List.length_flatMap]
  have h : ∀ x ∈ (L.map (fun l => (L.filterMap (fun m => (l.intersectionPoint m).map Intersection.single)).length)), x ≤ L.length := by
    intro x hx
    obtain ⟨l, -, rfl⟩ := List.mem_map.1 hx
    exact List.length_filterMap_le _ _
  have := List.sum_le_card_nsmul _ _ h
  simpa using this

open Classical in
/-- how many computed points are after `p` -/
noncomputable def rank (L : List (Line2 α)) (Lt : V2 α → V2 α → Prop) (p : V2 α) : Nat := (points L).countP (fun q => decide (Lt p q))

theorem rank_le (p : V2 α) : rank L Lt p ≤ L.length * L.length :=
  (List.countP_le_length).trans (points_length L)

theorem rank_lt (tr : ∀ a b c, Lt a b → Lt b c → Lt a c) (irr : ∀ a, ¬ Lt a a) {p q : V2 α} (hpq : Lt p q) (hq : q ∈ points L) :
    rank L Lt q < rank L Lt p := by
  classical
  unfold rank
  obtain ⟨a, b, hab⟩ := List.append_of_mem hq
  rw [hab, List.countP_append, List.countP_append, List.countP_cons, List.countP_cons]
  have h1 : ∀ l : List (V2 α), l.countP (fun x => decide (Lt q x)) ≤ l.countP (fun x => decide (Lt p x)) := by
    intro l
    apply List.countP_mono_left
    intro x _ hx
    rw [decide_eq_true_eq] at hx ⊢
    exact tr _ _ _ hpq hx
  have h2 := h1 a
  have h3 := h1 b
  simp only [decide_eq_true_eq, irr q, hpq, if_true, if_false]
  omega

/-- the base of the measure -/
def base (L : List (Line2 α)) : Nat := 4 * (L.length * L.length) + 1

/-- the measure of the event queue -/
noncomputable def measure (L : List (Line2 α)) (Lt : V2 α → V2 α → Prop) (m : SiteMap α ι SiteEvent) : Nat :=
  (m.map (fun e => base L ^ rank L Lt e.1.1)).sum

theorem measure_append (a b : SiteMap α ι SiteEvent) : measure L Lt (a ++ b) = measure L Lt a + measure L Lt b := by
  unfold measure; rw [List.map_append, List.sum_append]

theorem measure_cons (a : (V2 α × ι) × SiteEvent) (b : SiteMap α ι SiteEvent) :
    measure L Lt (a :: b) = base L ^ rank L Lt a.1.1 + measure L Lt b := by
  unfold measure; rw [List.map_cons, List.sum_cons]

theorem interiorLines_sub {ops : SweepOps α ι σ} {T : σ → Prop} {Valid : σ → V2 α × ι → Prop} (ho : Ops ops L T Valid)
    {tab : σ} (ht : T tab) (pos : V2 α) : ∀ (is : List Nat), (∀ i ∈ is, ∃ l, L[i]? = some l) →
    ∃ new, interiorLines ops tab pos is = .ok new ∧ new.Sublist is := by
  intro is
  induction is with
  | nil => intro _; exact ⟨[], rfl, List.Sublist.refl _⟩
  | cons i is ih =>
    intro h
    obtain ⟨l, hl⟩ := h i List.mem_cons_self
    obtain ⟨new, h1, h2⟩ := ih (fun j hj => h j (List.mem_cons_of_mem _ hj))
    unfold interiorLines
    rw [ho.line tab ht i l hl, h1]
    simp only [bind, Except.bind]
    split
    · exact ⟨_, rfl, h2.cons _⟩
    · exact ⟨_, rfl, h2.cons_cons _⟩

theorem length_of_subset {a b : List Nat} (ha : a.Nodup) (h : ∀ i ∈ a, i ∈ b) : a.length ≤ b.length :=
  (ha.subperm h).length_le

/-- adding an intersection to an existing event -/
theorem addIntersection_some {ops : SweepOps α ι σ} {T : σ → Prop} {Valid : σ → V2 α × ι → Prop} (ho : Ops ops L T Valid)
    {tab : σ} (ht : T tab) {pos k : V2 α} {e : SiteEvent} (he : EvR L N2 k e) {a b : Nat}
    (hnear : ∀ i ∈ [a, b], ∃ l, L[i]? = some l ∧ N2 l k) :
    ∃ e', addIntersection ops tab pos [a, b] (some e) = .ok e' ∧ EvR L N2 k e' := by
  obtain ⟨new, h1, h2⟩ := interiorLines_sub ho ht pos [a, b] (fun i hi => (hnear i hi).imp fun l h => h.1)
  unfold addIntersection
  rw [h1]
  simp only [bind, Except.bind]
  by_cases hn : new.isEmpty = true
  · rw [if_pos hn]; exact ⟨e, rfl, he⟩
  · rw [if_neg hn]
    refine ⟨_, rfl, ?_⟩
    have hmem : ∀ i, i ∈ dedupAdj ((e.inter ++ new).insertionSort (· ≤ ·)) ↔ i ∈ e.inter ∨ i ∈ new := by
      intro i
      rw [Sweep.dedupAdj_mem, List.mem_insertionSort, List.mem_append]
    have hnd : (dedupAdj ((e.inter ++ new).insertionSort (· ≤ ·))).Nodup :=
      Sweep.dedupAdj_nodup _ (List.pairwise_insertionSort _ _)
    have hne : 1 ≤ (dedupAdj ((e.inter ++ new).insertionSort (· ≤ ·))).length := by
      obtain ⟨x, hx⟩ : ∃ x, x ∈ new := by
        cases new with
        | nil => exact absurd rfl hn
        | cons x _ => exact ⟨x, List.mem_cons_self⟩
      exact List.length_pos_of_mem ((hmem x).2 (Or.inr hx))
    have hle : e.inter.length ≤ (dedupAdj ((e.inter ++ new).insertionSort (· ≤ ·))).length :=
      length_of_subset he.interN (fun i hi => (hmem i).2 (Or.inl hi))
    have htwo : 2 ≤ e.drop.length + e.add.length + (dedupAdj ((e.inter ++ new).insertionSort (· ≤ ·))).length := by
      by_cases hi : e.inter = []
      · have := he.one
        rw [hi] at this
        simp only [List.length_nil] at this
        omega
      · have := he.two hi
        omega
    constructor
    · rintro i (h | h | h)
      · exact he.near i (Or.inl h)
      · exact he.near i (Or.inr (Or.inl h))
      · rcases (hmem i).1 h with h | h
        · exact he.near i (Or.inr (Or.inr h))
        · exact hnear i (h2.subset h)
    · exact he.addN
    · exact hnd
    · exact le_trans (by norm_num) htwo
    · exact fun _ => htwo

theorem evR_inter {k : V2 α} {a b : Nat} (hab : a ≠ b) (hnear : ∀ i ∈ [a, b], ∃ l, L[i]? = some l ∧ N2 l k) :
    EvR L N2 k { SiteEvent.empty with inter := [a, b] } := by
  constructor
  · rintro i (h | h | h)
    · exact absurd h (by simp [SiteEvent.empty])
    · exact absurd h (by simp [SiteEvent.empty])
    · exact hnear i h
  · simp [SiteEvent.empty]
  · simpa using hab
  · simp [SiteEvent.empty]
  · simp [SiteEvent.empty]

/-- an intersection point of two lines overflows -/
def Overflow (L : List (Line2 α)) : Prop :=
  ∃ l ∈ L, ∃ m ∈ L, ∃ i, l.intersectionPoint m = some i ∧ ¬ FiniteV2 i.single

/-- one pair of `find_new_events` -/
theorem findNewStep_raw [TreeShape α] {R : Rely α} {ops : SweepOps α ι σ} {T : σ → Prop} {Valid : σ → V2 α × ι → Prop} (ho : Ops ops L T Valid)
    (hl : Laws R L Lt N1 N2 N3 N4) {sweep : V2 α} (hs : FiniteV2 sweep) {s : σ × SiteMap α ι SiteEvent} (hI : EI R L N2 T Valid s)
    {pair : Nat × Nat} (h1 : ∃ l, L[pair.1]? = some l) (h2 : ∃ l, L[pair.2]? = some l) :
    (findNewStep ops sweep s pair = .error .invalid ∧ Overflow L) ∨
    ∃ s', findNewStep ops sweep s pair = .ok s' ∧ EI R L N2 T Valid s' ∧ (∀ k, Valid s.1 k → Valid s'.1 k) ∧
      measure L Lt s'.2 * base L ≤ measure L Lt s.2 * base L + base L ^ rank L Lt sweep := by
  obtain ⟨l, h1⟩ := h1
  obtain ⟨m, h2⟩ := h2
  have hlL := List.mem_of_getElem? h1
  have hmL := List.mem_of_getElem? h2
  have stay : ∃ s', Except.ok (ε := Err) s = .ok s' ∧ EI R L N2 T Valid s' ∧ (∀ k, Valid s.1 k → Valid s'.1 k) ∧
      measure L Lt s'.2 * base L ≤ measure L Lt s.2 * base L + base L ^ rank L Lt sweep :=
    ⟨s, rfl, hI, fun _ h => h, Nat.le_add_right _ _⟩
  unfold findNewStep
  rw [ho.line s.1 hI.tab _ _ h1, ho.line s.1 hI.tab _ _ h2]
  simp only [bind, Except.bind]
  by_cases hend : l.end.ulpsEq m.end = true
  · rw [if_pos hend]; exact Or.inr stay
  rw [if_neg hend]
  have hne : pair.1 ≠ pair.2 := by
    intro h
    rw [h, h2] at h1
    cases h1
    exact hend (hl.refl _ (hl.finite _ hlL).2)
  cases hi : l.intersectionPoint m with
  | none => exact Or.inr stay
  | some i =>
    simp only
    by_cases hf : FiniteV2 i.single
    · have hfb : (!Scalar.isFinite i.single.x || !Scalar.isFinite i.single.y) = false := by
        rw [hf.1, hf.2]; rfl
      rw [hfb, if_neg Bool.false_ne_true]
      by_cases ha : after sweep i.single = true
      · rw [if_pos (show (i.single.y >=. sweep.y && !(i.single.y ==. sweep.y && i.single.x <. sweep.x) && !i.single.ulpsEq sweep) = true from ha)]
        right
        obtain ⟨n1, n2⟩ := hl.meet l hlL m hmL i hi hf
        have hT := ho.fresh s.1 hI.tab i.single
        have hV := ho.validNew s.1 hI.tab i.single
        have hM := ho.validMono s.1 hI.tab i.single
        have hlt := hl.after sweep i.single hs hf ha
        have hrank := rank_lt hl.trans hl.irrefl hlt (mem_points hlL hmL hi)
        have near : ∀ k : V2 α, N2 l k → N2 m k → ∀ j ∈ [pair.1, pair.2], ∃ l, L[j]? = some l ∧ N2 l k := by
          intro k hk hk' j hj
          rcases List.mem_cons.1 hj with rfl | hj
          · exact ⟨l, h1, hk⟩
          · rw [List.mem_singleton] at hj; subst hj; exact ⟨m, h2, hk'⟩
        change ∃ s', (Except.bind (siteUpdate (i.single, (ops.fresh s.1 i.single).1)
          (addIntersection ops (ops.fresh s.1 i.single).2 i.single [pair.1, pair.2]) s.2)
          (fun ev => .ok ((ops.fresh s.1 i.single).2, ev))) = .ok s' ∧ _
        generalize ops.fresh s.1 i.single = fr at hT hV hM ⊢
        obtain ⟨pay, tab⟩ := fr
        simp only at hT hV hM ⊢
        rcases siteUpdate_cases hl.comparable (i.single, pay) hf (addIntersection ops tab i.single [pair.1, pair.2]) s.2 hI.fin with
          ⟨pre, e, post, e1, -, e3, e4⟩ | ⟨pre, post, e1, e2, e4⟩
        · have he : e ∈ s.2 := by rw [e1]; simp
          have hef := hI.fin e he
          obtain ⟨e', g1, g2⟩ := addIntersection_some (pos := i.single) ho hT (hI.ev e he)
            (near e.1.1 (hl.m12 _ _ _ hf hef e3 n1) (hl.m12 _ _ _ hf hef e3 n2))
          rw [e4, g1]
          have sub : ∀ x ∈ pre ++ (e.1, e') :: post, x = (e.1, e') ∨ x ∈ s.2 := by
            intro x hx
            rw [e1]
            simp only [List.mem_append, List.mem_cons] at hx ⊢
            tauto
          refine ⟨(tab, pre ++ (e.1, e') :: post), rfl, ⟨hT, ?_, ?_, ?_, ?_, ?_⟩, hM, ?_⟩
          · intro x hx
            rcases sub x hx with rfl | h
            · exact hef
            · exact hI.fin x h
          · intro x hx
            rcases sub x hx with rfl | h
            · exact hM _ (hI.valid e he)
            · exact hM _ (hI.valid x h)
          · intro x hx
            rcases sub x hx with rfl | h
            · exact g2
            · exact hI.ev x h
          · intro hR
            simp only
            rw [poss_swap, ← e1]
            exact hI.inv hR
          · intro hR x hx
            rcases sub x hx with rfl | h
            · exact hI.keys hR e he
            · exact hI.keys hR x h
          · simp only
            have : measure L Lt (pre ++ (e.1, e') :: post) = measure L Lt s.2 := by
              rw [e1, measure_append, measure_append, measure_cons, measure_cons]
            rw [this]
            exact Nat.le_add_right _ _
        · have g1 : addIntersection ops tab i.single [pair.1, pair.2] none =
              .ok { SiteEvent.empty with inter := [pair.1, pair.2] } := rfl
          rw [e4, g1]
          have sub : ∀ x ∈ pre ++ ((i.single, pay), ({ SiteEvent.empty with inter := [pair.1, pair.2] } : SiteEvent)) :: post,
              x = ((i.single, pay), ({ SiteEvent.empty with inter := [pair.1, pair.2] } : SiteEvent)) ∨ x ∈ s.2 := by
            intro x hx
            rw [e1]
            simp only [List.mem_append, List.mem_cons] at hx ⊢
            tauto
          refine ⟨(tab, pre ++ ((i.single, pay), { SiteEvent.empty with inter := [pair.1, pair.2] }) :: post), rfl,
            ⟨hT, ?_, ?_, ?_, ?_, ?_⟩, hM, ?_⟩
          · intro x hx
            rcases sub x hx with rfl | h
            · exact hf
            · exact hI.fin x h
          · intro x hx
            rcases sub x hx with rfl | h
            · exact hV
            · exact hM _ (hI.valid x h)
          · intro x hx
            rcases sub x hx with rfl | h
            · exact evR_inter hne (near _ (hl.n12 _ _ n1) (hl.n12 _ _ n2))
            · exact hI.ev x h
          · intro hR
            simp only
            rw [poss_append, poss_cons]
            exact R.insert hR (i.single, pay) pre post (hl.keyMeet hR l hlL m hmL i hi hf)
              (by rw [← e1]; exact hI.inv hR) (by rw [← e1]; exact e2)
          · intro hR x hx
            rcases sub x hx with rfl | h
            · exact hl.keyMeet hR l hlL m hmL i hi hf
            · exact hI.keys hR x h
          · simp only
            rw [e1, measure_append, measure_append, measure_cons]
            simp only
            have hb : 1 ≤ base L := by unfold base; omega
            have hp : base L ^ rank L Lt i.single * base L ≤ base L ^ rank L Lt sweep := by
              rw [← Nat.pow_succ]
              exact Nat.pow_le_pow_right hb hrank
            calc (measure L Lt pre + (base L ^ rank L Lt i.single + measure L Lt post)) * base L
                = (measure L Lt pre + measure L Lt post) * base L + base L ^ rank L Lt i.single * base L := by ring
              _ ≤ _ := Nat.add_le_add_left hp _
      · rw [if_neg (show ¬ (i.single.y >=. sweep.y && !(i.single.y ==. sweep.y && i.single.x <. sweep.x) && !i.single.ulpsEq sweep) = true from ha)]
        exact Or.inr stay
    · have hfb : (!Scalar.isFinite i.single.x || !Scalar.isFinite i.single.y) = true := by
        unfold FiniteV2 at hf
        rw [not_and_or] at hf
        rw [Bool.or_eq_true, Bool.not_eq_true', Bool.not_eq_true']
        rcases hf with h | h
        · exact Or.inl (Bool.eq_false_iff.2 h)
        · exact Or.inr (Bool.eq_false_iff.2 h)
      rw [hfb, if_pos rfl]
      exact Or.inl ⟨rfl, l, hlL, m, hmL, i, hi, hf⟩

/-- all pairs -/
theorem findNewFold_raw [TreeShape α] {R : Rely α} {ops : SweepOps α ι σ} {T : σ → Prop} {Valid : σ → V2 α × ι → Prop} (ho : Ops ops L T Valid)
    (hl : Laws R L Lt N1 N2 N3 N4) {sweep : V2 α} (hs : FiniteV2 sweep) : ∀ (P : List (Nat × Nat)) (s : σ × SiteMap α ι SiteEvent),
    EI R L N2 T Valid s → (∀ p ∈ P, (∃ l, L[p.1]? = some l) ∧ ∃ l, L[p.2]? = some l) →
    (P.foldlM (findNewStep ops sweep) s = .error .invalid ∧ Overflow L) ∨
    ∃ s', P.foldlM (findNewStep ops sweep) s = .ok s' ∧ EI R L N2 T Valid s' ∧ (∀ k, Valid s.1 k → Valid s'.1 k) ∧
      measure L Lt s'.2 * base L ≤ measure L Lt s.2 * base L + P.length * base L ^ rank L Lt sweep := by
  intro P
  induction P with
  | nil => intro s hI _; exact Or.inr ⟨s, rfl, hI, fun _ h => h, Nat.le_add_right _ _⟩
  | cons p P ih =>
    intro s hI hP
    rw [List.foldlM_cons]
    obtain ⟨h1, h2⟩ := hP p List.mem_cons_self
    rcases findNewStep_raw ho hl hs hI h1 h2 with ⟨e, he⟩ | ⟨s1, e, hI1, hv1, hm1⟩
    · rw [e]; exact Or.inl ⟨rfl, he⟩
    · rw [e]
      rcases ih s1 hI1 (fun q hq => hP q (List.mem_cons_of_mem _ hq)) with h | ⟨s2, e2, hI2, hv2, hm2⟩
      · exact Or.inl h
      · refine Or.inr ⟨s2, e2, hI2, fun k hk => hv2 k (hv1 k hk), ?_⟩
        rw [List.length_cons, Nat.add_mul, Nat.one_mul]
        omega

theorem findNewEvents_raw [TreeShape α] {R : Rely α} {ops : SweepOps α ι σ} {T : σ → Prop} {Valid : σ → V2 α × ι → Prop} (ho : Ops ops L T Valid)
    (hl : Laws R L Lt N1 N2 N3 N4) {sweep : V2 α} (hs : FiniteV2 sweep) {s : σ × SiteMap α ι SiteEvent} (hI : EI R L N2 T Valid s)
    {a b : List Nat} (ha : ∀ i ∈ a, ∃ l, L[i]? = some l) (hb : ∀ i ∈ b, ∃ l, L[i]? = some l) :
    (findNewEvents ops sweep a b s = .error .invalid ∧ Overflow L) ∨
    ∃ s', findNewEvents ops sweep a b s = .ok s' ∧ EI R L N2 T Valid s' ∧ (∀ k, Valid s.1 k → Valid s'.1 k) ∧
      measure L Lt s'.2 * base L ≤ measure L Lt s.2 * base L + (a.length * b.length) * base L ^ rank L Lt sweep := by
  unfold findNewEvents
  have hlen : (a.flatMap (fun l => b.map (fun r => (l, r)))).length = a.length * b.length := by
    rw [List.length_flatMap]
    simp
  rw [← hlen]
  apply findNewFold_raw ho hl hs _ s hI
  intro p hp
  obtain ⟨x, hx, hp⟩ := List.mem_flatMap.1 hp
  obtain ⟨y, hy, rfl⟩ := List.mem_map.1 hp
  exact ⟨ha x hx, hb y hy⟩

/-! ## the candidates -/

theorem updateLeft_sub (m : MinMaxSlope α) (c : Bool) (x : α) (i : Nat) :
    (m.updateLeft c x i).candLeft.Sublist (m.candLeft ++ [i]) ∧ (m.updateLeft c x i).candRight = m.candRight := by
  unfold MinMaxSlope.updateLeft
  have s1 : ([i] : List Nat).Sublist (m.candLeft ++ [i]) := List.sublist_append_right _ _
  have s2 : m.candLeft.Sublist (m.candLeft ++ [i]) := List.sublist_append_left _ _
  cases c with
  | true => exact ⟨s1, rfl⟩
  | false =>
    simp only [Bool.false_eq_true, if_false]
    split
    · split
      · exact ⟨List.Sublist.refl _, rfl⟩
      · split
        · exact ⟨s1, rfl⟩
        · exact ⟨s2, rfl⟩
    · exact ⟨List.Sublist.refl _, rfl⟩

theorem updateRight_sub (m : MinMaxSlope α) (c : Bool) (x : α) (i : Nat) :
    (m.updateRight c x i).candRight.Sublist (m.candRight ++ [i]) ∧ (m.updateRight c x i).candLeft = m.candLeft := by
  unfold MinMaxSlope.updateRight
  have s1 : ([i] : List Nat).Sublist (m.candRight ++ [i]) := List.sublist_append_right _ _
  have s2 : m.candRight.Sublist (m.candRight ++ [i]) := List.sublist_append_left _ _
  cases c with
  | true => exact ⟨s1, rfl⟩
  | false =>
    simp only [Bool.false_eq_true, if_false]
    split
    · split
      · exact ⟨List.Sublist.refl _, rfl⟩
      · split
        · exact ⟨s1, rfl⟩
        · exact ⟨s2, rfl⟩
    · exact ⟨List.Sublist.refl _, rfl⟩

theorem updateBoth_sub (m : MinMaxSlope α) (l : Line2 α) (i : Nat) :
    (m.updateBoth l i).candLeft.Sublist (m.candLeft ++ [i]) ∧ (m.updateBoth l i).candRight.Sublist (m.candRight ++ [i]) := by
  unfold MinMaxSlope.updateBoth
  simp only
  obtain ⟨a1, a2⟩ := updateLeft_sub m false (if Scalar.ulpsEq l.end.y l.start.y then Scalar.inf
    else (l.end.x -. l.start.x) /. (l.end.y -. l.start.y)) i
  obtain ⟨b1, b2⟩ := updateRight_sub (m.updateLeft false (if Scalar.ulpsEq l.end.y l.start.y then Scalar.inf
    else (l.end.x -. l.start.x) /. (l.end.y -. l.start.y)) i) false (if Scalar.ulpsEq l.end.y l.start.y then Scalar.inf
    else (l.end.x -. l.start.x) /. (l.end.y -. l.start.y)) i
  rw [a2] at b1
  rw [b2]
  exact ⟨a1, b1⟩

theorem update_sub (m : MinMax α) (p x sl : α) (i : Nat) :
    (m.update p x sl i).slope.candLeft.Sublist (m.slope.candLeft ++ [i]) ∧
    (m.update p x sl i).slope.candRight.Sublist (m.slope.candRight ++ [i]) := by
  have s1 : m.slope.candLeft.Sublist (m.slope.candLeft ++ [i]) := List.sublist_append_left _ _
  have s2 : m.slope.candRight.Sublist (m.slope.candRight ++ [i]) := List.sublist_append_left _ _
  have hL : ∀ c, (m.slope.updateLeft c sl i).candLeft.Sublist (m.slope.candLeft ++ [i]) ∧
      (m.slope.updateLeft c sl i).candRight.Sublist (m.slope.candRight ++ [i]) := fun c =>
    ⟨(updateLeft_sub _ c sl i).1, by rw [(updateLeft_sub _ c sl i).2]; exact s2⟩
  have hR : ∀ c, (m.slope.updateRight c sl i).candLeft.Sublist (m.slope.candLeft ++ [i]) ∧
      (m.slope.updateRight c sl i).candRight.Sublist (m.slope.candRight ++ [i]) := fun c =>
    ⟨by rw [(updateRight_sub _ c sl i).2]; exact s1, (updateRight_sub _ c sl i).1⟩
  unfold MinMax.update
  split
  · split
    · split
      · exact hL false
      · split
        · exact hL true
        · exact ⟨s1, s2⟩
    · exact hL false
  · split
    · split
      · split
        · exact hR false
        · split
          · exact hR true
          · exact ⟨s1, s2⟩
      · exact hR false
    · exact ⟨s1, s2⟩

theorem neighbours_raw {ops : SweepOps α ι σ} {T : σ → Prop} {Valid : σ → V2 α × ι → Prop} (ho : Ops ops L T Valid)
    {tab : σ} (ht : T tab) (sweep : V2 α) (e : SiteEvent) : ∀ (is : List Nat) (m : MinMax α), (∀ i ∈ is, ∃ l, L[i]? = some l) →
    ∃ m', is.foldlM (neighbourStep ops tab sweep e) m = .ok m' ∧ m'.slope.candLeft.Sublist (m.slope.candLeft ++ is) ∧
      m'.slope.candRight.Sublist (m.slope.candRight ++ is) := by
  intro is
  induction is with
  | nil => intro m _; exact ⟨m, rfl, by simp, by simp⟩
  | cons i is ih =>
    intro m h
    obtain ⟨l, hl⟩ := h i List.mem_cons_self
    have hstep : ∃ m1, neighbourStep ops tab sweep e m i = .ok m1 ∧ m1.slope.candLeft.Sublist (m.slope.candLeft ++ [i]) ∧
        m1.slope.candRight.Sublist (m.slope.candRight ++ [i]) := by
      unfold neighbourStep
      split
      · exact ⟨m, rfl, List.sublist_append_left _ _, List.sublist_append_left _ _⟩
      · rw [ho.line tab ht i l hl]
        simp only [bind, Except.bind]
        split
        · exact ⟨m, rfl, List.sublist_append_left _ _, List.sublist_append_left _ _⟩
        · exact ⟨_, rfl, update_sub _ _ _ _ _⟩
    obtain ⟨m1, e1, l1, r1⟩ := hstep
    obtain ⟨m2, e2, l2, r2⟩ := ih m1 (fun j hj => h j (List.mem_cons_of_mem _ hj))
    rw [List.foldlM_cons, e1]
    refine ⟨m2, e2, l2.trans ?_, r2.trans ?_⟩
    · have := l1.append (List.Sublist.refl is)
      rwa [List.append_assoc, List.singleton_append] at this
    · have := r1.append (List.Sublist.refl is)
      rwa [List.append_assoc, List.singleton_append] at this

theorem connected_raw {ops : SweepOps α ι σ} {T : σ → Prop} {Valid : σ → V2 α × ι → Prop} (ho : Ops ops L T Valid)
    {tab : σ} (ht : T tab) : ∀ (is : List Nat) (m : MinMaxSlope α), (∀ i ∈ is, ∃ l, L[i]? = some l) →
    ∃ m', is.foldlM (connectedStep ops tab) m = .ok m' ∧ m'.candLeft.Sublist (m.candLeft ++ is) ∧
      m'.candRight.Sublist (m.candRight ++ is) := by
  intro is
  induction is with
  | nil => intro m _; exact ⟨m, rfl, by simp, by simp⟩
  | cons i is ih =>
    intro m h
    obtain ⟨l, hl⟩ := h i List.mem_cons_self
    have e1 : connectedStep ops tab m i = .ok (m.updateBoth l i) := by
      unfold connectedStep
      rw [ho.line tab ht i l hl]
      rfl
    obtain ⟨l1, r1⟩ := updateBoth_sub m l i
    obtain ⟨m2, e2, l2, r2⟩ := ih (m.updateBoth l i) (fun j hj => h j (List.mem_cons_of_mem _ hj))
    rw [List.foldlM_cons, e1]
    refine ⟨m2, e2, l2.trans ?_, r2.trans ?_⟩
    · have := l1.append (List.Sublist.refl is)
      rwa [List.append_assoc, List.singleton_append] at this
    · have := r1.append (List.Sublist.refl is)
      rwa [List.append_assoc, List.singleton_append] at this

theorem len_le {a : List Nat} (hn : a.Nodup) (h : ∀ i ∈ a, ∃ l, L[i]? = some l) : a.length ≤ L.length := by
  have := length_of_subset (b := List.range L.length) hn (fun i hi => by
    obtain ⟨l, hl⟩ := h i hi
    exact List.mem_range.2 (List.getElem?_eq_some_iff.1 hl).1)
  simpa using this

/-- the new events of an event -/
theorem newEvents_raw [TreeShape α] {R : Rely α} {ops : SweepOps α ι σ} {T : σ → Prop} {Valid : σ → V2 α × ι → Prop} (ho : Ops ops L T Valid)
    (hl : Laws R L Lt N1 N2 N3 N4) {sweep : V2 α} (hs : FiniteV2 sweep) {s : σ × SiteMap α ι SiteEvent} (hI : EI R L N2 T Valid s)
    {e : SiteEvent} (he : EvR L N3 sweep e) {m : MinMax α}
    (hcl : ∀ i ∈ m.slope.candLeft, ∃ l, L[i]? = some l) (hcr : ∀ i ∈ m.slope.candRight, ∃ l, L[i]? = some l)
    (hnl : m.slope.candLeft.length ≤ L.length) (hnr : m.slope.candRight.length ≤ L.length) :
    (newEvents ops sweep e m s = .error .invalid ∧ Overflow L) ∨
    ∃ s', newEvents ops sweep e m s = .ok s' ∧ EI R L N2 T Valid s' ∧ (∀ k, Valid s.1 k → Valid s'.1 k) ∧
      measure L Lt s'.2 * base L ≤ measure L Lt s.2 * base L + (4 * (L.length * L.length)) * base L ^ rank L Lt sweep := by
  have hpos : 0 < base L ^ rank L Lt sweep := Nat.pow_pos (by unfold base; omega)
  have weak : ∀ {s' : σ × SiteMap α ι SiteEvent} {k : Nat}, k ≤ 4 * (L.length * L.length) →
      measure L Lt s'.2 * base L ≤ measure L Lt s.2 * base L + k * base L ^ rank L Lt sweep →
      measure L Lt s'.2 * base L ≤ measure L Lt s.2 * base L + (4 * (L.length * L.length)) * base L ^ rank L Lt sweep := by
    intro s' k hk h
    exact h.trans (Nat.add_le_add_left (Nat.mul_le_mul_right _ hk) _)
  unfold newEvents
  by_cases h0 : e.inter.length + e.add.length = 0
  · rw [if_pos h0]
    split
    · rcases findNewEvents_raw ho hl hs hI hcl hcr with h | ⟨s', h1, h2, h3, h4⟩
      · exact Or.inl h
      · refine Or.inr ⟨s', h1, h2, h3, weak ?_ h4⟩
        have := Nat.mul_le_mul hnl hnr
        omega
    · exact Or.inr ⟨s, rfl, hI, fun _ h => h, Nat.le_add_right _ _⟩
  · rw [if_neg h0]
    have hmem : ∀ i ∈ e.add ++ e.inter, ∃ l, L[i]? = some l := by
      intro i hi
      obtain ⟨l, h, -⟩ := he.near i (Or.inr (List.mem_append.1 hi))
      exact ⟨l, h⟩
    have hlen : (e.add ++ e.inter).length ≤ 2 * L.length := by
      rw [List.length_append]
      have h1 := len_le he.addN (fun i hi => hmem i (List.mem_append.2 (Or.inl hi)))
      have h2 := len_le he.interN (fun i hi => hmem i (List.mem_append.2 (Or.inr hi)))
      omega
    obtain ⟨c, e1, l1, r1⟩ := connected_raw ho hI.tab (e.add ++ e.inter) MinMaxSlope.new hmem
    have cl : ∀ i ∈ c.candLeft, ∃ l, L[i]? = some l := fun i hi => hmem i (by simpa [MinMaxSlope.new] using l1.subset hi)
    have cr : ∀ i ∈ c.candRight, ∃ l, L[i]? = some l := fun i hi => hmem i (by simpa [MinMaxSlope.new] using r1.subset hi)
    have ll : c.candLeft.length ≤ 2 * L.length := by
      have := l1.length_le
      simp only [MinMaxSlope.new, List.nil_append] at this
      omega
    have lr : c.candRight.length ≤ 2 * L.length := by
      have := r1.length_le
      simp only [MinMaxSlope.new, List.nil_append] at this
      omega
    rw [e1]
    simp only [bind, Except.bind]
    have tail : ∀ s1, EI R L N2 T Valid s1 → (∀ k, Valid s.1 k → Valid s1.1 k) →
        measure L Lt s1.2 * base L ≤ measure L Lt s.2 * base L + (2 * (L.length * L.length)) * base L ^ rank L Lt sweep →
        ((if (!m.slope.candRight.isEmpty) = true then findNewEvents ops sweep m.slope.candRight c.candRight s1 else Except.ok s1) = .error .invalid ∧ Overflow L) ∨
        ∃ s', (if (!m.slope.candRight.isEmpty) = true then findNewEvents ops sweep m.slope.candRight c.candRight s1 else Except.ok s1) = .ok s' ∧
          EI R L N2 T Valid s' ∧ (∀ k, Valid s.1 k → Valid s'.1 k) ∧
          measure L Lt s'.2 * base L ≤ measure L Lt s.2 * base L + (4 * (L.length * L.length)) * base L ^ rank L Lt sweep := by
      intro s1 h2 h3 h4
      split
      · rcases findNewEvents_raw ho hl hs h2 hcr cr with h | ⟨s', g1, g2, g3, g4⟩
        · exact Or.inl h
        · refine Or.inr ⟨s', g1, g2, fun k hk => g3 k (h3 k hk), ?_⟩
          have h5 : m.slope.candRight.length * c.candRight.length ≤ 2 * (L.length * L.length) := by
            have := Nat.mul_le_mul hnr lr
            calc _ ≤ _ := this
              _ = _ := by ring
          have h6 := Nat.mul_le_mul_right (base L ^ rank L Lt sweep) h5
          have e5 : (4 * (L.length * L.length)) * base L ^ rank L Lt sweep =
            (2 * (L.length * L.length)) * base L ^ rank L Lt sweep + (2 * (L.length * L.length)) * base L ^ rank L Lt sweep := by ring
          omega
      · refine Or.inr ⟨s1, rfl, h2, h3, ?_⟩
        exact h4.trans (Nat.add_le_add_left (Nat.mul_le_mul_right _ (by omega)) _)
    by_cases hc : (!m.slope.candLeft.isEmpty) = true
    · rw [if_pos hc]
      rcases findNewEvents_raw ho hl hs hI hcl cl with ⟨h, ho'⟩ | ⟨s', h1, h2, h3, h4⟩
      · rw [h]; exact Or.inl ⟨rfl, ho'⟩
      · rw [h1]
        refine tail s' h2 h3 (h4.trans (Nat.add_le_add_left (Nat.mul_le_mul_right _ ?_) _))
        have := Nat.mul_le_mul hnl ll
        calc _ ≤ _ := this
          _ = _ := by ring
    · rw [if_neg hc]
      exact tail s hI (fun _ h => h) (Nat.le_add_right _ _)

/-! ## the results -/

/-- the results so far; under the condition `P` each has at least two lines -/
structure RI [TreeShape α] (R : Rely α) (P : Prop) (L : List (Line2 α)) (N4 : Line2 α → V2 α → Prop) (Valid : σ → V2 α × ι → Prop) (tab : σ)
    (r : SiteMap α ι (List Nat)) : Prop where
  fin : ∀ x ∈ r, FiniteV2 x.1.1
  valid : ∀ x ∈ r, Valid tab x.1
  near : ∀ x ∈ r, ∀ i ∈ x.2, ∃ l, L[i]? = some l ∧ N4 l x.1.1
  two : P → ∀ x ∈ r, 2 ≤ x.2.length
  sorted : ∀ x ∈ r, x.2.Pairwise (· ≤ ·)
  inv : R.holds → R.Inv (poss r)

theorem sort_perm {a b : List Nat} (h : a.Perm b) : a.insertionSort (· ≤ ·) = b.insertionSort (· ≤ ·) :=
  List.Perm.eq_of_pairwise (fun _ _ _ _ h1 h2 => Nat.le_antisymm h1 h2) (List.pairwise_insertionSort _ _) (List.pairwise_insertionSort _ _)
    (((List.perm_insertionSort _ _).trans h).trans (List.perm_insertionSort _ _).symm)

/-- a key that is found -/
theorem reportLines_found [TreeShape α] {ops : SweepOps α ι σ} {tab : σ} {key : V2 α × ι} (hk : ops.keyPos tab key = .ok key.1)
    {pre post : SiteMap α ι (List Nat)} {x : (V2 α × ι) × List Nat}
    (he : Sweep.Finds key (pre ++ x :: post) pre.length true) (a : List Nat) :
    reportLines ops tab key (pre ++ x :: post) a = .ok (pre ++ (x.1, (x.2 ++ a).insertionSort (· ≤ ·)) :: post) := by
  unfold reportLines
  rw [hk]
  simp only [bind, Except.bind]
  rw [Sweep.update_found (k := (key.1, key.2)) he]
  simp only [Option.getD_some, Except.map]
  rw [Sweep.update_found (k := (key.1, key.2)) he]
  rfl

/-- a key that is inserted and then found -/
theorem reportLines_new [TreeShape α] {ops : SweepOps α ι σ} {tab : σ} {key : V2 α × ι} (hk : ops.keyPos tab key = .ok key.1)
    {pre post : SiteMap α ι (List Nat)} (he : Sweep.Finds key (pre ++ post) pre.length false)
    (he' : Sweep.Finds key (pre ++ (key, []) :: post) pre.length true) (a : List Nat) :
    reportLines ops tab key (pre ++ post) a = .ok (pre ++ (key, a.insertionSort (· ≤ ·)) :: post) := by
  unfold reportLines
  rw [hk]
  simp only [bind, Except.bind]
  rw [Sweep.update_missing (k := (key.1, key.2)) he]
  simp only [Option.getD_none, Except.map]
  rw [Sweep.update_found (k := (key.1, key.2)) he']
  rfl

theorem reportFold_slot [TreeShape α] {ops : SweepOps α ι σ} {tab : σ} {key : V2 α × ι} (hk : ops.keyPos tab key = .ok key.1)
    {pre post : SiteMap α ι (List Nat)} {k' : V2 α × ι}
    (he : ∀ v, Sweep.Finds key (pre ++ (k', v) :: post) pre.length true) : ∀ (ls : List (List Nat)) (v : List Nat),
    ls.foldlM (reportLines ops tab key) (pre ++ (k', v.insertionSort (· ≤ ·)) :: post) =
      .ok (pre ++ (k', (v ++ ls.flatten).insertionSort (· ≤ ·)) :: post) := by
  intro ls
  induction ls with
  | nil => intro v; rw [List.flatten_nil, List.append_nil]; rfl
  | cons a ls ih =>
    intro v
    rw [List.foldlM_cons, reportLines_found hk (he _)]
    simp only
    rw [sort_perm ((List.perm_insertionSort _ v).append_right a)]
    show ls.foldlM (reportLines ops tab key) _ = _
    rw [ih, List.flatten_cons, List.append_assoc]

/-- what has just been inserted is found, if the trees can be relied on, or if there is nothing else -/
theorem stable_of [TreeShape α] {R : Rely α} {r pre post : SiteMap α ι (List Nat)} {key : V2 α × ι} (hr : siteCmp key.1 key.1 = some .eq)
    (hst : R.holds ∧ R.K key.1 ∧ R.Inv (poss r) ∨ r = []) (h1 : r = pre ++ post) (h2 : Sweep.Finds key r pre.length false) (v : List Nat) :
    Sweep.Finds key (pre ++ (key, v) :: post) pre.length true := by
  rcases hst with ⟨q1, q2, q3⟩ | hst
  · exact R.stable q1 key v pre post hr q2 (by rw [← h1]; exact q3) (by rw [← h1]; exact h2)
  · rw [hst] at h1
    obtain ⟨rfl, rfl⟩ := List.append_eq_nil_iff.1 h1.symm
    exact finds_single v hr

/-- all lines of an event get into the same entry -/
theorem reportFold_raw [TreeShape α] {R : Rely α} (hc : FiniteComparable α) {ops : SweepOps α ι σ} {tab : σ} {key : V2 α × ι} (hk : ops.keyPos tab key = .ok key.1)
    (hf : FiniteV2 key.1) (hr : siteCmp key.1 key.1 = some .eq) {r : SiteMap α ι (List Nat)} (hfin : ∀ x ∈ r, FiniteV2 x.1.1)
    (hst : R.holds ∧ R.K key.1 ∧ R.Inv (poss r) ∨ r = []) {ls : List (List Nat)} (hls : ls ≠ []) :
    (∃ pre x post, r = pre ++ x :: post ∧ siteCmp key.1 x.1.1 = some .eq ∧
      ls.foldlM (reportLines ops tab key) r = .ok (pre ++ (x.1, (x.2 ++ ls.flatten).insertionSort (· ≤ ·)) :: post)) ∨
    (∃ pre post, r = pre ++ post ∧ Sweep.Finds key (pre ++ post) pre.length false ∧
      ls.foldlM (reportLines ops tab key) r = .ok (pre ++ (key, ls.flatten.insertionSort (· ≤ ·)) :: post)) := by
  obtain ⟨a, ls, rfl⟩ : ∃ a l, ls = a :: l := by
    cases ls with
    | nil => exact absurd rfl hls
    | cons a l => exact ⟨a, l, rfl⟩
  rcases siteUpdate_cases hc (key.1, key.2) hf (fun v => .ok v.toList.flatten) r hfin with
    ⟨pre, x, post, h1, h2, h3, -⟩ | ⟨pre, post, h1, h2, -⟩
  · refine Or.inl ⟨pre, x, post, h1, h3, ?_⟩
    rw [List.foldlM_cons, h1, reportLines_found hk (by rw [← h1]; exact h2)]
    show ls.foldlM (reportLines ops tab key) _ = _
    rw [reportFold_slot hk (fun v => finds_congr (by rw [h1]; simp) h2), List.flatten_cons, List.append_assoc]
  · refine Or.inr ⟨pre, post, h1, by rw [← h1]; exact h2, ?_⟩
    have hs := fun v => stable_of hr hst h1 h2 v
    rw [List.foldlM_cons, h1, reportLines_new hk (by rw [← h1]; exact h2) (hs [])]
    show ls.foldlM (reportLines ops tab key) _ = _
    rw [reportFold_slot hk hs, List.flatten_cons]

theorem siteCmp_refl {p : V2 α} (h : p.ulpsEq p = true) : siteCmp p p = some .eq := by
  have h : (Scalar.ulpsEq p.x p.x && Scalar.ulpsEq p.y p.y) = true := h
  rw [Bool.and_eq_true] at h
  unfold siteCmp
  rw [if_pos h.2, if_pos h.1]

theorem filter_flat (a b c : List Nat) : (([a, b, c].filter (fun l => !l.isEmpty)).flatten) = a ++ (b ++ c) := by
  cases a <;> cases b <;> cases c <;> simp

/-- adding lines to an entry of the result -/
theorem RI.extend [TreeShape α] {R : Rely α} (hl : Laws R L Lt N1 N2 N3 N4) {Valid : σ → V2 α × ι → Prop} {tab : σ}
    {key : V2 α × ι} (hf : FiniteV2 key.1) {a : List Nat} (near : ∀ i ∈ a, ∃ l, L[i]? = some l ∧ N3 l key.1)
    {pre post : SiteMap α ι (List Nat)} {x : (V2 α × ι) × List Nat} (hr : RI R False L N4 Valid tab (pre ++ x :: post))
    (hx : siteCmp key.1 x.1.1 = some .eq) :
    RI R False L N4 Valid tab (pre ++ (x.1, (x.2 ++ a).insertionSort (· ≤ ·)) :: post) := by
  have hxm : x ∈ pre ++ x :: post := by simp
  have sub : ∀ y ∈ pre ++ (x.1, (x.2 ++ a).insertionSort (· ≤ ·)) :: post,
      y = (x.1, (x.2 ++ a).insertionSort (· ≤ ·)) ∨ y ∈ pre ++ x :: post := by
    intro y hy
    simp only [List.mem_append, List.mem_cons] at hy ⊢
    tauto
  refine ⟨?_, ?_, ?_, fun h => h.elim, ?_, ?_⟩
  · intro y hy
    rcases sub y hy with rfl | h
    · exact hr.fin x hxm
    · exact hr.fin y h
  · intro y hy
    rcases sub y hy with rfl | h
    · exact hr.valid x hxm
    · exact hr.valid y h
  · intro y hy
    rcases sub y hy with rfl | h
    · intro i hi
      simp only [List.mem_insertionSort] at hi
      rcases List.mem_append.1 hi with hi | hi
      · exact hr.near x hxm i hi
      · obtain ⟨l, g1, g2⟩ := near i hi
        exact ⟨l, g1, hl.m34 _ _ _ hf (hr.fin x hxm) hx g2⟩
    · exact hr.near y h
  · intro y hy
    rcases sub y hy with rfl | h
    · exact List.pairwise_insertionSort _ _
    · exact hr.sorted y h
  · intro hR
    rw [poss_swap]
    exact hr.inv hR

/-- a new entry without lines -/
theorem RI.blank [TreeShape α] {R : Rely α} {Valid : σ → V2 α × ι → Prop} {tab : σ}
    {key : V2 α × ι} (hv : Valid tab key) (hf : FiniteV2 key.1) (hK : R.holds → R.K key.1)
    {pre post : SiteMap α ι (List Nat)} (hr : RI R False L N4 Valid tab (pre ++ post))
    (he : Sweep.Finds key (pre ++ post) pre.length false) :
    RI R False L N4 Valid tab (pre ++ (key, []) :: post) := by
  have sub : ∀ y ∈ pre ++ (key, []) :: post, y = (key, []) ∨ y ∈ pre ++ post := by
    intro y hy
    simp only [List.mem_append, List.mem_cons] at hy ⊢
    tauto
  refine ⟨?_, ?_, ?_, fun h => h.elim, ?_, ?_⟩
  · intro y hy
    rcases sub y hy with rfl | h
    · exact hf
    · exact hr.fin y h
  · intro y hy
    rcases sub y hy with rfl | h
    · exact hv
    · exact hr.valid y h
  · intro y hy
    rcases sub y hy with rfl | h
    · intro i hi; cases hi
    · exact hr.near y h
  · intro y hy
    rcases sub y hy with rfl | h
    · exact List.Pairwise.nil
    · exact hr.sorted y h
  · intro hR
    rw [poss_append, poss_cons]
    exact R.insert hR key pre post (hK hR) (hr.inv hR) he

/-- one call of `report_intersections_to_result` -/
theorem reportLines_raw [TreeShape α] {R : Rely α} {ops : SweepOps α ι σ} {T : σ → Prop} {Valid : σ → V2 α × ι → Prop} (ho : Ops ops L T Valid)
    (hl : Laws R L Lt N1 N2 N3 N4) {tab : σ} (ht : T tab) {key : V2 α × ι} (hv : Valid tab key) (hf : FiniteV2 key.1)
    (hK : R.holds → R.K key.1) {a : List Nat} (near : ∀ i ∈ a, ∃ l, L[i]? = some l ∧ N3 l key.1)
    {r : SiteMap α ι (List Nat)} (hr : RI R False L N4 Valid tab r) :
    (¬ R.holds ∧ reportLines ops tab key r a = .error .panic) ∨
    ∃ r', reportLines ops tab key r a = .ok r' ∧ RI R False L N4 Valid tab r' := by
  have hk := ho.keyPos tab ht key hv
  rcases siteUpdate_cases hl.comparable (key.1, key.2) hf (fun v => .ok v.toList.flatten) r hr.fin with
    ⟨pre, x, post, h1, h2, h3, -⟩ | ⟨pre, post, h1, h2, -⟩
  · right
    subst h1
    exact ⟨_, reportLines_found hk h2 a, hr.extend hl hf near h3⟩
  · subst h1
    have hb := RI.blank hv hf hK hr h2
    -- the second search
    rcases siteUpdate_cases hl.comparable (key.1, key.2) hf (pushLines a) _ hb.fin with
      ⟨pre', x, post', g1, g2, g3, g4⟩ | ⟨pre', post', g1, g2, g4⟩
    · right
      refine ⟨pre' ++ (x.1, (x.2 ++ a).insertionSort (· ≤ ·)) :: post', ?_, ?_⟩
      · unfold reportLines
        rw [hk]
        simp only [bind, Except.bind]
        rw [Sweep.update_missing (k := (key.1, key.2)) h2]
        simp only [Option.getD_none, Except.map]
        rw [g4]
        rfl
      · rw [g1] at hb
        exact hb.extend hl hf near g3
    · left
      refine ⟨fun hR => ?_, ?_⟩
      · have := R.stable hR key ([] : List Nat) pre post (siteCmp_refl (hl.refl _ hf)) (hK hR) (hr.inv hR) h2
        unfold Sweep.Finds at this g2
        rw [this] at g2
        have := congrArg Prod.snd (Except.ok.inj g2)
        cases this
      · unfold reportLines
        rw [hk]
        simp only [bind, Except.bind]
        rw [Sweep.update_missing (k := (key.1, key.2)) h2]
        simp only [Option.getD_none, Except.map]
        rw [g4]
        rfl

theorem reportFold_any [TreeShape α] {R : Rely α} {ops : SweepOps α ι σ} {T : σ → Prop} {Valid : σ → V2 α × ι → Prop} (ho : Ops ops L T Valid)
    (hl : Laws R L Lt N1 N2 N3 N4) {tab : σ} (ht : T tab) {key : V2 α × ι} (hv : Valid tab key) (hf : FiniteV2 key.1)
    (hK : R.holds → R.K key.1) :
    ∀ (ls : List (List Nat)), (∀ a ∈ ls, ∀ i ∈ a, ∃ l, L[i]? = some l ∧ N3 l key.1) →
    ∀ {r : SiteMap α ι (List Nat)}, RI R False L N4 Valid tab r →
    (¬ R.holds ∧ ls.foldlM (reportLines ops tab key) r = .error .panic) ∨
    ∃ r', ls.foldlM (reportLines ops tab key) r = .ok r' ∧ RI R False L N4 Valid tab r' := by
  intro ls
  induction ls with
  | nil => intro _ r hr; exact Or.inr ⟨r, rfl, hr⟩
  | cons a ls ih =>
    intro h r hr
    rcases reportLines_raw ho hl ht hv hf hK (h a List.mem_cons_self) hr with ⟨g0, g1⟩ | ⟨r1, g1, g2⟩
    · refine Or.inl ⟨g0, ?_⟩
      rw [List.foldlM_cons, g1]; rfl
    · rw [List.foldlM_cons, g1]
      exact ih (fun b hb => h b (List.mem_cons_of_mem _ hb)) g2

theorem RI.weaken [TreeShape α] {R : Rely α} {P Q : Prop} {Valid : σ → V2 α × ι → Prop} {tab : σ} {r : SiteMap α ι (List Nat)}
    (h : RI R P L N4 Valid tab r) (hq : Q → ∀ x ∈ r, 2 ≤ x.2.length) : RI R Q L N4 Valid tab r :=
  ⟨h.fin, h.valid, h.near, hq, h.sorted, h.inv⟩

theorem reportEvent_raw [TreeShape α] {R : Rely α} {P : Prop} {ops : SweepOps α ι σ} {T : σ → Prop} {Valid : σ → V2 α × ι → Prop} (ho : Ops ops L T Valid)
    (hl : Laws R L Lt N1 N2 N3 N4) {tab : σ} (ht : T tab) {key : V2 α × ι} (hv : Valid tab key) (hf : FiniteV2 key.1)
    (hK : R.holds → R.K key.1)
    {e : SiteEvent} (he : EvR L N3 key.1 e) (ign : Bool) {r : SiteMap α ι (List Nat)} (hr : RI R P L N4 Valid tab r)
    (hP : P → R.holds ∨ r = []) :
    (¬ R.holds ∧ reportEvent ops ign tab key e r = .error .panic) ∨
    ∃ r', reportEvent ops ign tab key e r = .ok r' ∧ RI R P L N4 Valid tab r' := by
  unfold reportEvent
  by_cases hcond : (if ign then decide (e.inter.length > 0)
      else decide (e.drop.length + e.add.length + e.inter.length > 1)) = true
  · rw [if_pos hcond]
    have htot : 2 ≤ (e.drop ++ (e.add ++ e.inter)).length := by
      rw [List.length_append, List.length_append]
      cases ign with
      | true =>
        simp only [if_true, decide_eq_true_eq] at hcond
        have := he.two (by intro h; rw [h] at hcond; simp at hcond)
        omega
      | false =>
        simp only [Bool.false_eq_true, if_false, decide_eq_true_eq] at hcond
        omega
    obtain ⟨ls, hls⟩ : ∃ ls, ls = [e.drop, e.add, e.inter].filter (fun l => !l.isEmpty) := ⟨_, rfl⟩
    have hfl : ls.flatten = e.drop ++ (e.add ++ e.inter) := by rw [hls]; exact filter_flat _ _ _
    have hne : ls ≠ [] := by
      intro h
      rw [h] at hfl
      rw [← hfl] at htot
      simp at htot
    rw [← hls]
    rcases reportFold_any ho hl ht hv hf hK ls (by
      intro a ha
      rw [hls] at ha
      obtain ⟨ha, hb⟩ := List.mem_filter.1 ha
      refine fun i hi => he.near i ?_
      simp only [List.mem_cons, List.not_mem_nil, or_false] at ha
      rcases ha with rfl | rfl | rfl
      · exact Or.inl hi
      · exact Or.inr (Or.inl hi)
      · exact Or.inr (Or.inr hi)) (hr.weaken (fun h => h.elim)) with h | ⟨r', g1, g2⟩
    · exact Or.inl h
    refine Or.inr ⟨r', g1, g2.weaken ?_⟩
    intro hp
    rcases reportFold_raw (R := R) hl.comparable (ho.keyPos tab ht key hv) hf (siteCmp_refl (hl.refl _ hf)) hr.fin
        ((hP hp).imp_left (fun h => ⟨h, hK h, hr.inv h⟩)) hne with
      ⟨pre, x, post, h1, h3, h4⟩ | ⟨pre, post, h1, -, h4⟩
    · rw [h4, hfl] at g1
      have hx : x ∈ r := by rw [h1]; simp
      cases g1
      intro y hy
      simp only [List.mem_append, List.mem_cons] at hy
      have hin : ∀ y, y ∈ pre ∨ y ∈ post → y ∈ r := by
        intro y h; rw [h1]; simp only [List.mem_append, List.mem_cons]; tauto
      rcases hy with hy | rfl | hy
      · exact hr.two hp y (hin y (Or.inl hy))
      · simp only [List.length_insertionSort, List.length_append] at htot ⊢
        omega
      · exact hr.two hp y (hin y (Or.inr hy))
    · rw [h4, hfl] at g1
      cases g1
      intro y hy
      simp only [List.mem_append, List.mem_cons] at hy
      have hin : ∀ y, y ∈ pre ∨ y ∈ post → y ∈ r := by
        intro y h; rw [h1]; exact List.mem_append.2 h
      rcases hy with hy | rfl | hy
      · exact hr.two hp y (hin y (Or.inl hy))
      · simp only [List.length_insertionSort]
        exact htot
      · exact hr.two hp y (hin y (Or.inr hy))
  · rw [if_neg hcond]; exact Or.inr ⟨r, rfl, hr⟩

/-- the state of the loop -/
structure SI [TreeShape α] (R : Rely α) (P : Prop) (L : List (Line2 α)) (N2 N4 : Line2 α → V2 α → Prop) (T : σ → Prop) (Valid : σ → V2 α × ι → Prop)
    (s : SweepState α ι σ) : Prop where
  ei : EI R L N2 T Valid (s.tab, s.events)
  ri : RI R P L N4 Valid s.tab s.result
  actN : s.active.Nodup
  act : ∀ i ∈ s.active, ∃ l, L[i]? = some l

theorem setInsert_fold_raw (add : List Nat) : ∀ (l : List Nat), l.Nodup →
    (add.foldl setInsert l).Nodup ∧ ∀ i, i ∈ add.foldl setInsert l ↔ i ∈ l ∨ i ∈ add := by
  induction add with
  | nil => intro l hl; simpa using hl
  | cons a add ih =>
    intro l hl
    have h1 : (setInsert l a).Nodup ∧ ∀ i, i ∈ setInsert l a ↔ i ∈ l ∨ i = a := by
      unfold setInsert
      split
      · rename_i h
        rw [List.contains_iff_mem] at h
        refine ⟨hl, fun i => ⟨Or.inl, ?_⟩⟩
        rintro (h' | rfl)
        · exact h'
        · exact h
      · rename_i h
        rw [List.contains_iff_mem] at h
        refine ⟨List.nodup_cons.2 ⟨h, hl⟩, fun i => ?_⟩
        rw [List.mem_cons]; tauto
    obtain ⟨h2, h3⟩ := ih (setInsert l a) h1.1
    refine ⟨h2, fun i => ?_⟩
    rw [List.foldl_cons, h3, h1.2, List.mem_cons]
    tauto

/-- one event -/
theorem handleEvent_raw [TreeShape α] {R : Rely α} {P : Prop} {ops : SweepOps α ι σ} {T : σ → Prop} {Valid : σ → V2 α × ι → Prop} (ho : Ops ops L T Valid)
    (hl : Laws R L Lt N1 N2 N3 N4) {order : List Nat → List Nat} (hord : ∀ l, (order l).Perm l) (ign : Bool) {key : V2 α × ι} {e : SiteEvent}
    {s : SweepState α ι σ} (hs : SI R P L N2 N4 T Valid s) (hv : Valid s.tab key) (hf : FiniteV2 key.1) (hK : R.holds → R.K key.1)
    (he : EvR L N3 key.1 e) (hP : P → R.holds ∨ s.result = []) :
    (¬ R.holds ∧ handleEvent ops order ign key e s = .error .panic) ∨
    (handleEvent ops order ign key e s = .error .invalid ∧ Overflow L) ∨
    ∃ s', handleEvent ops order ign key e s = .ok s' ∧ SI R P L N2 N4 T Valid s' ∧
      measure L Lt s'.events < measure L Lt s.events + base L ^ rank L Lt key.1 := by
  rcases reportEvent_raw ho hl hs.ei.tab hv hf hK he ign hs.ri hP with ⟨h0, h1⟩ | ⟨r', h1, h2⟩
  · refine Or.inl ⟨h0, ?_⟩
    unfold handleEvent
    rw [h1]
    rfl
  right
  unfold handleEvent
  rw [h1]
  simp only [bind, Except.bind]
  obtain ⟨A, hA⟩ : ∃ A, A = s.active.filter (fun i => !e.drop.contains i) := ⟨_, rfl⟩
  rw [← hA]
  have hAn : A.Nodup := by rw [hA]; exact hs.actN.filter _
  have hAl : ∀ i ∈ A, ∃ l, L[i]? = some l := fun i hi => hs.act i (by rw [hA] at hi; exact List.mem_of_mem_filter hi)
  have hoA : ∀ i ∈ order A, ∃ l, L[i]? = some l := fun i hi => hAl i ((hord A).mem_iff.1 hi)
  have hlenA : (order A).length ≤ L.length := by rw [(hord A).length_eq]; exact len_le hAn hAl
  obtain ⟨m, g1, g2, g3⟩ := neighbours_raw ho hs.ei.tab key.1 e (order A) MinMax.new hoA
  rw [g1]
  simp only [MinMax.new, MinMaxSlope.new, List.nil_append] at g2 g3 ⊢
  rcases newEvents_raw ho hl hf hs.ei he (fun i hi => hoA i (g2.subset hi)) (fun i hi => hoA i (g3.subset hi))
    (g2.length_le.trans hlenA) (g3.length_le.trans hlenA) with ⟨k1, k2⟩ | ⟨s', k1, k2, k3, k4⟩
  · rw [k1]; exact Or.inl ⟨rfl, k2⟩
  · rw [k1]
    obtain ⟨q1, q2⟩ := setInsert_fold_raw e.add A hAn
    refine Or.inr ⟨_, rfl, ⟨k2, ⟨h2.fin, fun x hx => k3 _ (h2.valid x hx), h2.near, h2.two, h2.sorted, h2.inv⟩, q1, ?_⟩, ?_⟩
    · intro i hi
      rcases (q2 i).1 hi with h | h
      · exact hAl i h
      · obtain ⟨l, hh, -⟩ := he.near i (Or.inr (Or.inl h))
        exact ⟨l, hh⟩
    · simp only at k4 ⊢
      have hpos : 0 < base L ^ rank L Lt key.1 := Nat.pow_pos (by unfold base; omega)
      have hb : 4 * (L.length * L.length) + 1 = base L := rfl
      by_contra hcon
      rw [Nat.not_lt] at hcon
      have h5 := Nat.mul_le_mul_right (base L) hcon
      rw [Nat.add_mul] at h5
      have h6 : base L ^ rank L Lt key.1 * base L = (4 * (L.length * L.length)) * base L ^ rank L Lt key.1 + base L ^ rank L Lt key.1 := by
        rw [← hb]; ring
      omega

theorem EvR.weaken {N N' : Line2 α → V2 α → Prop} {p q : V2 α} {e : SiteEvent} (h : EvR L N p e) (hn : ∀ l, N l p → N' l q) : EvR L N' q e :=
  ⟨fun i hi => (h.near i hi).imp fun l g => ⟨g.1, hn l g.2⟩, h.addN, h.interN, h.one, h.two⟩

/-- taking an event from the queue: it is the first one if the trees can be relied on -/
theorem pop_raw [TreeShape α] {R : Rely α} {ops : SweepOps α ι σ} {T : σ → Prop} {Valid : σ → V2 α × ι → Prop}
    (hl : Laws R L Lt N1 N2 N3 N4) {tab : σ} {key : V2 α × ι} {e0 : SiteEvent} {rest0 : SiteMap α ι SiteEvent}
    (hI : EI R L N2 T Valid (tab, (key, e0) :: rest0)) :
    (¬ R.holds ∧ popFirst key ((key, e0) :: rest0) = .error .internal) ∨
    ∃ e rest, popFirst key ((key, e0) :: rest0) = .ok (e, rest) ∧ EvR L N3 key.1 e ∧ EI R L N2 T Valid (tab, rest) ∧
      (∀ x ∈ rest, x ∈ (key, e0) :: rest0) ∧ (R.holds → e = e0 ∧ rest = rest0) := by
  have hmem : ((key, e0) : (V2 α × ι) × SiteEvent) ∈ (key, e0) :: rest0 := List.mem_cons_self
  have hf := hI.fin _ hmem
  have shrink : ∀ rest : SiteMap α ι SiteEvent, (∀ x ∈ rest, x ∈ (key, e0) :: rest0) → (R.holds → R.Inv (poss rest)) →
      EI R L N2 T Valid (tab, rest) := fun rest h h' =>
    ⟨hI.tab, fun x hx => hI.fin x (h x hx), fun x hx => hI.valid x (h x hx), fun x hx => hI.ev x (h x hx),
      h', fun hR x hx => hI.keys hR x (h x hx)⟩
  by_cases hR : R.holds
  · right
    have hfind := R.first hR key e0 rest0 (siteCmp_refl (hl.refl _ hf)) (hI.keys hR _ hmem) (hI.inv hR)
    refine ⟨e0, rest0, Sweep.popFirst_found (pre := []) hfind, (hI.ev _ hmem).weaken (fun l => hl.n23 l _), ?_,
      fun x hx => List.mem_cons_of_mem _ hx, fun _ => ⟨rfl, rfl⟩⟩
    exact shrink rest0 (fun x hx => List.mem_cons_of_mem _ hx) (fun hR => R.tail hR _ _ (hI.inv hR))
  · rcases Sweep.popFirst_split key ((key, e0) :: rest0) (fun e he => siteCmp_some hl.comparable hf (hI.fin e he)) with
      ⟨pre, e, post, hm, hc, hp⟩ | hp
    · right
      have he : e ∈ (key, e0) :: rest0 := by rw [hm]; simp
      have hsub : ∀ x ∈ pre ++ post, x ∈ (key, e0) :: rest0 := by
        intro x hx
        rw [hm]
        simp only [List.mem_append, List.mem_cons] at hx ⊢
        tauto
      refine ⟨e.2, pre ++ post, hp, (hI.ev e he).weaken (fun l => ?_), shrink _ hsub (fun h => absurd h hR), hsub,
        fun h => absurd h hR⟩
      exact hl.m23 hR l _ _ (hI.fin e he) hf (hl.symm _ _ hf (hI.fin e he) hc)
    · exact Or.inl ⟨hR, hp⟩

/-- the loop: what it returns, and which errors are possible -/
theorem sweepLoop_raw [TreeShape α] {R : Rely α} {P : Prop} {ops : SweepOps α ι σ} {T : σ → Prop} {Valid : σ → V2 α × ι → Prop} (ho : Ops ops L T Valid)
    (hl : Laws R L Lt N1 N2 N3 N4) {order : Nat → List Nat → List Nat} (hord : ∀ n l, (order n l).Perm l) (ign stop : Bool) :
    ∀ (fuel : Nat) (s : SweepState α ι σ), SI R P L N2 N4 T Valid s → (R.holds → measure L Lt s.events < fuel) →
    (P → R.holds ∨ (stop = true ∧ s.result = [])) →
    (¬ R.holds ∧ ∃ x, sweepLoop ops order ign stop fuel s = .error x ∧ x ≠ .invalid) ∨
    (sweepLoop ops order ign stop fuel s = .error .invalid ∧ Overflow L) ∨
    ∃ s', sweepLoop ops order ign stop fuel s = .ok s' ∧ SI R P L N2 N4 T Valid s' := by
  intro fuel
  induction fuel with
  | zero =>
    intro s _ h _
    exact Or.inl ⟨fun hR => absurd (h hR) (Nat.not_lt_zero _), _, rfl, fun h => (nomatch h)⟩
  | succ fuel ih =>
    intro s hs hm hP
    unfold sweepLoop
    split
    · exact Or.inr (Or.inr ⟨s, rfl, hs⟩)
    · rename_i key e0 rest0 hev
      have hI := hs.ei
      rw [hev] at hI
      have hmem : ((key, e0) : (V2 α × ι) × SiteEvent) ∈ (key, e0) :: rest0 := List.mem_cons_self
      rcases pop_raw (ops := ops) hl hI with ⟨hR, hp⟩ | ⟨e, rest, hp, hE, hI', -, hR⟩
      · left
        rw [hev, hp]
        exact ⟨hR, _, rfl, fun h => (nomatch h)⟩
      rw [hev, hp]
      simp only [bind, Except.bind]
      have hs' : SI R P L N2 N4 T Valid { s with events := rest } := ⟨hI', hs.ri, hs.actN, hs.act⟩
      rcases handleEvent_raw ho hl (hord fuel) ign hs' (hI.valid _ hmem) (hI.fin _ hmem) (fun hR => hI.keys hR _ hmem) hE
        (fun h => (hP h).imp_right (·.2)) with
        ⟨h0, h1⟩ | ⟨h1, h2⟩ | ⟨s1, h1, h2, h3⟩
      · rw [h1]; exact Or.inl ⟨h0, _, rfl, fun h => (nomatch h)⟩
      · rw [h1]; exact Or.inr (Or.inl ⟨rfl, h2⟩)
      · rw [h1]
        simp only
        split
        · exact Or.inr (Or.inr ⟨s1, rfl, h2⟩)
        · rename_i hstop
          apply ih s1 h2
          · intro h
            have hm := hm h
            obtain ⟨-, hr⟩ := hR h
            rw [hev, measure_cons] at hm
            simp only [hr] at hm h3
            omega
          · intro h
            refine (hP h).imp_right (fun hq => ⟨hq.1, ?_⟩)
            rw [hq.1] at hstop
            simpa using hstop

end
end Verif.SweepRaw
