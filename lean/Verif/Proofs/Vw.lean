import Verif.Model.Vw
import Verif.Spec.Laws
import Verif.Spec.Heap
/-!
# Visvalingam–Whyatt: the heap with stale entries refines the greedy algorithm
-/
set_option linter.unusedSectionVars false
set_option linter.unusedVariables false
set_option linter.unusedSimpArgs false
namespace Verif.Vw
open Verif Verif.Spec Verif.Model

section links
variable {α : Type} [Scalar α]

theorem linkGet_remove (links : VwLinks α) (i j : Nat) :
    linkGet (linkRemove links i) j = if j = i then none else linkGet links j := by
  induction links with
  | nil => simp [linkRemove, linkGet]
  | cons e t ih =>
    obtain ⟨k, v⟩ := e
    simp only [linkRemove, linkGet, List.filter_cons] at ih ⊢
    by_cases hk : k = i
    · subst hk
      simp only [bne_self_eq_false, Bool.false_eq_true, if_false]
      rw [ih]
      by_cases hj : j = k
      · simp [hj]
      · have h2 : (j == k) = false := by simpa using hj
        simp [hj, List.lookup_cons, h2]
    · have : (k != i) = true := by simpa using hk
      simp only [this, if_true, List.lookup_cons]
      by_cases hj : j = k
      · subst hj; simp [hk]
      · have h2 : (j == k) = false := by simpa using hj
        simp only [h2]
        exact ih

theorem linkGet_insert (links : VwLinks α) (i j : Nat) (v : Nat × Nat × α) :
    linkGet (linkInsert links i v) j = if j = i then some v else linkGet links j := by
  have := linkGet_remove links i j
  simp only [linkGet, linkInsert, List.lookup_cons] at this ⊢
  by_cases hj : j = i
  · subst hj; simp
  · have h2 : (j == i) = false := by simpa using hj
    simp only [h2, if_neg hj] at this ⊢
    exact this

theorem keys_remove (links : VwLinks α) (i : Nat) :
    (linkRemove links i).map (·.1) = (links.map (·.1)).filter (fun k => k != i) := by
  simp only [linkRemove, List.filter_map]
  rfl

theorem mem_keys_remove (links : VwLinks α) (i j : Nat) :
    j ∈ (linkRemove links i).map (·.1) ↔ j ∈ links.map (·.1) ∧ j ≠ i := by
  rw [keys_remove, List.mem_filter]; simp

theorem mem_keys_insert (links : VwLinks α) (i j : Nat) (v : Nat × Nat × α) :
    j ∈ (linkInsert links i v).map (·.1) ↔ j = i ∨ j ∈ links.map (·.1) := by
  simp only [linkInsert, List.map_cons, List.mem_cons, mem_keys_remove]
  tauto

theorem nodup_remove (links : VwLinks α) (i : Nat) (h : (links.map (·.1)).Nodup) :
    ((linkRemove links i).map (·.1)).Nodup := by
  rw [keys_remove]; exact h.filter _

theorem nodup_insert (links : VwLinks α) (i : Nat) (v : Nat × Nat × α) (h : (links.map (·.1)).Nodup) :
    ((linkInsert links i v).map (·.1)).Nodup := by
  simp only [linkInsert, List.map_cons, List.nodup_cons]
  refine ⟨fun hm => ?_, nodup_remove links i h⟩
  rw [mem_keys_remove] at hm
  exact hm.2 rfl

theorem linkGet_none (links : VwLinks α) (i : Nat) (h : i ∉ links.map (·.1)) : linkGet links i = none := by
  unfold linkGet
  rw [List.lookup_eq_none_iff]
  intro p hp
  have : p.1 ≠ i := fun e => h (e ▸ List.mem_map_of_mem hp)
  simpa using Ne.symm this
end links

section
variable {α : Type} [Scalar α] {P : Type}

/-- `x`, `j`, `y` are neighbours in the list -/
def Triple {A : Type} (cur : List A) (x j y : A) : Prop :=
  ∃ k : Nat, cur[k]? = some x ∧ cur[k + 1]? = some j ∧ cur[k + 2]? = some y

/-- The state of the algorithm when the nodes `cur` are left; `ar` is the area of three nodes. -/
structure Inv (S : α → Prop) (ar : Nat → Nat → Nat → α) (cur : List Nat) (s : VwHeap α × VwLinks α) : Prop where
  sorted : cur.Pairwise (· < ·)
  links : ∀ x j y, Triple cur x j y → linkGet s.2 j = some (x, y, ar x j y)
  keys : ∀ j, j ∈ s.2.map (·.1) ↔ ∃ x y, Triple cur x j y
  nodup : (s.2.map (·.1)).Nodup
  heap : ∀ x j y, Triple cur x j y → (ar x j y, j) ∈ s.1
  good : ∀ e ∈ s.1, S e.1

theorem get_inj {cur : List Nat} (h : cur.Pairwise (· < ·)) {k l i : Nat} (hk : cur[k]? = some i)
    (hl : cur[l]? = some i) : k = l := by
  obtain ⟨h1, e1⟩ := List.getElem?_eq_some_iff.1 hk
  obtain ⟨h2, e2⟩ := List.getElem?_eq_some_iff.1 hl
  have hnd : cur.Nodup := h.imp (fun h => Nat.ne_of_lt h)
  exact (List.Nodup.getElem_inj_iff hnd).1 (e1.trans e2.symm)

theorem triple_unique {cur : List Nat} (h : cur.Pairwise (· < ·)) {x j y x' y' : Nat} (h1 : Triple cur x j y)
    (h2 : Triple cur x' j y') : x = x' ∧ y = y' := by
  obtain ⟨k, a1, a2, a3⟩ := h1
  obtain ⟨l, b1, b2, b3⟩ := h2
  have := get_inj h a2 b2
  obtain rfl : k = l := by omega
  rw [a1] at b1; rw [a3] at b3
  simp at b1 b3
  exact ⟨b1, b3⟩

theorem interior_mem {cur : List Nat} (j : Nat) : j ∈ cur.tail.dropLast ↔ ∃ x y, Triple cur x j y := by
  rw [List.mem_iff_getElem?]
  constructor
  · rintro ⟨k, hk⟩
    have hlt := (List.getElem?_eq_some_iff.1 hk).1
    simp at hlt
    rw [List.getElem?_dropLast] at hk
    have h1 : k < cur.tail.length - 1 := by simp; omega
    rw [if_pos h1, List.getElem?_tail] at hk
    obtain ⟨x, hx⟩ : ∃ x, cur[k]? = some x := ⟨_, List.getElem?_eq_getElem (by omega)⟩
    obtain ⟨y, hy⟩ : ∃ y, cur[k + 2]? = some y := ⟨_, List.getElem?_eq_getElem (by omega)⟩
    exact ⟨x, y, k, hx, hk, hy⟩
  · rintro ⟨x, y, k, h1, h2, h3⟩
    have h4 := (List.getElem?_eq_some_iff.1 h3).1
    refine ⟨k, ?_⟩
    rw [List.getElem?_dropLast, if_pos (by simp; omega), List.getElem?_tail, h2]

theorem Inv.perm {S : α → Prop} {ar : Nat → Nat → Nat → α} {cur : List Nat} {s : VwHeap α × VwLinks α} (h : Inv S ar cur s) :
    (s.2.map (·.1)).Perm cur.tail.dropLast := by
  have hnd : cur.Nodup := h.sorted.imp (fun h => Nat.ne_of_lt h)
  have hsub : List.Sublist cur.tail.dropLast cur := (List.dropLast_sublist _).trans (List.tail_sublist _)
  rw [List.perm_ext_iff_of_nodup h.nodup (hnd.sublist hsub)]
  intro j
  rw [h.keys, interior_mem]

theorem Inv.length {S : α → Prop} {ar : Nat → Nat → Nat → α} {cur : List Nat} {s : VwHeap α × VwLinks α} (h : Inv S ar cur s) :
    s.2.length = cur.length - 2 := by
  have := h.perm.length_eq
  simp at this
  omega

theorem Inv.vwKeys {S : α → Prop} {ar : Nat → Nat → Nat → α} {cur : List Nat} {s : VwHeap α × VwLinks α} (h : Inv S ar cur s) :
    Model.vwKeys s.2 = cur.tail.dropLast := by
  unfold Model.vwKeys
  have h1 := (List.perm_insertionSort (· ≤ ·) (s.2.map (·.1))).trans h.perm
  have hs : (cur.tail.dropLast).Pairwise (· ≤ ·) := by
    have hsub : List.Sublist cur.tail.dropLast cur := (List.dropLast_sublist _).trans (List.tail_sublist _)
    exact (h.sorted.sublist hsub).imp (fun h => Nat.le_of_lt h)
  have hm : ((s.2.map (·.1)).insertionSort (· ≤ ·)).Pairwise (· ≤ ·) := List.pairwise_insertionSort _ _
  exact List.Perm.eq_of_pairwise (fun a b _ _ h1 h2 => Nat.le_antisymm h1 h2) hm hs h1

theorem heapPush_ok {S : α → Prop} (hS : TotalOn S) {heap : VwHeap α} (hg : ∀ e ∈ heap, S e.1) {key : α} (hk : S key)
    (i : Nat) : heapPush heap key i = .ok ((key, i) :: heap) := by
  unfold heapPush
  rw [if_neg]
  rw [List.any_eq_true]
  rintro ⟨e, he, hn⟩
  have := hS.total key e.1 hk (hg e he)
  unfold Scalar.pcmp Scalar.ge at hn
  rcases this with h | h <;> rw [h] at hn
  · cases h2 : Scalar.le e.1 key <;> simp [h2] at hn
  · cases h2 : Scalar.le key e.1 <;> simp [h2] at hn

theorem vwLink_ok {S : α → Prop} (hS : TotalOn S) {heap : VwHeap α} (hg : ∀ e ∈ heap, S e.1) {key : α} (hk : S key)
    (links : VwLinks α) (i j k : Nat) :
    vwLink heap links i j k key = .ok ((key, j) :: heap, linkInsert links j (i, k, key)) := by
  unfold vwLink
  rw [heapPush_ok hS hg hk]
  rfl

/-- neighbours in the list without the node at `m + 1` -/
theorem triple_erase {cur : List Nat} (hs : cur.Pairwise (· < ·)) {m a i c : Nat} (ha : cur[m]? = some a)
    (hi : cur[m + 1]? = some i) (hc : cur[m + 2]? = some c) (x j y : Nat) :
    Triple (cur.eraseIdx (m + 1)) x j y ↔
      (j ≠ a ∧ j ≠ c ∧ j ≠ i ∧ Triple cur x j y) ∨
      (j = a ∧ y = c ∧ 1 ≤ m ∧ cur[m - 1]? = some x) ∨
      (j = c ∧ x = a ∧ cur[m + 3]? = some y) := by
  have hlt := (List.getElem?_eq_some_iff.1 hc).1
  constructor
  · rintro ⟨k, h1, h2, h3⟩
    rw [List.getElem?_eraseIdx] at h1 h2 h3
    rcases Nat.lt_trichotomy k m with hk | rfl | hk
    · rcases Nat.lt_or_ge (k + 1) m with hk2 | hk2
      · rw [if_pos (by omega)] at h1 h2 h3
        left
        refine ⟨?_, ?_, ?_, k, h1, h2, h3⟩
        · rintro rfl; have := get_inj hs h2 ha; omega
        · rintro rfl; have := get_inj hs h2 hc; omega
        · rintro rfl; have := get_inj hs h2 hi; omega
      · obtain rfl : m = k + 1 := by omega
        rw [if_pos (by omega)] at h1 h2
        rw [if_neg (by omega)] at h3
        right; left
        rw [ha] at h2; rw [hc] at h3
        simp at h2 h3
        exact ⟨h2.symm, h3.symm, by omega, by simpa using h1⟩
    · rw [if_pos (by omega)] at h1
      rw [if_neg (by omega)] at h2 h3
      rw [ha] at h1; rw [hc] at h2
      simp at h1 h2
      right; right
      exact ⟨h2.symm, h1.symm, h3⟩
    · rw [if_neg (by omega)] at h1 h2 h3
      left
      refine ⟨?_, ?_, ?_, k + 1, h1, h2, h3⟩
      · rintro rfl; have := get_inj hs h2 ha; omega
      · rintro rfl; have := get_inj hs h2 hc; omega
      · rintro rfl; have := get_inj hs h2 hi; omega
  · rintro (⟨n1, n2, n3, k, h1, h2, h3⟩ | ⟨rfl, rfl, hm, hx⟩ | ⟨rfl, rfl, hy⟩)
    · have hk1 : k + 1 ≠ m := by rintro rfl; rw [h2] at ha; exact n1 (by simpa using ha)
      have hk2 : k ≠ m := by rintro rfl; rw [h2] at hi; exact n3 (by simpa using hi)
      have hk3 : k ≠ m + 1 := by rintro rfl; rw [h2] at hc; exact n2 (by simpa using hc)
      rcases Nat.lt_or_ge k m with hk | hk
      · refine ⟨k, ?_, ?_, ?_⟩ <;> rw [List.getElem?_eraseIdx, if_pos (by omega)] <;> assumption
      · obtain ⟨l, rfl⟩ : ∃ l, k = l + 1 := ⟨k - 1, by omega⟩
        refine ⟨l, ?_, ?_, ?_⟩ <;> rw [List.getElem?_eraseIdx, if_neg (by omega)] <;> assumption
    · obtain ⟨l, rfl⟩ : ∃ l, m = l + 1 := ⟨m - 1, by omega⟩
      refine ⟨l, ?_, ?_, ?_⟩ <;> rw [List.getElem?_eraseIdx]
      · rw [if_pos (by omega)]; simpa using hx
      · rw [if_pos (by omega)]; exact ha
      · rw [if_neg (by omega)]; exact hc
    · refine ⟨m, ?_, ?_, ?_⟩ <;> rw [List.getElem?_eraseIdx]
      · rw [if_pos (by omega)]; exact ha
      · rw [if_neg (by omega)]; exact hc
      · rw [if_neg (by omega)]; exact hy


/-- what the state must look like after the deletion of the node `i` between `a` and `c` -/
theorem Inv.erase {S : α → Prop} {ar : Nat → Nat → Nat → α} {cur : List Nat} {s s' : VwHeap α × VwLinks α}
    (h : Inv S ar cur s) {m a i c : Nat} (ha : cur[m]? = some a) (hi : cur[m + 1]? = some i)
    (hc : cur[m + 2]? = some c)
    (hget : ∀ j, j ≠ a → j ≠ c → j ≠ i → linkGet s'.2 j = linkGet s.2 j)
    (hgeta : ∀ z, 1 ≤ m → cur[m - 1]? = some z → linkGet s'.2 a = some (z, c, ar z a c))
    (hgetc : ∀ w, cur[m + 3]? = some w → linkGet s'.2 c = some (a, w, ar a c w))
    (hkeys : ∀ j, j ∈ s'.2.map (·.1) ↔ j ∈ s.2.map (·.1) ∧ j ≠ i) (hnd : (s'.2.map (·.1)).Nodup)
    (hheap : ∀ e ∈ s.1, e.2 ≠ i → e ∈ s'.1)
    (hheapa : ∀ z, 1 ≤ m → cur[m - 1]? = some z → (ar z a c, a) ∈ s'.1)
    (hheapc : ∀ w, cur[m + 3]? = some w → (ar a c w, c) ∈ s'.1)
    (hgood : ∀ e ∈ s'.1, S e.1) : Inv S ar (cur.eraseIdx (m + 1)) s' := by
  have hai : a ≠ i := by rintro rfl; have := get_inj h.sorted ha hi; omega
  have hci : c ≠ i := by rintro rfl; have := get_inj h.sorted hc hi; omega
  have hte := triple_erase h.sorted ha hi hc
  refine ⟨h.sorted.sublist (List.eraseIdx_sublist _ _), ?_, ?_, hnd, ?_, hgood⟩
  · intro x j y ht
    rcases (hte x j y).1 ht with ⟨h1, h2, h3, h4⟩ | ⟨rfl, rfl, h1, h2⟩ | ⟨rfl, rfl, h1⟩
    · rw [hget j h1 h2 h3]; exact h.links x j y h4
    · exact hgeta x h1 h2
    · exact hgetc y h1
  · intro j
    rw [hkeys, h.keys]
    constructor
    · rintro ⟨⟨x, y, ht⟩, hji⟩
      by_cases hja : j = a
      · subst hja
        obtain ⟨k, h1, h2, h3⟩ := ht
        have := get_inj h.sorted h2 ha
        subst this
        exact ⟨x, c, (hte _ _ _).2 (Or.inr (Or.inl ⟨rfl, rfl, by omega, by simpa using h1⟩))⟩
      · by_cases hjc : j = c
        · subst hjc
          obtain ⟨k, h1, h2, h3⟩ := ht
          have := get_inj h.sorted h2 hc
          obtain rfl : k = m + 1 := by omega
          exact ⟨a, y, (hte _ _ _).2 (Or.inr (Or.inr ⟨rfl, rfl, h3⟩))⟩
        · exact ⟨x, y, (hte _ _ _).2 (Or.inl ⟨hja, hjc, hji, ht⟩)⟩
    · rintro ⟨x, y, ht⟩
      rcases (hte x j y).1 ht with ⟨h1, h2, h3, h4⟩ | ⟨rfl, rfl, h1, h2⟩ | ⟨rfl, rfl, h1⟩
      · exact ⟨⟨x, y, h4⟩, h3⟩
      · refine ⟨⟨x, i, m - 1, h2, ?_, ?_⟩, hai⟩
        · rw [show m - 1 + 1 = m by omega]; exact ha
        · rw [show m - 1 + 2 = m + 1 by omega]; exact hi
      · exact ⟨⟨i, y, m + 1, hi, hc, h1⟩, hci⟩
  · intro x j y ht
    rcases (hte x j y).1 ht with ⟨h1, h2, h3, h4⟩ | ⟨rfl, rfl, h1, h2⟩ | ⟨rfl, rfl, h1⟩
    · exact hheap _ (h.heap x j y h4) h3
    · exact hheapa x h1 h2
    · exact hheapc y h1

theorem vwDelete_ok {S : α → Prop} (hS : TotalOn S) (area : P → P → P → α) (line : List P) (pt : Nat → P)
    (hpt : ∀ i, i < line.length → idx line i = .ok (pt i))
    (hpt' : ∀ i, i ≤ line.length → idx line (i % line.length) = .ok (pt i))
    {cur : List Nat} (hcur : ∀ i ∈ cur, i ≤ line.length)
    {s : VwHeap α × VwLinks α} (h : Inv S (fun x j y => area (pt x) (pt j) (pt y)) cur s)
    (hgood : ∀ x ∈ cur, ∀ j ∈ cur, ∀ y ∈ cur, S (area (pt x) (pt j) (pt y)))
    {m a i c : Nat} (ha : cur[m]? = some a) (hi : cur[m + 1]? = some i) (hc : cur[m + 2]? = some c)
    (heap : VwHeap α) (hsub : ∀ e ∈ heap, e ∈ s.1) (hheap : ∀ e ∈ s.1, e.2 ≠ i → e ∈ heap) :
    ∃ s', vwDelete area line (heap, linkRemove s.2 i) a c = .ok s' ∧
      Inv S (fun x j y => area (pt x) (pt j) (pt y)) (cur.eraseIdx (m + 1)) s' ∧ s'.1.length ≤ heap.length + 2 := by
  have hai : a ≠ i := by rintro rfl; have := get_inj h.sorted ha hi; omega
  have hci : c ≠ i := by rintro rfl; have := get_inj h.sorted hc hi; omega
  have hca : c ≠ a := by rintro rfl; have := get_inj h.sorted hc ha; omega
  have hlt : ∀ {k l x y : Nat}, cur[k]? = some x → cur[l]? = some y → k < l → x < y := by
    intro k l x y h1 h2 hkl
    obtain ⟨g1, e1⟩ := List.getElem?_eq_some_iff.1 h1
    obtain ⟨g2, e2⟩ := List.getElem?_eq_some_iff.1 h2
    have := List.pairwise_iff_getElem.1 h.sorted k l g1 g2 hkl
    rw [e1, e2] at this
    exact this
  have hmem : ∀ {k x : Nat}, cur[k]? = some x → x ∈ cur := fun h => List.mem_of_getElem? h
  have hcn : c ≤ line.length := hcur c (hmem hc)
  have hac : a < c := hlt ha hc (by omega)
  have pa := hpt a (by omega)
  have pc := hpt' c hcn
  have hg0 : ∀ e ∈ heap, S e.1 := fun e he => h.good e (hsub e he)
  have hkeysi : i ∈ s.2.map (·.1) := (h.keys i).2 ⟨a, c, m, ha, hi, hc⟩
  have hnd0 := nodup_remove s.2 i h.nodup
  -- what `vwDelete` finds
  have hprev : ∀ z, 1 ≤ m → cur[m - 1]? = some z → linkGet (linkRemove s.2 i) a = some (z, i, area (pt z) (pt a) (pt i)) ∧
      a ∈ s.2.map (·.1) := by
    intro z hm hz
    have ht : Triple cur z a i := ⟨m - 1, hz, by rw [show m - 1 + 1 = m by omega]; exact ha,
      by rw [show m - 1 + 2 = m + 1 by omega]; exact hi⟩
    rw [linkGet_remove, if_neg hai]
    exact ⟨h.links z a i ht, (h.keys a).2 ⟨z, i, ht⟩⟩
  have hprev0 : m = 0 → linkGet (linkRemove s.2 i) a = none := by
    intro hm
    rw [linkGet_remove, if_neg hai]
    refine linkGet_none _ _ (fun hk => ?_)
    obtain ⟨x, y, k, h1, h2, h3⟩ := (h.keys a).1 hk
    have := get_inj h.sorted h2 ha
    omega
  have hnext : ∀ w, cur[m + 3]? = some w → linkGet (linkRemove s.2 i) c = some (i, w, area (pt i) (pt c) (pt w)) ∧
      c ∈ s.2.map (·.1) := by
    intro w hw
    have ht : Triple cur i c w := ⟨m + 1, hi, hc, hw⟩
    rw [linkGet_remove, if_neg hci]
    exact ⟨h.links i c w ht, (h.keys c).2 ⟨i, w, ht⟩⟩
  have hnext0 : cur[m + 3]? = none → linkGet (linkRemove s.2 i) c = none := by
    intro hw
    rw [linkGet_remove, if_neg hci]
    refine linkGet_none _ _ (fun hk => ?_)
    obtain ⟨x, y, k, h1, h2, h3⟩ := (h.keys c).1 hk
    have := get_inj h.sorted h2 hc
    obtain rfl : k = m + 1 := by omega
    rw [h3] at hw
    simp at hw
  have fixNext : ∀ (hp : VwHeap α) (L : VwLinks α) (w : Nat), (∀ e ∈ hp, S e.1) → cur[m + 3]? = some w →
      vwFixNext area line (hp, L) a c w =
        .ok ((area (pt a) (pt c) (pt w), c) :: hp, linkInsert L c (a, w, area (pt a) (pt c) (pt w))) := by
    intro hp L w hg hw
    unfold vwFixNext
    rw [pa, pc, hpt' w (hcur w (hmem hw))]
    exact vwLink_ok hS hg (hgood a (hmem ha) c (hmem hc) w (hmem hw)) _ _ _ _
  have fixPrev : ∀ (hp : VwHeap α) (L : VwLinks α) (z : Nat), (∀ e ∈ hp, S e.1) → 1 ≤ m → cur[m - 1]? = some z →
      vwFixPrev area line (hp, L) z a c =
        .ok ((area (pt z) (pt a) (pt c), a) :: hp, linkInsert L a (z, c, area (pt z) (pt a) (pt c))) := by
    intro hp L z hg hm hz
    have hza : z < a := hlt hz ha (by omega)
    unfold vwFixPrev
    rw [pa, pc, hpt z (by omega)]
    exact vwLink_ok hS hg (hgood z (hmem hz) a (hmem ha) c (hmem hc)) _ _ _ _
  unfold vwDelete
  rcases Nat.eq_zero_or_pos m with hm | hm
  · rw [hprev0 hm]
    cases hw : cur[m + 3]? with
    | none =>
      rw [hnext0 hw]
      refine ⟨_, rfl, h.erase ha hi hc ?_ ?_ ?_ ?_ hnd0 hheap ?_ ?_ hg0, by simp⟩
      · intro j _ _ hj; simp only [linkGet_remove, if_neg hj]
      · intro z hz; omega
      · intro w hw'; rw [hw] at hw'; simp at hw'
      · intro j; exact mem_keys_remove _ _ _
      · intro z hz; omega
      · intro w hw'; rw [hw] at hw'; simp at hw'
    | some w =>
      rw [(hnext w hw).1]
      simp only [Option.map_some, Option.map_none]
      rw [fixNext heap _ w hg0 hw]
      refine ⟨_, rfl, h.erase ha hi hc ?_ ?_ ?_ ?_ (nodup_insert _ _ _ hnd0) ?_ ?_ ?_ ?_, by simp⟩
      · intro j _ hjc hj; simp only [linkGet_insert, linkGet_remove, if_neg hj, if_neg hjc]
      · intro z hz; omega
      · intro w' hw'
        rw [hw] at hw'; simp at hw'; subst hw'
        simp only [linkGet_insert, if_true]
      · intro j
        simp only [mem_keys_insert, mem_keys_remove]
        constructor
        · rintro (rfl | hj)
          · exact ⟨(hnext w hw).2, hci⟩
          · exact hj
        · exact Or.inr
      · intro e he hei; exact List.mem_cons_of_mem _ (hheap e he hei)
      · intro z hz; omega
      · intro w' hw'
        rw [hw] at hw'; simp at hw'; subst hw'
        exact List.mem_cons_self
      · intro e he
        rcases List.mem_cons.1 he with rfl | he
        · exact hgood a (hmem ha) c (hmem hc) w (hmem hw)
        · exact hg0 e he
  · obtain ⟨z, hz⟩ : ∃ z, cur[m - 1]? = some z := by
      have := (List.getElem?_eq_some_iff.1 ha).1
      exact ⟨_, List.getElem?_eq_getElem (by omega)⟩
    have hza := hgood z (hmem hz) a (hmem ha) c (hmem hc)
    rw [(hprev z hm hz).1]
    cases hw : cur[m + 3]? with
    | none =>
      rw [hnext0 hw]
      simp only [Option.map_some, Option.map_none]
      rw [fixPrev heap _ z hg0 hm hz]
      refine ⟨_, rfl, h.erase ha hi hc ?_ ?_ ?_ ?_ (nodup_insert _ _ _ hnd0) ?_ ?_ ?_ ?_, by simp⟩
      · intro j hja _ hj; simp only [linkGet_insert, linkGet_remove, if_neg hj, if_neg hja]
      · intro z' _ hz'
        rw [hz] at hz'; simp at hz'; subst hz'
        simp only [linkGet_insert, if_true]
      · intro w hw'; rw [hw] at hw'; simp at hw'
      · intro j
        simp only [mem_keys_insert, mem_keys_remove]
        constructor
        · rintro (rfl | hj)
          · exact ⟨(hprev z hm hz).2, hai⟩
          · exact hj
        · exact Or.inr
      · intro e he hei; exact List.mem_cons_of_mem _ (hheap e he hei)
      · intro z' _ hz'
        rw [hz] at hz'; simp at hz'; subst hz'
        exact List.mem_cons_self
      · intro w hw'; rw [hw] at hw'; simp at hw'
      · intro e he
        rcases List.mem_cons.1 he with rfl | he
        · exact hza
        · exact hg0 e he
    | some w =>
      have hwa := hgood a (hmem ha) c (hmem hc) w (hmem hw)
      rw [(hnext w hw).1]
      simp only [Option.map_some, Option.map_none]
      rw [fixNext heap _ w hg0 hw]
      simp only [bind, Except.bind]
      rw [fixPrev _ _ z (by
        intro e he
        rcases List.mem_cons.1 he with rfl | he
        · exact hwa
        · exact hg0 e he) hm hz]
      refine ⟨_, rfl, h.erase ha hi hc ?_ ?_ ?_ ?_ (nodup_insert _ _ _ (nodup_insert _ _ _ hnd0)) ?_ ?_ ?_ ?_, by simp⟩
      · intro j hja hjc hj; simp only [linkGet_insert, linkGet_remove, if_neg hj, if_neg hja, if_neg hjc]
      · intro z' _ hz'
        rw [hz] at hz'; simp at hz'; subst hz'
        simp only [linkGet_insert, if_true]
      · intro w' hw'
        rw [hw] at hw'; simp at hw'; subst hw'
        simp only [linkGet_insert, if_true, if_neg hca]
      · intro j
        simp only [mem_keys_insert, mem_keys_remove]
        constructor
        · rintro (rfl | rfl | hj)
          · exact ⟨(hprev z hm hz).2, hai⟩
          · exact ⟨(hnext w hw).2, hci⟩
          · exact hj
        · exact fun h => Or.inr (Or.inr h)
      · intro e he hei; exact List.mem_cons_of_mem _ (List.mem_cons_of_mem _ (hheap e he hei))
      · intro z' _ hz'
        rw [hz] at hz'; simp at hz'; subst hz'
        exact List.mem_cons_self
      · intro w' hw'
        rw [hw] at hw'; simp at hw'; subst hw'
        exact List.mem_cons_of_mem _ List.mem_cons_self
      · intro e he
        rcases List.mem_cons.1 he with rfl | he
        · exact hza
        · rcases List.mem_cons.1 he with rfl | he
          · exact hwa
          · exact hg0 e he


/-- how many nodes can be deleted when there are `n` links -/
def deletable (guard2 : Bool) (n : Nat) : Nat := if guard2 = true ∧ 2 ≤ n then n - 2 else n

theorem split3 {A : Type} {l : List A} {m : Nat} {a b c : A} (ha : l[m]? = some a) (hb : l[m + 1]? = some b)
    (hc : l[m + 2]? = some c) : l = l.take m ++ a :: b :: c :: l.drop (m + 3) := by
  obtain ⟨h1, rfl⟩ := List.getElem?_eq_some_iff.1 ha
  obtain ⟨h2, rfl⟩ := List.getElem?_eq_some_iff.1 hb
  obtain ⟨h3, rfl⟩ := List.getElem?_eq_some_iff.1 hc
  conv_lhs => rw [← List.take_append_drop m l]
  rw [List.drop_eq_getElem_cons h1, List.drop_eq_getElem_cons h2, List.drop_eq_getElem_cons h3]

theorem erase3 {A : Type} {l : List A} {m : Nat} {a b c : A} (ha : l[m]? = some a) (hb : l[m + 1]? = some b)
    (hc : l[m + 2]? = some c) : l.eraseIdx (m + 1) = l.take m ++ a :: c :: l.drop (m + 3) := by
  obtain ⟨h1, rfl⟩ := List.getElem?_eq_some_iff.1 ha
  obtain ⟨h3, rfl⟩ := List.getElem?_eq_some_iff.1 hc
  rw [List.eraseIdx_eq_take_drop_succ, List.take_add_one, ha, List.drop_eq_getElem_cons h3, List.append_assoc]
  rfl

/-- a round of the loop that pops a stale entry -/
theorem Inv.stale {S : α → Prop} {ar : Nat → Nat → Nat → α} {cur : List Nat} {s : VwHeap α × VwLinks α} (h : Inv S ar cur s)
    {pos : Nat} {e : α × Nat} (he : s.1[pos]? = some e) (hst : ∀ x y, Triple cur x e.2 y → e.1 ≠ ar x e.2 y) :
    Inv S ar cur (s.1.eraseIdx pos, s.2) := by
  refine ⟨h.sorted, h.links, h.keys, h.nodup, ?_, fun f hf => h.good f (List.mem_of_mem_eraseIdx hf)⟩
  intro x j y ht
  have hm := h.heap x j y ht
  rw [List.mem_iff_getElem?] at hm
  obtain ⟨k, hk⟩ := hm
  have hne : k ≠ pos := by
    rintro rfl
    rw [he] at hk
    simp only [Option.some_inj] at hk
    rw [hk] at hst
    exact hst x y ht rfl
  rw [List.mem_eraseIdx_iff_getElem?]
  exact ⟨k, hne, hk⟩

theorem vwLoop_ok {S : α → Prop} (hS : TotalOn S) (area : P → P → P → α) (line : List P) (pt : Nat → P)
    (hpt : ∀ i, i < line.length → idx line i = .ok (pt i))
    (hpt' : ∀ i, i ≤ line.length → idx line (i % line.length) = .ok (pt i))
    (hgood : ∀ x ≤ line.length, ∀ j ≤ line.length, ∀ y ≤ line.length, S (area (pt x) (pt j) (pt y)))
    (pick : Nat → VwHeap α → Nat) (hpick : PopsLeast S pick) (guard2 : Bool) (k : Nat) :
    ∀ (fuel : Nat) (cur : List Nat) (s : VwHeap α × VwLinks α) (d : Nat), 2 ≤ cur.length →
    (∀ i ∈ cur, i ≤ line.length) → Inv S (fun x j y => area (pt x) (pt j) (pt y)) cur s →
    s.1.length + 3 * (cur.length - 2) < fuel →
    ∃ (cur' : List Nat) (links : VwLinks α), vwLoop area line pick guard2 k fuel s d = .ok links ∧
      GreedyDeletes area (fun a b => Scalar.le a b = true) (min (k - d) (deletable guard2 (cur.length - 2)))
        (cur.map pt) (cur'.map pt) ∧
      cur'.Sublist cur ∧ cur'.length + min (k - d) (deletable guard2 (cur.length - 2)) = cur.length ∧
      2 ≤ cur'.length ∧
      cur'.head? = cur.head? ∧ cur'.getLast? = cur.getLast? ∧ vwKeys links = cur'.tail.dropLast := by
  intro fuel
  induction fuel with
  | zero => intro cur s d _ _ _ h; omega
  | succ fuel ih =>
    intro cur s d h2 hcur h hf
    unfold vwLoop
    have hlen := h.length
    by_cases hstop : (s.1.isEmpty || (guard2 && s.2.length == 2) || decide (k ≤ d)) = true
    · rw [if_pos hstop]
      have hm : min (k - d) (deletable guard2 (cur.length - 2)) = 0 := by
        simp only [Bool.or_eq_true, List.isEmpty_iff, Bool.and_eq_true, beq_iff_eq, decide_eq_true_eq] at hstop
        rcases hstop with (hs | ⟨hg, hs⟩) | hs
        · -- an empty heap means that there are no inner nodes
          have : cur.length - 2 = 0 := by
            by_contra hc
            obtain ⟨x, hx⟩ : ∃ x, cur[0]? = some x := ⟨_, List.getElem?_eq_getElem (by omega)⟩
            obtain ⟨j, hj⟩ : ∃ j, cur[0 + 1]? = some j := ⟨_, List.getElem?_eq_getElem (by omega)⟩
            obtain ⟨y, hy⟩ : ∃ y, cur[0 + 2]? = some y := ⟨_, List.getElem?_eq_getElem (by omega)⟩
            have := h.heap x j y ⟨0, hx, hj, hy⟩
            rw [hs] at this
            simp at this
          rw [this]
          simp [deletable]
        · rw [← hlen, hs, hg]
          simp [deletable]
        · omega
      rw [hm]
      exact ⟨cur, s.2, rfl, GreedyDeletes.done _, List.Sublist.refl _, rfl, h2, rfl, rfl, h.vwKeys⟩
    · rw [if_neg hstop]
      simp only [Bool.or_eq_true, List.isEmpty_iff, Bool.and_eq_true, beq_iff_eq, decide_eq_true_eq, not_or, not_and] at hstop
      obtain ⟨⟨hne, hg2⟩, hkd⟩ := hstop
      obtain ⟨e, he, hmin⟩ := hpick fuel s.1 hne h.good
      simp only
      rw [he]
      simp only
      have hem : e ∈ s.1 := List.mem_of_getElem? he
      have hpos := (List.getElem?_eq_some_iff.1 he).1
      have hel : (s.1.eraseIdx (pick fuel s.1)).length = s.1.length - 1 := List.length_eraseIdx_of_lt hpos
      by_cases hex : ∃ x y, Triple cur x e.2 y
      · obtain ⟨x, y, ht⟩ := hex
        have hlk := h.links x e.2 y ht
        rw [hlk]
        simp only
        obtain ⟨m, ha, hi, hc⟩ := ht
        have hSa : S (area (pt x) (pt e.2) (pt y)) := hgood x (hcur x (List.mem_of_getElem? ha)) _
          (hcur _ (List.mem_of_getElem? hi)) y (hcur y (List.mem_of_getElem? hc))
        by_cases hb : Scalar.beq e.1 (area (pt x) (pt e.2) (pt y)) = true
        · rw [if_neg (by simp [hb])]
          obtain ⟨s', hs', hinv, hsl⟩ := vwDelete_ok hS area line pt hpt hpt' hcur h
            (fun x hx j hj y hy => hgood x (hcur x hx) j (hcur j hj) y (hcur y hy)) ha hi hc
            (s.1.eraseIdx (pick fuel s.1)) (fun f hf => List.mem_of_mem_eraseIdx hf) (by
              intro f hf hfi
              rw [List.mem_iff_getElem?] at hf
              obtain ⟨q, hq⟩ := hf
              rw [List.mem_eraseIdx_iff_getElem?]
              refine ⟨q, ?_, hq⟩
              rintro rfl
              rw [he] at hq
              simp only [Option.some_inj] at hq
              exact hfi (by rw [hq]))
          rw [hs']
          simp only [bind, Except.bind]
          have hcl := (List.getElem?_eq_some_iff.1 hc).1
          have hcl' : (cur.eraseIdx (m + 1)).length = cur.length - 1 := List.length_eraseIdx_of_lt (by omega)
          obtain ⟨cur', links, g1, g2, g3, g4, g5, g6, g7, g8⟩ := ih (cur.eraseIdx (m + 1)) s' (d + 1) (by omega)
            (fun i hi => hcur i (List.mem_of_mem_eraseIdx hi)) hinv (by omega)
          have hM : min (k - d) (deletable guard2 (cur.length - 2)) =
              min (k - (d + 1)) (deletable guard2 ((cur.eraseIdx (m + 1)).length - 2)) + 1 := by
            rw [hcl']
            cases hg : guard2
            · simp only [deletable, Bool.false_eq_true, false_and, if_false]; omega
            · have : cur.length - 2 ≠ 2 := by rw [← hlen]; exact fun e => hg2 hg e
              simp only [deletable, true_and]
              split <;> split <;> omega
          refine ⟨cur', links, g1, ?_, g3.trans (List.eraseIdx_sublist _ _), ?_, g5, ?_, ?_, g8⟩
          · rw [hM, hcl']
            rw [hcl', erase3 ha hi hc] at g2
            conv => arg 4; rw [split3 ha hi hc]
            simp only [List.map_append, List.map_cons] at g2 ⊢
            have hme := hmin
            refine GreedyDeletes.step _ _ _ _ _ _ _ ?_ ?_
            · intro pre a' b' c' post heq
              -- the other triple in terms of nodes
              have hmap : cur.map pt = pre ++ a' :: b' :: c' :: post := by
                rw [← heq]
                conv_lhs => rw [split3 ha hi hc]
                simp only [List.map_append, List.map_cons]
              have hp1 : (cur.map pt)[pre.length]? = some a' := by rw [hmap]; simp
              have hp2 : (cur.map pt)[pre.length + 1]? = some b' := by rw [hmap]; simp
              have hp3 : (cur.map pt)[pre.length + 2]? = some c' := by rw [hmap]; simp
              rw [List.getElem?_map, Option.map_eq_some_iff] at hp1 hp2 hp3
              obtain ⟨x', hx', rfl⟩ := hp1
              obtain ⟨j', hj', rfl⟩ := hp2
              obtain ⟨y', hy', rfl⟩ := hp3
              have hh := h.heap x' j' y' ⟨pre.length, hx', hj', hy'⟩
              have hle := hmin _ hh
              exact hS.trans _ _ _ hSa (h.good e hem) (h.good _ hh) (hS.beq_le _ _ (h.good e hem) hSa hb).2 hle
            · exact g2
          · rw [hM]; omega
          · rw [g6, List.head?_eq_getElem?, List.head?_eq_getElem?, List.getElem?_eraseIdx, if_pos (by omega)]
          · rw [g7, List.getLast?_eq_getElem?, List.getLast?_eq_getElem?, List.getElem?_eraseIdx, hcl', if_neg (by omega)]
            rw [show cur.length - 1 - 1 + 1 = cur.length - 1 by omega]
        · rw [if_pos (by simp [hb])]
          have hst : ∀ x' y', Triple cur x' e.2 y' → e.1 ≠ area (pt x') (pt e.2) (pt y') := by
            intro x' y' ht' heq
            obtain ⟨rfl, rfl⟩ := triple_unique h.sorted ⟨m, ha, hi, hc⟩ ht'
            apply hb
            rw [heq]
            exact hS.beq_refl _ hSa
          obtain ⟨cur', links, g⟩ := ih cur (s.1.eraseIdx (pick fuel s.1), s.2) d h2 hcur (h.stale he hst) (by
            simp only [hel]; omega)
          exact ⟨cur', links, g⟩
      · rw [linkGet_none _ _ (fun hk => hex ((h.keys _).1 hk))]
        simp only
        obtain ⟨cur', links, g⟩ := ih cur (s.1.eraseIdx (pick fuel s.1), s.2) d h2 hcur
          (h.stale he (fun x y ht => absurd ⟨x, y, ht⟩ hex)) (by simp only [hel]; omega)
        exact ⟨cur', links, g⟩

/-! ## the initial state -/

theorem range_triple (n x j y : Nat) : Triple (List.range n) x j y ↔ j = x + 1 ∧ y = x + 2 ∧ x + 2 < n := by
  constructor
  · rintro ⟨k, h1, h2, h3⟩
    obtain ⟨g1, e1⟩ := List.getElem?_eq_some_iff.1 h1
    obtain ⟨g2, e2⟩ := List.getElem?_eq_some_iff.1 h2
    obtain ⟨g3, e3⟩ := List.getElem?_eq_some_iff.1 h3
    simp only [List.getElem_range, List.length_range] at e1 e2 e3 g3
    omega
  · rintro ⟨rfl, rfl, h⟩
    exact ⟨x, List.getElem?_range (by omega), List.getElem?_range (by omega), List.getElem?_range (by omega)⟩

/-- linking node `t + 1` -/
theorem Inv.link {S : α → Prop} {ar : Nat → Nat → Nat → α} {t : Nat} {s : VwHeap α × VwLinks α}
    (h : Inv S ar (List.range (t + 2)) s) (hSa : S (ar t (t + 1) (t + 2))) :
    Inv S ar (List.range (t + 3)) ((ar t (t + 1) (t + 2), t + 1) :: s.1,
      linkInsert s.2 (t + 1) (t, t + 2, ar t (t + 1) (t + 2))) := by
  refine ⟨List.pairwise_lt_range, ?_, ?_, nodup_insert _ _ _ h.nodup, ?_, ?_⟩
  · intro x j y ht
    obtain ⟨rfl, rfl, hlt⟩ := (range_triple _ _ _ _).1 ht
    simp only [linkGet_insert]
    by_cases hx : x = t
    · subst hx; rw [if_pos rfl]
    · rw [if_neg (by omega)]
      exact h.links _ _ _ ((range_triple _ _ _ _).2 ⟨rfl, rfl, by omega⟩)
  · intro j
    simp only [mem_keys_insert, h.keys, range_triple]
    constructor
    · rintro (rfl | ⟨x, y, rfl, rfl, h1⟩)
      · exact ⟨t, t + 2, rfl, rfl, by omega⟩
      · exact ⟨x, x + 2, rfl, rfl, by omega⟩
    · rintro ⟨x, y, rfl, rfl, h1⟩
      by_cases hx : x = t
      · left; omega
      · right; exact ⟨x, x + 2, rfl, rfl, by omega⟩
  · intro x j y ht
    obtain ⟨rfl, rfl, hlt⟩ := (range_triple _ _ _ _).1 ht
    by_cases hx : x = t
    · subst hx; exact List.mem_cons_self
    · exact List.mem_cons_of_mem _ (h.heap _ _ _ ((range_triple _ _ _ _).2 ⟨rfl, rfl, by omega⟩))
  · intro e he
    rcases List.mem_cons.1 he with rfl | he
    · exact hSa
    · exact h.good e he

theorem vwInit_ok {S : α → Prop} (hS : TotalOn S) (area : P → P → P → α) (line : List P) (pt : Nat → P)
    (hpt : ∀ i, i < line.length → idx line i = .ok (pt i))
    (hgood : ∀ x ≤ line.length, ∀ j ≤ line.length, ∀ y ≤ line.length, S (area (pt x) (pt j) (pt y))) :
    ∀ t, t + 2 ≤ line.length → ∃ s, (List.range t).foldlM (vwInitStep area line) ([], []) = .ok s ∧
      Inv S (fun x j y => area (pt x) (pt j) (pt y)) (List.range (t + 2)) s ∧ s.1.length = t := by
  intro t
  induction t with
  | zero =>
    intro _
    refine ⟨([], []), rfl, ⟨List.pairwise_lt_range, ?_, ?_, by simp, ?_, by simp⟩, rfl⟩
    · intro x j y ht; have := (range_triple _ _ _ _).1 ht; omega
    · intro j
      simp only [List.map_nil, List.not_mem_nil, false_iff]
      rintro ⟨x, y, ht⟩
      have := (range_triple _ _ _ _).1 ht; omega
    · intro x j y ht; have := (range_triple _ _ _ _).1 ht; omega
  | succ t ih =>
    intro hl
    obtain ⟨s, h1, h2, h3⟩ := ih (by omega)
    rw [List.range_succ, List.foldlM_append, h1]
    have hSa := hgood t (by omega) (t + 1) (by omega) (t + 2) (by omega)
    refine ⟨_, ?_, h2.link hSa, by simp [h3]⟩
    simp only [bind, Except.bind, List.foldlM_cons, List.foldlM_nil, vwInitStep]
    rw [hpt t (by omega), hpt (t + 1) (by omega), hpt (t + 2) (by omega)]
    simp only
    rw [vwLink_ok hS h2.good hSa]
    rfl

/-- the loop from a state with all nodes below `c + 2` (open lines: `c + 2` is the length, closed lines: the
length plus one), and the points it leaves -/
theorem vw_core {S : α → Prop} (hS : TotalOn S) (area : P → P → P → α) (line : List P) (hn : 3 ≤ line.length)
    (hgood : ∀ x ∈ line, ∀ j ∈ line, ∀ y ∈ line, S (area x j y))
    (pick : Nat → VwHeap α → Nat) (hpick : PopsLeast S pick) (guard2 : Bool) (k fuel : Nat)
    (hf : 4 * line.length < fuel) (conn : Bool) :
    ∃ (s s' : VwHeap α × VwLinks α) (links : VwLinks α) (cur : List Nat) (pt : Nat → P),
      vwInit area line = .ok s ∧ (if conn then vwConnect area line s else .ok s) = .ok s' ∧
      vwLoop area line pick guard2 k fuel s' 0 = .ok links ∧
      (∀ i, i < line.length → idx line i = .ok (pt i)) ∧ (∀ h : 0 < line.length, pt line.length = line[0]) ∧
      (List.range line.length).map pt = line ∧
      GreedyDeletes area (fun a b => Scalar.le a b = true)
        (min k (deletable guard2 (line.length - 2 + (if conn then 1 else 0))))
        ((List.range (line.length + if conn then 1 else 0)).map pt) (cur.map pt) ∧
      cur.Sublist (List.range (line.length + if conn then 1 else 0)) ∧
      cur.length + min k (deletable guard2 (line.length - 2 + (if conn then 1 else 0))) =
        line.length + (if conn then 1 else 0) ∧
      2 ≤ cur.length ∧ cur.head? = some 0 ∧
      cur.getLast? = some (line.length - 1 + if conn then 1 else 0) ∧ vwKeys links = cur.tail.dropLast := by
  obtain ⟨pt, hptd⟩ : ∃ pt : Nat → P, ∀ i, pt i = line[i % line.length]'(Nat.mod_lt _ (by omega)) := ⟨_, fun _ => rfl⟩
  have hidx : ∀ i (h : i < line.length), idx line i = .ok line[i] := by
    intro i h; unfold idx; rw [List.getElem?_eq_getElem h]
  have hpt' : ∀ i, idx line (i % line.length) = .ok (pt i) := by
    intro i; rw [hptd, hidx _ (Nat.mod_lt _ (by omega))]
  have hpt : ∀ i, i < line.length → idx line i = .ok (pt i) := by
    intro i h
    have := hpt' i
    rwa [Nat.mod_eq_of_lt h] at this
  have hmem : ∀ i, pt i ∈ line := fun i => by rw [hptd]; exact List.getElem_mem _
  have hg : ∀ x ≤ line.length, ∀ j ≤ line.length, ∀ y ≤ line.length, S (area (pt x) (pt j) (pt y)) :=
    fun x _ j _ y _ => hgood _ (hmem x) _ (hmem j) _ (hmem y)
  have hptn : ∀ h : 0 < line.length, pt line.length = line[0] := by
    intro h; rw [hptd]; simp
  have hmap : (List.range line.length).map pt = line := by
    apply List.ext_getElem (by simp)
    intro i h1 h2
    simp only [List.getElem_map, List.getElem_range, hptd, Nat.mod_eq_of_lt h2]
  obtain ⟨s, hs1, hs2, hs3⟩ := vwInit_ok hS area line pt hpt hg (line.length - 2) (by omega)
  rw [show line.length - 2 + 2 = line.length by omega] at hs2
  have hinit : vwInit area line = .ok s := hs1
  cases conn with
  | false =>
    simp only [Bool.false_eq_true, if_false, Nat.add_zero]
    obtain ⟨cur, links, g1, g2, g3, g4, g5, g6, g7, g8⟩ := vwLoop_ok hS area line pt hpt (fun i _ => hpt' i) hg pick hpick
      guard2 k fuel (List.range line.length) s 0 (by simp; omega) (fun i hi => by simp at hi; omega) hs2 (by simp; omega)
    simp only [List.length_range, Nat.sub_zero] at g2 g4
    refine ⟨s, s, links, cur, pt, hinit, rfl, g1, hpt, hptn, hmap, g2, g3, g4, g5, ?_, ?_, g8⟩
    · rw [g6, List.head?_range, if_neg (by omega)]
    · rw [g7, List.getLast?_range, if_neg (by omega)]
  | true =>
    simp only [if_true]
    have hSa := hg (line.length - 2) (by omega) (line.length - 1) (by omega) line.length (by omega)
    obtain ⟨n, hn'⟩ : ∃ n, line.length = n + 2 := ⟨line.length - 2, by omega⟩
    have hs2' : Inv S (fun x j y => area (pt x) (pt j) (pt y)) (List.range (n + 2)) s := by rw [← hn']; exact hs2
    have hl := hs2'.link (hg n (by omega) (n + 1) (by omega) (n + 2) (by omega))
    rw [show n + 3 = line.length + 1 by omega] at hl
    have hconn : vwConnect area line s = .ok ((area (pt n) (pt (n + 1)) (pt (n + 2)), n + 1) :: s.1,
        linkInsert s.2 (n + 1) (n, n + 2, area (pt n) (pt (n + 1)) (pt (n + 2)))) := by
      unfold vwConnect
      have e0 : idx line 0 = .ok (pt (n + 2)) := by
        have := hpt' (n + 2); rw [hn', Nat.mod_self] at this; exact this
      rw [hn', show n + 2 - 2 = n by omega, show n + 2 - 1 = n + 1 by omega, hpt n (by omega), hpt (n + 1) (by omega), e0]
      simp only [bind, Except.bind]
      exact vwLink_ok hS hs2.good (hg n (by omega) (n + 1) (by omega) (n + 2) (by omega)) _ _ _ _
    obtain ⟨cur, links, g1, g2, g3, g4, g5, g6, g7, g8⟩ := vwLoop_ok hS area line pt hpt (fun i _ => hpt' i) hg pick hpick
      guard2 k fuel (List.range (line.length + 1)) _ 0 (by simp; omega) (fun i hi => by simp at hi; omega) hl
      (by simp; omega)
    simp only [List.length_range, Nat.sub_zero] at g2 g4
    rw [show line.length + 1 - 2 = line.length - 2 + 1 by omega] at g2 g4
    refine ⟨s, _, links, cur, pt, hinit, hconn, g1, hpt, hptn, hmap, g2, g3, g4, g5, ?_, ?_, g8⟩
    · rw [g6, List.head?_range, if_neg (by omega)]
    · rw [g7, List.getLast?_range, if_neg (by omega), show line.length - 1 + 1 = line.length + 1 - 1 by omega]

end
end Verif.Vw
