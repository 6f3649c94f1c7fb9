import Verif.Props.Shape
import Mathlib.Data.List.Rotate
import Mathlib.Data.List.Perm.Subperm
/-!
# The division into shapes is determined by the edges
-/
namespace Verif.Proofs.ShapeUnique
open Verif.Spec.Shape

/-- what C02–C04 say about a division of the edges of `indices` -/
structure Divides (indices : List Nat) (shapes : List (List Nat)) : Prop where
  edge : ∀ s ∈ shapes, ∀ w ∈ windows s, Edge indices w.1 w.2
  once : ∀ u v, Edge indices u v → occurrences shapes u v = 1
  split : ∀ s ∈ shapes, ∃ first inner last, s = first :: (inner ++ [last]) ∧
      (∀ x ∈ inner, TwoNeighbours indices x) ∧ inner.Nodup ∧ first ∉ inner ∧
      ((¬ TwoNeighbours indices first ∧ ¬ TwoNeighbours indices last) ∨ first = last)

theorem edge_symm {l : List Nat} {u v : Nat} (h : Edge l u v) : Edge l v u := h.symm

theorem mem_windows {s : List Nat} {u v : Nat} :
    (u, v) ∈ windows s ↔ ∃ i, s[i]? = some u ∧ s[i + 1]? = some v := by
  unfold windows
  rw [List.mem_iff_getElem?]
  constructor
  · rintro ⟨i, hi⟩
    rw [List.getElem?_zip_eq_some, List.getElem?_tail] at hi
    exact ⟨i, hi.1, hi.2⟩
  · rintro ⟨i, h1, h2⟩
    refine ⟨i, ?_⟩
    rw [List.getElem?_zip_eq_some, List.getElem?_tail]
    exact ⟨h1, h2⟩

theorem windows_get {s : List Nat} {i : Nat} {u v : Nat} (h1 : s[i]? = some u) (h2 : s[i + 1]? = some v) :
    (windows s)[i]? = some (u, v) := by
  unfold windows
  rw [List.getElem?_zip_eq_some, List.getElem?_tail]
  exact ⟨h1, h2⟩

/-- two entries that satisfy the test are counted -/
theorem two_le_countP {A : Type} {p : A → Bool} : ∀ {l : List A} {i j : Nat} {x y : A}, i < j → l[i]? = some x → l[j]? = some y →
    p x = true → p y = true → 2 ≤ l.countP p
  | [], i, j, x, y, _, h, _, _, _ => by simp at h
  | z :: l, 0, j + 1, x, y, _, h1, h2, p1, p2 => by
    simp at h1 h2
    subst h1
    rw [List.countP_cons_of_pos p1]
    have : 0 < l.countP p := List.countP_pos_iff.2 ⟨y, List.mem_of_getElem? h2, p2⟩
    omega
  | z :: l, i + 1, j + 1, x, y, h, h1, h2, p1, p2 => by
    simp at h1 h2
    have := two_le_countP (l := l) (by omega) h1 h2 p1 p2
    rw [List.countP_cons]
    omega

theorem sum_ge {l : List (List Nat)} {f : List Nat → Nat} {s : List Nat} (h : s ∈ l) : f s ≤ (l.map f).sum := by
  induction l with
  | nil => simp at h
  | cons a l ih =>
    simp only [List.map_cons, List.sum_cons]
    rcases List.mem_cons.1 h with rfl | h
    · omega
    · have := ih h; omega

theorem sum_ge_two {l : List (List Nat)} {f : List Nat → Nat} : ∀ {i j : Nat} {s t : List Nat}, i < j → l[i]? = some s → l[j]? = some t →
    f s + f t ≤ (l.map f).sum := by
  induction l with
  | nil => intro i j s t _ h; simp at h
  | cons a l ih =>
    intro i j s t hij h1 h2
    obtain ⟨j, rfl⟩ : ∃ k, j = k + 1 := ⟨j - 1, by omega⟩
    simp only [List.getElem?_cons_succ] at h2
    simp only [List.map_cons, List.sum_cons]
    cases i with
    | zero =>
      simp at h1
      subst h1
      have := sum_ge (f := f) (List.mem_of_getElem? h2)
      omega
    | succ i =>
      simp only [List.getElem?_cons_succ] at h1
      have := ih (i := i) (j := j) (by omega) h1 h2
      omega

theorem isEdge_iff {u v : Nat} {w : Nat × Nat} : isEdge u v w = true ↔ w = (u, v) ∨ w = (v, u) := by
  simp [isEdge]

variable {ind : List Nat} {shapes : List (List Nat)}

/-- an edge is in one shape only -/
theorem Divides.one_shape (D : Divides ind shapes) {i j : Nat} {s t : List Nat} (hs : shapes[i]? = some s) (ht : shapes[j]? = some t)
    {w x : Nat × Nat} (hw : w ∈ windows s) (hx : x ∈ windows t) (h : x = w ∨ x = (w.2, w.1)) : i = j := by
  by_contra hne
  have e := D.once _ _ (D.edge s (List.mem_of_getElem? hs) w hw)
  have c1 : 1 ≤ (windows s).countP (isEdge w.1 w.2) := List.countP_pos_iff.2 ⟨w, hw, isEdge_iff.2 (Or.inl rfl)⟩
  have c2 : 1 ≤ (windows t).countP (isEdge w.1 w.2) := List.countP_pos_iff.2 ⟨x, hx, isEdge_iff.2 h⟩
  unfold occurrences at e
  rcases Nat.lt_or_gt_of_ne hne with hlt | hlt
  · have := sum_ge_two (f := fun s => (windows s).countP (isEdge w.1 w.2)) hlt hs ht
    omega
  · have := sum_ge_two (f := fun s => (windows s).countP (isEdge w.1 w.2)) hlt ht hs
    omega

/-- an edge is in one place of a shape only -/
theorem Divides.one_place (D : Divides ind shapes) {s : List Nat} (hs : s ∈ shapes) {i j : Nat} {w x : Nat × Nat}
    (hw : (windows s)[i]? = some w) (hx : (windows s)[j]? = some x) (h : x = w ∨ x = (w.2, w.1)) : i = j := by
  by_contra hne
  have e := D.once _ _ (D.edge s hs w (List.mem_of_getElem? hw))
  have c := sum_ge (f := fun s => (windows s).countP (isEdge w.1 w.2)) hs
  unfold occurrences at e
  rcases Nat.lt_or_gt_of_ne hne with hlt | hlt
  · have := two_le_countP hlt hw hx (isEdge_iff.2 (Or.inl rfl)) (isEdge_iff.2 h)
    omega
  · have := two_le_countP hlt hx hw (isEdge_iff.2 h) (isEdge_iff.2 (Or.inl rfl))
    omega

/-- a shape does not turn back -/
theorem Divides.no_turn (D : Divides ind shapes) {s : List Nat} (hs : s ∈ shapes) {i u v w : Nat}
    (h0 : s[i]? = some u) (h1 : s[i + 1]? = some v) (h2 : s[i + 2]? = some w) : u ≠ w := by
  rintro rfl
  have := D.one_place hs (windows_get h0 h1) (windows_get h1 h2) (Or.inr rfl)
  omega

theorem Divides.consecutive (D : Divides ind shapes) {s : List Nat} (hs : s ∈ shapes) {i u v : Nat}
    (h0 : s[i]? = some u) (h1 : s[i + 1]? = some v) : Edge ind u v :=
  D.edge s hs (u, v) (List.mem_of_getElem? (windows_get h0 h1))

/-- the neighbour of `v` that is not `u` -/
theorem two_other {u v w w' : Nat} (h : TwoNeighbours ind v) (hu : Edge ind v u) (hw : Edge ind v w) (hw' : Edge ind v w')
    (n : u ≠ w) (n' : u ≠ w') : w = w' := by
  obtain ⟨a, b, hab, h⟩ := h
  rcases (h u).1 hu with rfl | rfl <;> rcases (h w).1 hw with rfl | rfl <;> rcases (h w').1 hw' with rfl | rfl <;>
    first | rfl | exact absurd rfl n | exact absurd rfl n'

/-- every edge is in a shape -/
theorem Divides.find (D : Divides ind shapes) {u v : Nat} (h : Edge ind u v) :
    ∃ s ∈ shapes, (u, v) ∈ windows s ∨ (v, u) ∈ windows s := by
  have e := D.once u v h
  unfold occurrences at e
  by_contra hcon
  push Not at hcon
  have : (shapes.map fun s => (windows s).countP (isEdge u v)).sum = 0 := by
    have all : ∀ l : List Nat, (∀ x ∈ l, x = 0) → l.sum = 0 := by
      intro l
      induction l with
      | nil => intro _; rfl
      | cons a l ih =>
        intro h
        rw [List.sum_cons, h a (by simp), ih (fun x hx => h x (by simp [hx]))]
    apply all
    intro x hx
    obtain ⟨s, hs, rfl⟩ := List.mem_map.1 hx
    rw [List.countP_eq_zero]
    intro w hw
    rw [isEdge_iff]
    rintro (rfl | rfl)
    · exact (hcon s hs).1 hw
    · exact (hcon s hs).2 hw
  omega

/-- a list that runs through the edges like a shape of a division does, in one of the two directions -/
structure Run (ind : List Nat) (s : List Nat) : Prop where
  long : 2 ≤ s.length
  edge : ∀ i u v, s[i]? = some u → s[i + 1]? = some v → Edge ind u v
  turn : ∀ i u v w, s[i]? = some u → s[i + 1]? = some v → s[i + 2]? = some w → u ≠ w
  inner : ∀ i u, 0 < i → i + 1 < s.length → s[i]? = some u → TwoNeighbours ind u
  apart : ∀ i j u, 0 < i → i + 1 < s.length → s[i]? = some u → s[j]? = some u → i = j
  ends : (∀ u, s[0]? = some u → ¬ TwoNeighbours ind u) ∧ (∀ u, s[s.length - 1]? = some u → ¬ TwoNeighbours ind u) ∨
    s[0]? = s[s.length - 1]?

theorem Divides.run (D : Divides ind shapes) {s : List Nat} (hs : s ∈ shapes) : Run ind s := by
  obtain ⟨f, m, l, rfl, h1, h2, h3, h4⟩ := D.split s hs
  have hlen : (f :: (m ++ [l])).length = m.length + 2 := by simp
  have hin : ∀ i u, 0 < i → i + 1 < (f :: (m ++ [l])).length → (f :: (m ++ [l]))[i]? = some u → m[i - 1]? = some u := by
    intro i u h0 hi hu
    obtain ⟨i, rfl⟩ : ∃ k, i = k + 1 := ⟨i - 1, by omega⟩
    rw [List.getElem?_cons_succ, List.getElem?_append_left (by omega)] at hu
    exact hu
  have hlast : (f :: (m ++ [l]))[(f :: (m ++ [l])).length - 1]? = some l := by
    rw [hlen, show m.length + 2 - 1 = m.length + 1 from rfl, List.getElem?_cons_succ, List.getElem?_append_right (Nat.le_refl _)]
    simp
  have hl : l ∉ m := by
    rcases h4 with ⟨-, h4⟩ | rfl
    · exact fun h => h4 (h1 l h)
    · exact h3
  refine ⟨by omega, fun i u v a b => D.consecutive hs a b, fun i u v w a b c => D.no_turn hs a b c,
    fun i u h0 hi hu => h1 u (List.mem_of_getElem? (hin i u h0 hi hu)), ?_, ?_⟩
  · intro i j u h0 hi hu hj
    have hu' := hin i u h0 hi hu
    have hj' : j < (f :: (m ++ [l])).length := (List.getElem?_eq_some_iff.1 hj).1
    by_cases j0 : j = 0
    · subst j0
      simp at hj
      subst hj
      exact absurd (List.mem_of_getElem? hu') h3
    by_cases jl : j + 1 < (f :: (m ++ [l])).length
    · have hj'' := hin j u (by omega) jl hj
      have := (List.getElem?_inj (by omega) h2).1 (hu'.trans hj''.symm)
      omega
    · have : j = (f :: (m ++ [l])).length - 1 := by omega
      rw [this, hlast] at hj
      cases hj
      exact absurd (List.mem_of_getElem? hu') hl
  · rcases h4 with ⟨h4, h5⟩ | rfl
    · left
      refine ⟨fun u hu => ?_, fun u hu => ?_⟩
      · simp at hu; subst hu; exact h4
      · rw [hlast] at hu; cases hu; exact h5
    · right
      rw [hlast]; simp

theorem rev_get {s : List Nat} {i u : Nat} (h : s.reverse[i]? = some u) : i < s.length ∧ s[s.length - 1 - i]? = some u := by
  have hi : i < s.length := by simpa using (List.getElem?_eq_some_iff.1 h).1
  rw [List.getElem?_reverse hi] at h
  exact ⟨hi, h⟩

theorem Run.reverse {s : List Nat} (R : Run ind s) : Run ind s.reverse := by
  refine ⟨by simpa using R.long, ?_, ?_, ?_, ?_, ?_⟩
  · intro i u v hu hv
    obtain ⟨a1, a2⟩ := rev_get hu
    obtain ⟨b1, b2⟩ := rev_get hv
    refine edge_symm (R.edge (s.length - 1 - (i + 1)) v u b2 ?_)
    rw [show s.length - 1 - (i + 1) + 1 = s.length - 1 - i by omega]; exact a2
  · intro i u v w hu hv hw
    obtain ⟨a1, a2⟩ := rev_get hu
    obtain ⟨b1, b2⟩ := rev_get hv
    obtain ⟨c1, c2⟩ := rev_get hw
    refine (R.turn (s.length - 1 - (i + 2)) w v u c2 ?_ ?_).symm
    · rw [show s.length - 1 - (i + 2) + 1 = s.length - 1 - (i + 1) by omega]; exact b2
    · rw [show s.length - 1 - (i + 2) + 2 = s.length - 1 - i by omega]; exact a2
  · intro i u h0 hi hu
    obtain ⟨a1, a2⟩ := rev_get hu
    simp at hi
    exact R.inner _ u (by omega) (by omega) a2
  · intro i j u h0 hi hu hj
    obtain ⟨a1, a2⟩ := rev_get hu
    obtain ⟨b1, b2⟩ := rev_get hj
    simp at hi
    have := R.apart _ _ u (by omega) (by omega) a2 b2
    omega
  · have hl := R.long
    have e0 : s.reverse[0]? = s[s.length - 1]? := by rw [List.getElem?_reverse (by omega)]; rfl
    have e1 : s.reverse[s.reverse.length - 1]? = s[0]? := by
      rw [List.length_reverse, List.getElem?_reverse (by omega)]
      congr 1; omega
    rw [e0, e1]
    rcases R.ends with ⟨h1, h2⟩ | h
    · exact Or.inl ⟨h2, h1⟩
    · exact Or.inr h.symm

/-- runs that start in the same way and not in a vertex with two neighbours are equal -/
theorem Run.eq_of_start {s t : List Nat} (R : Run ind s) (Q : Run ind t) {f g : Nat} (hf : ¬ TwoNeighbours ind f)
    (s0 : s[0]? = some f) (s1 : s[1]? = some g) (t0 : t[0]? = some f) (t1 : t[1]? = some g) : s = t := by
  have ends : ∀ {s : List Nat}, Run ind s → s[0]? = some f → ∀ u, s[s.length - 1]? = some u → ¬ TwoNeighbours ind u := by
    intro s R s0 u hu
    rcases R.ends with ⟨-, h⟩ | h
    · exact h u hu
    · rw [s0, hu] at h; cases h; exact hf
  have step : ∀ i, i + 1 < s.length → i + 1 < t.length → s[i]? = t[i]? ∧ s[i + 1]? = t[i + 1]? := by
    intro i
    induction i with
    | zero => intro _ _; exact ⟨s0.trans t0.symm, s1.trans t1.symm⟩
    | succ i ih =>
      intro hs ht
      obtain ⟨a, b⟩ := ih (by omega) (by omega)
      refine ⟨b, ?_⟩
      have eu := List.getElem?_eq_getElem (show i < s.length by omega)
      have ev := List.getElem?_eq_getElem (show i + 1 < s.length by omega)
      have ew := List.getElem?_eq_getElem (show i + 2 < s.length by omega)
      have ew' := List.getElem?_eq_getElem (show i + 2 < t.length by omega)
      rw [show i + 1 + 1 = i + 2 from rfl, ew, ew']
      congr 1
      exact two_other (R.inner _ _ (by omega) (by omega) ev) (edge_symm (R.edge i _ _ eu ev)) (R.edge _ _ _ ev ew)
        (Q.edge _ _ _ (b ▸ ev) ew') (R.turn _ _ _ _ eu ev ew) (Q.turn _ _ _ _ (a ▸ eu) (b ▸ ev) ew')
  have hs := R.long
  have ht := Q.long
  have shorter : ∀ {s t : List Nat}, Run ind s → Run ind t → s[0]? = some f →
      (∀ i, i + 1 < s.length → i + 1 < t.length → s[i]? = t[i]? ∧ s[i + 1]? = t[i + 1]?) → t.length ≤ s.length := by
    intro s t R Q s0 st
    by_contra hlt
    have hs := R.long
    have e := List.getElem?_eq_getElem (show s.length - 1 < s.length by omega)
    have h1 := ends R s0 _ e
    have h2 := (st (s.length - 2) (by omega) (by omega)).2
    rw [show s.length - 2 + 1 = s.length - 1 by omega, e] at h2
    exact h1 (Q.inner (s.length - 1) _ (by omega) (by omega) h2.symm)
  have hl1 := shorter R Q s0 step
  have hl2 := shorter Q R t0 (fun i a b => ⟨(step i b a).1.symm, (step i b a).2.symm⟩)
  apply List.ext_getElem? 
  intro i
  by_cases hi : i < s.length
  · cases i with
    | zero => exact s0.trans t0.symm
    | succ i => exact (step i hi (by omega)).2
  · rw [List.getElem?_eq_none (by omega), List.getElem?_eq_none (by omega)]

/-- a run that is a loop through vertices with two neighbours: the other neighbour of the first vertex is not the
second one -/
theorem Run.wrap {s : List Nat} (R : Run ind s) (hns : NoSelfEdge ind) {f u v : Nat} (s0 : s[0]? = some f)
    (sl : s[s.length - 1]? = some f) (s1 : s[1]? = some u) (s2 : s[s.length - 2]? = some v) : 3 < s.length ∧ u ≠ v := by
  have hl := R.long
  have h2 : s.length ≠ 2 := by
    intro e
    rw [e] at sl
    exact hns f (R.edge 0 f f s0 sl)
  have h3 : s.length ≠ 3 := by
    intro e
    rw [e] at sl
    exact R.turn 0 f u f s0 s1 sl rfl
  refine ⟨by omega, ?_⟩
  rintro rfl
  have := R.apart 1 (s.length - 2) u (by omega) (by omega) s1 s2
  omega

/-- walking round a loop -/
structure Cycle (ind : List Nat) (c : List Nat) : Prop where
  nodup : c.Nodup
  long : 3 ≤ c.length
  two : ∀ u ∈ c, TwoNeighbours ind u
  edge : ∀ k u v, c[k % c.length]? = some u → c[(k + 1) % c.length]? = some v → Edge ind u v
  turn : ∀ k u v, c[k % c.length]? = some u → c[(k + 2) % c.length]? = some v → u ≠ v

theorem Run.cycle {s : List Nat} (R : Run ind s) (hns : NoSelfEdge ind) {f : Nat} (s0 : s[0]? = some f)
    (hf : TwoNeighbours ind f) : ∃ c, s = closeLoop c ∧ Cycle ind c := by
  have hl := R.long
  have sl : s[s.length - 1]? = some f := by
    rcases R.ends with ⟨h, -⟩ | h
    · exact absurd hf (h f s0)
    · rw [← h]; exact s0
  have e1 := List.getElem?_eq_getElem (show 1 < s.length by omega)
  have e2 := List.getElem?_eq_getElem (show s.length - 2 < s.length by omega)
  obtain ⟨h4, hw⟩ := R.wrap hns s0 sl e1 e2
  have hlen : s.dropLast.length = s.length - 1 := List.length_dropLast
  have get : ∀ i, i < s.length - 1 → s.dropLast[i]? = s[i]? := by
    intro i hi
    rw [List.getElem?_dropLast, if_pos hi]
  have hclose : s = closeLoop s.dropLast := by
    unfold closeLoop
    have : s.dropLast.head? = some f := by
      rw [List.head?_eq_getElem?, get 0 (by omega), s0]
    rw [this]
    apply List.ext_getElem?
    intro i
    by_cases hi : i < s.length - 1
    · rw [List.getElem?_append_left (by omega), get i hi]
    · rw [List.getElem?_append_right (by omega), hlen]
      by_cases hi' : i = s.length - 1
      · subst hi'; rw [sl]; simp
      · rw [List.getElem?_eq_none (by omega), List.getElem?_eq_none (by simp; omega)]
  refine ⟨s.dropLast, hclose, ?_, by omega, ?_, ?_, ?_⟩
  · rw [List.nodup_iff_getElem?_ne_getElem?]
    intro i j hij hj
    rw [hlen] at hj
    rw [get i (by omega), get j (by omega)]
    intro h
    have ej := List.getElem?_eq_getElem (show j < s.length by omega)
    have := R.apart j i _ (by omega) (by omega) ej (h.trans ej)
    omega
  · intro u hu
    obtain ⟨i, hi⟩ := List.mem_iff_getElem?.1 hu
    have hi' := (List.getElem?_eq_some_iff.1 hi).1
    rw [hlen] at hi'
    rw [get i hi'] at hi
    by_cases h0 : i = 0
    · subst h0; rw [s0] at hi; cases hi; exact hf
    · exact R.inner i u (by omega) (by omega) hi
  · intro k u v hu hv
    rw [hlen] at hu hv
    have hk := Nat.mod_lt k (show 0 < s.length - 1 by omega)
    rw [get _ hk] at hu
    rw [get _ (Nat.mod_lt _ (by omega))] at hv
    by_cases hlast : k % (s.length - 1) + 1 = s.length - 1
    · have : (k + 1) % (s.length - 1) = 0 := by
        rw [Nat.add_mod, Nat.mod_eq_of_lt (show 1 < s.length - 1 by omega), hlast, Nat.mod_self]
      rw [this] at hv
      rw [s0] at hv; cases hv
      exact R.edge _ u f hu (by rw [hlast]; exact sl)
    · have : (k + 1) % (s.length - 1) = k % (s.length - 1) + 1 := by
        rw [Nat.add_mod, Nat.mod_eq_of_lt (show 1 < s.length - 1 by omega), Nat.mod_eq_of_lt (by omega)]
      rw [this] at hv
      exact R.edge _ u v hu hv
  · intro k u v hu hv
    rw [hlen] at hu hv
    have hk := Nat.mod_lt k (show 0 < s.length - 1 by omega)
    rw [get _ hk] at hu
    rw [get _ (Nat.mod_lt _ (by omega))] at hv
    by_cases hlast : k % (s.length - 1) + 1 = s.length - 1
    · have : (k + 2) % (s.length - 1) = 1 := by
        rw [Nat.add_mod, Nat.mod_eq_of_lt (show 2 < s.length - 1 by omega),
          show k % (s.length - 1) + 2 = s.length - 1 + 1 by omega, Nat.add_mod_left, Nat.mod_eq_of_lt (by omega)]
      rw [this] at hv
      rw [show k % (s.length - 1) = s.length - 2 by omega] at hu
      rw [e1] at hv; rw [e2] at hu
      cases hv; cases hu
      exact hw.symm
    by_cases hlast2 : k % (s.length - 1) + 2 = s.length - 1
    · have : (k + 2) % (s.length - 1) = 0 := by
        rw [Nat.add_mod, Nat.mod_eq_of_lt (show 2 < s.length - 1 by omega), hlast2, Nat.mod_self]
      rw [this] at hv
      rw [s0] at hv; cases hv
      rintro rfl
      by_cases h0 : k % (s.length - 1) = 0
      · omega
      · have := R.apart _ 0 _ (by omega) (by omega) hu s0
        omega
    · have : (k + 2) % (s.length - 1) = k % (s.length - 1) + 2 := by
        rw [Nat.add_mod, Nat.mod_eq_of_lt (show 2 < s.length - 1 by omega), Nat.mod_eq_of_lt (by omega)]
      rw [this] at hv
      have e := List.getElem?_eq_getElem (show k % (s.length - 1) + 1 < s.length by omega)
      exact R.turn _ u _ v hu e hv

/-- two loops that go through an edge in the same direction are rotations of each other -/
theorem Cycle.rotation {c d : List Nat} (C : Cycle ind c) (D : Cycle ind d) {i j u v : Nat}
    (c0 : c[i % c.length]? = some u) (c1 : c[(i + 1) % c.length]? = some v)
    (d0 : d[j % d.length]? = some u) (d1 : d[(j + 1) % d.length]? = some v) : ∃ k, k ≤ d.length ∧ d = c.rotate k := by
  have hc := C.long
  have hd := D.long
  have ec : ∀ k, c[k % c.length]? = some (c[k % c.length]'(Nat.mod_lt _ (by omega))) := fun k =>
    List.getElem?_eq_getElem _
  have ed : ∀ k, d[k % d.length]? = some (d[k % d.length]'(Nat.mod_lt _ (by omega))) := fun k =>
    List.getElem?_eq_getElem _
  have all : ∀ n, c[(i + n) % c.length]? = d[(j + n) % d.length]? ∧ c[(i + n + 1) % c.length]? = d[(j + n + 1) % d.length]? := by
    intro n
    induction n with
    | zero => exact ⟨c0.trans d0.symm, c1.trans d1.symm⟩
    | succ n ih =>
      obtain ⟨a, b⟩ := ih
      refine ⟨b, ?_⟩
      rw [show i + (n + 1) + 1 = i + n + 2 by omega, show j + (n + 1) + 1 = j + n + 2 by omega, ec (i + n + 2), ed (j + n + 2)]
      congr 1
      have x0 := ec (i + n)
      have x1 := ec (i + n + 1)
      have x2 := ec (i + n + 2)
      have y2 := ed (j + n + 2)
      exact two_other (C.two _ (List.mem_of_getElem? x1)) (edge_symm (C.edge _ _ _ x0 x1)) (C.edge _ _ _ x1 x2)
        (D.edge _ _ _ (b ▸ x1) y2) (C.turn _ _ _ x0 x2) (D.turn _ _ _ (a ▸ x0) y2)
  have dvd : ∀ {c d : List Nat} {i j : Nat}, c.Nodup → 3 ≤ c.length → 3 ≤ d.length →
      (∀ n, c[(i + n) % c.length]? = d[(j + n) % d.length]?) → c.length ∣ d.length := by
    intro c d i j hn hc hd h
    have h0 := h 0
    have h1 := h d.length
    rw [show j + d.length = j + 0 + d.length from rfl, Nat.add_mod_right, ← h0] at h1
    have h2 := (List.getElem?_inj (Nat.mod_lt _ (by omega)) hn).1 h1
    have h3 := Nat.sub_mod_eq_zero_of_mod_eq h2
    rw [show i + d.length - (i + 0) = d.length by omega] at h3
    exact Nat.dvd_of_mod_eq_zero h3
  have hlen : c.length = d.length := Nat.dvd_antisymm (dvd C.nodup hc hd (fun n => (all n).1))
    (dvd D.nodup hd hc (fun n => (all n).1.symm))
  refine ⟨(i + (d.length - j % d.length)) % d.length, le_of_lt (Nat.mod_lt _ (by omega)), ?_⟩
  apply List.ext_getElem?
  intro n
  by_cases hn : n < d.length
  · rw [List.getElem?_rotate (by omega), hlen]
    have h := (all (n + (d.length - j % d.length))).1
    rw [hlen] at h
    have e1 : (j + (n + (d.length - j % d.length))) % d.length = n := by
      have hj := Nat.mod_lt j (show 0 < d.length by omega)
      rw [← Nat.mod_add_mod, show j % d.length + (n + (d.length - j % d.length)) = n + d.length by omega, Nat.add_mod_right, Nat.mod_eq_of_lt hn]
    rw [e1] at h
    rw [← h]
    congr 1
    rw [Nat.add_mod_mod]
    congr 1; omega
  · rw [List.getElem?_eq_none (by omega), List.getElem?_eq_none (by rw [List.length_rotate]; omega)]

/-- the windows of a loop -/
theorem windows_close (c : List Nat) : windows (closeLoop c) = c.zip (c.rotate 1) := by
  unfold windows closeLoop
  cases c with
  | nil => rfl
  | cons x c =>
    simp only [List.head?_cons, Option.toList_some, List.cons_append, List.tail_cons, List.rotate_cons_succ, List.rotate_zero]
    rw [← List.cons_append, ← List.append_nil (c ++ [x]), List.zip_append (by simp)]
    simp

theorem windows_rotate {x y : List Nat} {w : Nat × Nat} :
    w ∈ windows (closeLoop (y ++ x)) ↔ w ∈ windows (closeLoop (x ++ y)) := by
  have e : y ++ x = (x ++ y).rotate x.length := by rw [List.rotate_append_length_eq]
  rw [e, windows_close, windows_close]
  have : ((x ++ y).rotate x.length).zip (((x ++ y).rotate x.length).rotate 1) = ((x ++ y).zip ((x ++ y).rotate 1)).rotate x.length := by
    rw [List.rotate_rotate, Nat.add_comm, ← List.rotate_rotate]
    exact (List.zipWith_rotate_distrib Prod.mk (x ++ y) ((x ++ y).rotate 1) x.length (by simp)).symm
  rw [this, List.mem_rotate]

theorem windows_reverse {s : List Nat} {u v : Nat} (h : (u, v) ∈ windows s.reverse) : (v, u) ∈ windows s := by
  rw [mem_windows] at h ⊢
  obtain ⟨i, h1, h2⟩ := h
  obtain ⟨a1, a2⟩ := rev_get h1
  obtain ⟨b1, b2⟩ := rev_get h2
  refine ⟨s.length - 1 - (i + 1), b2, ?_⟩
  rw [show s.length - 1 - (i + 1) + 1 = s.length - 1 - i by omega]; exact a2

theorem close_reverse (x : Nat) (c : List Nat) : (closeLoop (x :: c)).reverse = closeLoop ([x] ++ c.reverse) := by
  simp [closeLoop]

/-- the same shape has the same edges -/
theorem sameShape_edges {s t : List Nat} (h : SameShape s t) {u v : Nat} (hw : (u, v) ∈ windows t) :
    (u, v) ∈ windows s ∨ (v, u) ∈ windows s := by
  rcases h with rfl | rfl | ⟨x, y, rfl, rfl | rfl⟩
  · exact Or.inl hw
  · exact Or.inr (windows_reverse hw)
  · exact Or.inl (windows_rotate.1 hw)
  · right
    rw [← windows_rotate]
    generalize y ++ x = l at hw ⊢
    cases l with
    | nil => simp [closeLoop, windows] at hw
    | cons a c =>
      rw [List.reverse_cons, windows_rotate, ← close_reverse] at hw
      exact windows_reverse hw

theorem rotate_split {c d : List Nat} {k : Nat} (hk : k ≤ d.length) (h : d = c.rotate k) : ∃ x y, c = x ++ y ∧ d = y ++ x := by
  subst h
  rw [List.length_rotate] at hk
  refine ⟨c.take k, c.drop k, (List.take_append_drop k c).symm, List.rotate_eq_drop_append_take hk⟩

/-- a shape of the division that runs along an edge, turned so that it runs in the direction of the edge -/
theorem Divides.toward (D : Divides ind shapes) {u v : Nat} (h : Edge ind u v) :
    ∃ t ∈ shapes, ∃ r, Run ind r ∧ (t = r ∨ t = r.reverse) ∧ (u, v) ∈ windows r := by
  obtain ⟨t, ht, hw | hw⟩ := D.find h
  · exact ⟨t, ht, t, D.run ht, Or.inl rfl, hw⟩
  · refine ⟨t, ht, t.reverse, (D.run ht).reverse, Or.inr (by simp), ?_⟩
    exact windows_reverse (s := t.reverse) (by simpa using hw)

/-- a run that begins in a vertex without two neighbours is a shape of every division -/
theorem Divides.same_open (D : Divides ind shapes) {s : List Nat} (R : Run ind s) {f : Nat} (s0 : s[0]? = some f)
    (hf : ¬ TwoNeighbours ind f) : ∃ t ∈ shapes, t = s ∨ t = s.reverse := by
  have hl := R.long
  have s1 := List.getElem?_eq_getElem (show 1 < s.length by omega)
  obtain ⟨t, ht, r, Q, hr, hw⟩ := D.toward (R.edge 0 _ _ s0 s1)
  obtain ⟨i, a, b⟩ := mem_windows.1 hw
  have hi : i = 0 := by
    by_contra hi
    exact hf (Q.inner i f (by omega) (List.getElem?_eq_some_iff.1 b).1 a)
  subst hi
  have := R.eq_of_start Q hf s0 s1 a b
  subst this
  exact ⟨t, ht, hr⟩

/-- every shape of a division is, up to its direction and the place where a loop begins, a shape of every other division -/
theorem Divides.same {other : List (List Nat)} (hns : NoSelfEdge ind) (D : Divides ind shapes) (E : Divides ind other)
    {s : List Nat} (hs : s ∈ shapes) : ∃ t ∈ other, SameShape s t := by
  have R := D.run hs
  have hl := R.long
  have s0 := List.getElem?_eq_getElem (show 0 < s.length by omega)
  have s1 := List.getElem?_eq_getElem (show 1 < s.length by omega)
  by_cases hf : TwoNeighbours ind s[0]
  swap
  · obtain ⟨t, ht, h | h⟩ := E.same_open R s0 hf
    · exact ⟨t, ht, Or.inl h⟩
    · exact ⟨t, ht, Or.inr (Or.inl h)⟩
  obtain ⟨c, hc, C⟩ := R.cycle hns s0 hf
  obtain ⟨t, ht, r, Q, hr, hw⟩ := E.toward (R.edge 0 _ _ s0 s1)
  have hrl := Q.long
  have r0 := List.getElem?_eq_getElem (show 0 < r.length by omega)
  have hr0 : TwoNeighbours ind r[0] := by
    by_contra hcon
    obtain ⟨s', hs', h⟩ := D.same_open Q r0 hcon
    have hw' : (s[0], s[1]) ∈ windows s' ∨ (s[1], s[0]) ∈ windows s' := by
      rcases h with rfl | rfl
      · exact Or.inl hw
      · right
        exact windows_reverse (s := r.reverse) (by simpa using hw)
    obtain ⟨i, hi⟩ := List.mem_iff_getElem?.1 hs
    obtain ⟨j, hj⟩ := List.mem_iff_getElem?.1 hs'
    have hws : (s[0], s[1]) ∈ windows s := mem_windows.2 ⟨0, s0, s1⟩
    have hij : i = j := by
      rcases hw' with hw' | hw'
      · exact D.one_shape hi hj hws hw' (Or.inl rfl)
      · exact D.one_shape hi hj hws hw' (Or.inr rfl)
    subst hij
    rw [hi] at hj
    cases hj
    apply hcon
    have hmem : r[0] ∈ s := by
      rcases h with rfl | rfl
      · simp
      · simp
    rw [hc] at hmem
    unfold closeLoop at hmem
    rcases List.mem_append.1 hmem with hmem | hmem
    · exact C.two _ hmem
    · rw [Option.mem_toList] at hmem
      exact C.two _ (List.mem_of_mem_head? hmem)
  obtain ⟨d, hd, E'⟩ := Q.cycle hns r0 hr0
  have index : ∀ {s c : List Nat} {u v : Nat}, s = closeLoop c → (u, v) ∈ windows s → 3 ≤ c.length →
      ∃ k, c[k % c.length]? = some u ∧ c[(k + 1) % c.length]? = some v := by
    intro s c u v hs hw hlc
    rw [hs, windows_close] at hw
    obtain ⟨k, hk⟩ := List.mem_iff_getElem?.1 hw
    rw [List.getElem?_zip_eq_some] at hk
    have hkl := (List.getElem?_eq_some_iff.1 hk.1).1
    rw [List.getElem?_rotate hkl] at hk
    exact ⟨k, by rw [Nat.mod_eq_of_lt hkl]; exact hk.1, hk.2⟩
  obtain ⟨i, a0, a1⟩ := index hc (mem_windows.2 ⟨0, s0, s1⟩) C.long
  obtain ⟨j, b0, b1⟩ := index hd hw E'.long
  obtain ⟨k, hk, hrot⟩ := C.rotation E' a0 a1 b0 b1
  obtain ⟨x, y, hx, hy⟩ := rotate_split hk hrot
  refine ⟨t, ht, Or.inr (Or.inr ?_)⟩
  rcases hr with rfl | rfl
  · exact ⟨x, y, by rw [hc, hx], Or.inl (by rw [hd, hy])⟩
  · have hdl := E'.long
    cases d with
    | nil => simp at hdl
    | cons z d' =>
      rw [hd, close_reverse]
      have e : z :: d' = y ++ x := hy
      cases y with
      | nil =>
        cases x with
        | nil => simp at e
        | cons z' x' =>
          rw [List.nil_append] at e
          injection e with e1 e2
          subst e1 e2
          refine ⟨[z], d', by rw [hc, hx]; simp, Or.inr ?_⟩
          simp
      | cons z' y' =>
        rw [List.cons_append] at e
        injection e with e1 e2
        subst e1 e2
        refine ⟨x ++ [z], y', by rw [hc, hx]; simp, Or.inr ?_⟩
        simp

theorem Divides.nodup (D : Divides ind shapes) : shapes.Nodup := by
  rw [List.nodup_iff_getElem?_ne_getElem?]
  intro i j hij hj h
  have ej := List.getElem?_eq_getElem hj
  have R := D.run (List.mem_of_getElem? ej)
  have hl := R.long
  have w : (shapes[j][0], shapes[j][1]) ∈ windows shapes[j] :=
    mem_windows.2 ⟨0, List.getElem?_eq_getElem (by omega), List.getElem?_eq_getElem (by omega)⟩
  have := D.one_shape (h.trans ej) ej w w (Or.inl rfl)
  omega

/-- shapes of one division that are the same as one shape are equal -/
theorem Divides.inj (D : Divides ind shapes) {other : List (List Nat)} (E : Divides ind other) {s s' t : List Nat} (hs : s ∈ shapes) (hs' : s' ∈ shapes)
    (ht : t ∈ other) (h : SameShape s t) (h' : SameShape s' t) : s = s' := by
  have hl := (E.run ht).long
  have w : (t[0], t[1]) ∈ windows t :=
    mem_windows.2 ⟨0, List.getElem?_eq_getElem (by omega), List.getElem?_eq_getElem (by omega)⟩
  obtain ⟨i, hi⟩ := List.mem_iff_getElem?.1 hs
  obtain ⟨j, hj⟩ := List.mem_iff_getElem?.1 hs'
  have : i = j := by
    rcases sameShape_edges h w with a | a <;> rcases sameShape_edges h' w with b | b <;>
      first
        | exact D.one_shape hi hj a b (Or.inl rfl)
        | exact D.one_shape hi hj a b (Or.inr rfl)
  subst this
  rw [hi] at hj
  exact Option.some.inj hj

theorem Divides.shorter (hns : NoSelfEdge ind) (D : Divides ind shapes) {other : List (List Nat)} (E : Divides ind other) :
    ∃ l, l.Nodup ∧ l ⊆ other ∧ List.Forall₂ SameShape shapes l := by
  have pick : ∀ s, ∃ t, s ∈ shapes → t ∈ other ∧ SameShape s t := by
    intro s
    by_cases hs : s ∈ shapes
    · obtain ⟨t, h⟩ := D.same hns E hs
      exact ⟨t, fun _ => h⟩
    · exact ⟨[], fun h => absurd h hs⟩
  choose F hF using pick
  refine ⟨shapes.map F, ?_, ?_, ?_⟩
  · refine List.Nodup.map_on ?_ D.nodup
    intro s hs s' hs' e
    refine D.inj E hs hs' (hF s hs).1 (hF s hs).2 ?_
    rw [e]; exact (hF s' hs').2
  · intro t ht
    obtain ⟨s, hs, rfl⟩ := List.mem_map.1 ht
    exact (hF s hs).1
  · rw [List.forall₂_map_right_iff]
    exact List.forall₂_same.2 fun s hs => (hF s hs).2

/-- the shapes of two divisions correspond one to one -/
theorem Divides.correspond (hns : NoSelfEdge ind) (D : Divides ind shapes) {other : List (List Nat)} (E : Divides ind other) :
    ∃ l, l.Perm other ∧ List.Forall₂ SameShape shapes l := by
  obtain ⟨l, n, sub, h⟩ := D.shorter hns E
  obtain ⟨l', n', sub', h'⟩ := E.shorter hns D
  refine ⟨l, (List.subperm_of_subset n sub).perm_of_length_le ?_, h⟩
  have e := h.length_eq
  have e' := h'.length_eq
  have := (List.subperm_of_subset n' sub').length_le
  omega

theorem Divides.of_edges {a b : List Nat} (h : ∀ u v, Edge a u v ↔ Edge b u v) (D : Divides b shapes) : Divides a shapes := by
  have two : ∀ v, TwoNeighbours a v ↔ TwoNeighbours b v := by
    intro v
    unfold TwoNeighbours
    simp only [h]
  refine ⟨fun s hs w hw => (h _ _).2 (D.edge s hs w hw), fun u v e => D.once u v ((h _ _).1 e), fun s hs => ?_⟩
  simp only [two]
  exact D.split s hs

end Verif.Proofs.ShapeUnique
