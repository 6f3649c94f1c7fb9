import Verif.Model.Sweep
/-!
# Searching the trees of the sweep

What the search of a `BTreeMap` finds, for any shape of the tree and any comparison of keys.
-/
namespace Verif.Sweep
open Verif Model
variable {α : Type} [Scalar α] [TreeShape α] {ι V : Type}

/-- the key before position `i` is smaller than `k` -/
def LeftOf (keys : List (V2 α × ι)) (k : V2 α × ι) (i : Nat) : Prop :=
  ∀ j e, i = j + 1 → keys[j]? = some e → siteCmp k.1 e.1 = some .gt
/-- the key at position `i` is greater than `k` -/
def RightOf (keys : List (V2 α × ι)) (k : V2 α × ι) (i : Nat) : Prop :=
  ∀ e, keys[i]? = some e → siteCmp k.1 e.1 = some .lt

theorem siteSearch_spec (keys : List (V2 α × ι)) (k : V2 α × ι) (hc : ∀ e ∈ keys, siteCmp k.1 e.1 ≠ none) :
    ∀ n lo hi, hi ≤ lo + n → lo ≤ hi → hi ≤ keys.length → LeftOf keys k lo → RightOf keys k hi →
    ∃ i b, siteSearch V keys k n lo hi = .ok (i, b) ∧
      ((b = true ∧ ∃ e, keys[i]? = some e ∧ siteCmp k.1 e.1 = some .eq) ∨
       (b = false ∧ i ≤ keys.length ∧ LeftOf keys k i ∧ RightOf keys k i)) := by
  intro n
  induction n with
  | zero =>
    intro lo hi h1 h2 h3 h4 h5
    have : hi = lo := by omega
    subst this
    exact ⟨hi, false, rfl, Or.inr ⟨rfl, h3, h4, h5⟩⟩
  | succ n ih =>
    intro lo hi h1 h2 h3 h4 h5
    unfold siteSearch
    by_cases h : lo < hi
    · rw [if_pos h]
      have hm : TreeShape.next V keys k lo hi % (hi - lo) < hi - lo := Nat.mod_lt _ (by omega)
      generalize TreeShape.next V keys k lo hi % (hi - lo) = r at hm
      have hp : lo + r < keys.length := by omega
      have he : keys[lo + r]? = some keys[lo + r] := List.getElem?_eq_getElem hp
      have hn := hc keys[lo + r] (List.getElem_mem hp)
      generalize keys[lo + r] = e at he hn
      simp only [he]
      rcases hcmp : siteCmp k.1 e.1 with _ | o
      · exact absurd hcmp hn
      · cases o with
        | eq => exact ⟨lo + r, true, rfl, Or.inl ⟨rfl, e, he, hcmp⟩⟩
        | lt =>
          refine ih lo (lo + r) (by omega) (by omega) (by omega) h4 ?_
          intro e' he'
          rw [he] at he'
          cases he'
          exact hcmp
        | gt =>
          refine ih (lo + r + 1) hi (by omega) (by omega) h3 ?_ h5
          intro j e' hj he'
          have : j = lo + r := by omega
          subst this
          rw [he] at he'
          cases he'
          exact hcmp
    · have : hi = lo := by omega
      subst this
      rw [if_neg h]
      exact ⟨hi, false, rfl, Or.inr ⟨rfl, h3, h4, h5⟩⟩

/-- where the search for `k` in the map `m` ends -/
def Finds (k : V2 α × ι) (m : SiteMap α ι V) (i : Nat) (b : Bool) : Prop :=
  siteSearch V (m.map (·.1)) k m.length 0 m.length = .ok (i, b)

theorem update_found {k : V2 α × ι} {pre post : SiteMap α ι V} {e : (V2 α × ι) × V}
    (h : Finds k (pre ++ e :: post) pre.length true) (f : Option V → Except Err V) :
    siteUpdate k f (pre ++ e :: post) = (f (some e.2)).map (fun v => pre ++ (e.1, v) :: post) := by
  unfold Finds at h
  unfold siteUpdate
  rw [h]
  have e1 : (pre ++ e :: post)[pre.length]? = some e := by simp
  have e2 : (pre ++ e :: post).take pre.length = pre := by simp
  have e3 : (pre ++ e :: post).drop (pre.length + 1) = post := by simp
  simp only [bind, Except.bind, e1, e2, e3]
  cases f (some e.2) <;> rfl

theorem update_missing {k : V2 α × ι} {pre post : SiteMap α ι V} (h : Finds k (pre ++ post) pre.length false)
    (f : Option V → Except Err V) :
    siteUpdate k f (pre ++ post) = (f none).map (fun v => pre ++ (k, v) :: post) := by
  unfold Finds at h
  unfold siteUpdate
  rw [h]
  have e2 : (pre ++ post).take pre.length = pre := by simp
  have e3 : (pre ++ post).drop pre.length = post := by simp
  simp only [bind, Except.bind, e2, e3]
  cases f none <;> rfl

/-- `get_mut` or `insert`, for any shape of the tree -/
theorem siteUpdate_split (k : V2 α × ι) (m : SiteMap α ι V) (hc : ∀ e ∈ m, siteCmp k.1 e.1.1 ≠ none) :
    (∃ pre e post, m = pre ++ e :: post ∧ siteCmp k.1 e.1.1 = some .eq ∧ Finds k m pre.length true ∧
      ∀ f, siteUpdate k f m = (f (some e.2)).map (fun v => pre ++ (e.1, v) :: post)) ∨
    (∃ pre post, m = pre ++ post ∧ (∀ x, pre.getLast? = some x → siteCmp k.1 x.1.1 = some .gt) ∧
      (∀ x, post.head? = some x → siteCmp k.1 x.1.1 = some .lt) ∧ Finds k m pre.length false ∧
      ∀ f, siteUpdate k f m = (f none).map (fun v => pre ++ (k, v) :: post)) := by
  obtain ⟨i, b, h, hb⟩ := siteSearch_spec (V := V) (m.map (·.1)) k (by
    intro e he
    obtain ⟨x, hx, rfl⟩ := List.mem_map.1 he
    exact hc x hx) m.length 0 m.length (by omega) (by omega) (by simp) (fun j e hj => by omega) (by
    intro e he
    rw [List.getElem?_eq_none (by simp)] at he
    cases he)
  rcases hb with ⟨rfl, e, he, hcmp⟩ | ⟨rfl, hi, hl, hr⟩
  · left
    rw [List.getElem?_map] at he
    obtain ⟨x, hx, rfl⟩ := Option.map_eq_some_iff.1 he
    obtain ⟨hlt, hx'⟩ := List.getElem?_eq_some_iff.1 hx
    have hm : m = m.take i ++ x :: m.drop (i + 1) := by
      rw [← hx', ← List.drop_eq_getElem_cons hlt, List.take_append_drop]
    have hlen : (m.take i).length = i := by rw [List.length_take]; omega
    refine ⟨m.take i, x, m.drop (i + 1), hm, hcmp, by rw [hlen]; exact h, fun f => ?_⟩
    have hF : Finds k (m.take i ++ x :: m.drop (i + 1)) (m.take i).length true := by
      rw [← hm, hlen]; exact h
    have := update_found hF f
    rwa [← hm] at this
  · right
    rw [List.length_map] at hi
    have hm : m = m.take i ++ m.drop i := (List.take_append_drop i m).symm
    have hlen : (m.take i).length = i := by rw [List.length_take]; omega
    refine ⟨m.take i, m.drop i, hm, ?_, ?_, by rw [hlen]; exact h, fun f => ?_⟩
    · intro x hx
      rw [List.getLast?_eq_getElem?, hlen] at hx
      cases i with
      | zero => simp at hx
      | succ j =>
        refine hl j x.1 rfl ?_
        rw [List.getElem?_map]
        rw [Nat.add_sub_cancel, List.getElem?_take] at hx
        rw [if_pos (by omega)] at hx
        rw [hx]; rfl
    · intro x hx
      refine hr x.1 ?_
      rw [List.head?_drop] at hx
      rw [List.getElem?_map, hx]; rfl
    · have hF : Finds k (m.take i ++ m.drop i) (m.take i).length false := by
        rw [← hm, hlen]; exact h
      have := update_missing hF f
      rwa [← hm] at this

theorem popFirst_found {k : V2 α × ι} {pre post : SiteMap α ι V} {e : (V2 α × ι) × V}
    (h : Finds k (pre ++ e :: post) pre.length true) :
    popFirst k (pre ++ e :: post) = .ok (e.2, pre ++ post) := by
  unfold Finds at h
  unfold popFirst
  rw [h]
  have e1 : (pre ++ e :: post)[pre.length]? = some e := by simp
  have e2 : (pre ++ e :: post).take pre.length = pre := by simp
  have e3 : (pre ++ e :: post).drop (pre.length + 1) = post := by simp
  simp only [bind, Except.bind, e1, e2, e3]

theorem popFirst_missing {k : V2 α × ι} {m : SiteMap α ι V} {i : Nat} (h : Finds k m i false) :
    popFirst k m = .error .internal := by
  unfold Finds at h
  unfold popFirst
  rw [h]
  rfl

/-- the emulated `pop_first`, for any shape of the tree -/
theorem popFirst_split (k : V2 α × ι) (m : SiteMap α ι V) (hc : ∀ e ∈ m, siteCmp k.1 e.1.1 ≠ none) :
    (∃ pre e post, m = pre ++ e :: post ∧ siteCmp k.1 e.1.1 = some .eq ∧ popFirst k m = .ok (e.2, pre ++ post)) ∨
    popFirst k m = .error .internal := by
  rcases siteUpdate_split k m hc with ⟨pre, e, post, rfl, h1, h2, -⟩ | ⟨pre, post, rfl, -, -, h2, -⟩
  · exact Or.inl ⟨pre, e, post, rfl, h1, popFirst_found h2⟩
  · exact Or.inr (popFirst_missing h2)

end Verif.Sweep
