import Verif.Model.Hull
/-!
# C39: the walk around two hulls stays on them
-/
namespace Verif.Props
open Verif Verif.Model
variable {α : Type} [Scalar α]

/-- a reference of the walk names a point of the hull it says it is from, at the position it says -/
def OnItsHull (a b : List Nat) (v : VertexIndex) : Prop := (if v.fromA then a else b)[v.indexIndex]? = some v.index

theorem first_onItsHull {a b : List Nat} {p e : VertexIndex}
    (h : combineFirst (if p.fromA then a else b) (if p.fromA then b else a) p = .ok e) : OnItsHull a b e := by
  have get : ∀ {l : List Nat} {i j : Nat}, idx l i = .ok j → l[i]? = some j := by
    intro l i j h
    unfold idx at h
    split at h
    · rename_i x hx; rw [hx]; cases h; rfl
    · cases h
  unfold combineFirst at h
  cases h1 : idx (if p.fromA then a else b) ((p.indexIndex + 1) % (if p.fromA then a else b).length) with
  | error x => simp only [h1] at h; cases h
  | ok i =>
    simp only [h1] at h
    change (if i != p.index then _ else _) = _ at h
    split at h
    · cases h; exact get h1
    · cases h2 : idx (if p.fromA then b else a) 0 with
      | error x => simp only [h2] at h; cases h
      | ok o =>
        simp only [h2] at h
        cases h
        have := get h2
        unfold OnItsHull
        cases hf : p.fromA <;> simp only [hf] at this ⊢ <;> simpa using this

theorem scan_onItsHull (vertices : List (V2 α)) {a b : List Nat} {p : VertexIndex} :
    ∀ (rest pre : List Nat) (e e' : VertexIndex) (found : Bool), (if p.fromA then b else a) = pre ++ rest → OnItsHull a b e →
      combineScan vertices p rest pre.length e found = .ok e' → OnItsHull a b e' := by
  intro rest
  induction rest with
  | nil => intro pre e e' found _ he h; cases h; exact he
  | cons j rest ih =>
    intro pre e e' found hl he h
    have hl' : (if p.fromA then b else a) = (pre ++ [j]) ++ rest := by rw [hl]; simp
    have hlen : (pre ++ [j]).length = pre.length + 1 := by simp
    have hj : OnItsHull a b ⟨!p.fromA, j, pre.length⟩ := by
      have hg : (if p.fromA then b else a)[pre.length]? = some j := by rw [hl]; simp
      unfold OnItsHull
      cases hf : p.fromA <;> simp only [hf] at hg ⊢ <;> simpa using hg
    have next : ∀ e1 f1, OnItsHull a b e1 → combineScan vertices p rest (pre.length + 1) e1 f1 = .ok e' → OnItsHull a b e' :=
      fun e1 f1 h1 h2 => ih (pre ++ [j]) e1 e' f1 hl' h1 (by rw [hlen]; exact h2)
    unfold combineScan at h
    by_cases hc : (j == p.index || j == e.index) = true
    · rw [if_pos hc] at h
      exact next _ _ he h
    · rw [if_neg hc] at h
      cases h1 : idx vertices p.index with
      | error x => rw [h1] at h; cases h
      | ok pp =>
        rw [h1] at h
        cases h2 : idx vertices e.index with
        | error x => rw [h2] at h; cases h
        | ok pe =>
          rw [h2] at h
          cases h3 : idx vertices j with
          | error x => rw [h3] at h; cases h
          | ok pj =>
            rw [h3] at h
            change (match pointOrientation pp pe pj with | .right => _ | .collinear => _ | .left => _) = _ at h
            cases h4 : pointOrientation pp pe pj with
            | right => rw [h4] at h; exact next _ _ hj h
            | left =>
              rw [h4] at h
              change (if found then _ else _) = _ at h
              split at h
              · cases h; exact he
              · exact next _ _ he h
            | collinear =>
              rw [h4] at h
              change (if _ then _ else _) = _ at h
              split at h
              · exact next _ _ hj h
              · exact next _ _ he h

/-- C39: in every round of the merge of two hulls the point found next, with which the walk goes on, is the point of the hull at
the position the walk goes on from. No law of arithmetic is used. -/
theorem C39_merge_walk (vertices : List (V2 α)) (a b : List Nat) (p e e' : VertexIndex)
    (h1 : combineFirst (if p.fromA then a else b) (if p.fromA then b else a) p = .ok e)
    (h2 : combineScan vertices p (if p.fromA then b else a) 0 e false = .ok e') :
    (if e'.fromA then a else b)[e'.indexIndex]? = some e'.index :=
  scan_onItsHull vertices _ [] e e' false rfl (first_onItsHull h1) h2

end Verif.Props
