/-!
# Specification vocabulary for `divide_into_shapes`

Independent of the model: the input is a list of vertex indices, two consecutive ones (at positions
`2i` and `2i+1`) are an edge; the output is a list of index lists.
-/
namespace Verif.Spec.Shape

/-- positions `2i`, `2i+1` of the index list hold `u` and `v` -/
def Pair (indices : List Nat) (u v : Nat) : Prop :=
  ∃ i, indices[2 * i]? = some u ∧ indices[2 * i + 1]? = some v

/-- `u` and `v` are joined by an (undirected) edge of the input. -/
def Edge (indices : List Nat) (u v : Nat) : Prop := Pair indices u v ∨ Pair indices v u

/-- no vertex is joined to itself -/
def NoSelfEdge (indices : List Nat) : Prop := ∀ v, ¬ Edge indices v v

/-- `v` has exactly two distinct neighbours -/
def TwoNeighbours (indices : List Nat) (v : Nat) : Prop :=
  ∃ a b, a ≠ b ∧ ∀ u, Edge indices v u ↔ u = a ∨ u = b

/-- the pairs of consecutive elements of a list: `slice::windows(2)` -/
def windows (shape : List Nat) : List (Nat × Nat) := shape.zip shape.tail

/-- is this window the undirected edge `{u, v}`? -/
def isEdge (u v : Nat) (w : Nat × Nat) : Bool := w == (u, v) || w == (v, u)

/-- how often the undirected edge `{u, v}` occurs as a window of the shapes -/
def occurrences (shapes : List (List Nat)) (u v : Nat) : Nat :=
  (shapes.map fun s => (windows s).countP (isEdge u v)).sum

/-- a loop written down as the vertices it visits, the first one repeated at the end -/
def closeLoop (c : List Nat) : List Nat := c ++ c.head?.toList

/-- `t` is the path `s`, possibly walked in the other direction, and if it is a loop possibly begun at
another of its vertices -/
def SameShape (s t : List Nat) : Prop :=
  t = s ∨ t = s.reverse ∨
    ∃ x y, s = closeLoop (x ++ y) ∧ (t = closeLoop (y ++ x) ∨ t = closeLoop (y ++ x).reverse)

end Verif.Spec.Shape
