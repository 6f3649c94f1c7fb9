import Verif.Model.Aabb
import Verif.Model.LineString2
/-!
# Small functions: conversions, `apply`, 3D line strings
-/
namespace Verif.Model
open Verif Scalar
variable {α : Type} [Scalar α]

/-- `src/linestring_2d.rs` 1255-1257 `Aabb2::min_max` -/
def Aabb2.getMinMax (b : Aabb2 α) : Option (V2 α × V2 α) := b.minMax

/-- `src/linestring_3d/impls.rs` 132-141 `From<[IT; 2]> for Aabb3` (the two corners are taken as they
are) -/
def Aabb3.ofCorners (a b : V3 α) : Aabb3 α := ⟨some (a, b)⟩

/-- `src/linestring_3d/impls.rs` 143-152 `From<[T::Scalar; 6]> for Aabb3` -/
def Aabb3.ofScalars (a b c d e f : α) : Aabb3 α := ⟨some (⟨a, b, c⟩, ⟨d, e, f⟩)⟩

/-- `src/linestring_2d/impls.rs` 84-91 `From<[T::Scalar; 4]> for Line2` -/
def Line2.ofScalars (a b c d : α) : Line2 α := ⟨⟨a, b⟩, ⟨c, d⟩⟩

/-- `src/linestring_2d/impls.rs` 93-100 `From<[[T::Scalar; 2]; 2]> for Line2` -/
def Line2.ofPairs (a b : α × α) : Line2 α := ⟨⟨a.1, a.2⟩, ⟨b.1, b.2⟩⟩

/-- `src/linestring_3d/impls.rs` 79-86 `From<[T::Scalar; 6]> for Line3` -/
def Line3.ofScalars (a b c d e f : α) : Line3 α := ⟨⟨a, b, c⟩, ⟨d, e, f⟩⟩

/-- `src/linestring_3d.rs` 182-187 `Line3::apply` -/
def Line3.apply (l : Line3 α) (f : V3 α → V3 α) : Line3 α := ⟨f l.start, f l.end⟩

/-- one round of the loops of `apply`: `*v = f(*v)` for the element at position `i` -/
def applyStep {A : Type} (f : A → A) (acc : List A) (i : Nat) : List A :=
  match acc[i]? with
  | some v => acc.set i (f v)
  | none => acc

/-- `src/linestring_2d.rs` 1055-1062 `LineString2::apply` and `src/linestring_3d.rs` 508-510
`LineString3::apply`; the loop over `iter_mut` as a left-to-right traversal that stores `f v` at every
position -/
def applyLine {A : Type} (f : A → A) (l : List A) : List A :=
  (List.range l.length).foldl (applyStep f) l

/-- `src/linestring_3d.rs` 474-476 `LineString3::is_connected` -/
def isConnected3 (line : List (V3 α)) : Bool :=
  line.isEmpty || (match line.head?, line.getLast? with
    | some a, some b => a.beq b
    | _, _ => true)

/-- `src/linestring_3d.rs` 481-483 `window_iter` with `src/linestring_3d/impls.rs` 57-66: the segments -/
def windowIter3 (line : List (V3 α)) : List (Line3 α) :=
  (windows2 line).map (fun (a, b) => ⟨a, b⟩)

/-- `src/linestring_3d.rs` 488-490 `chunk_iter` with `src/linestring_3d/impls.rs` 68-77: the segments -/
def chunkIter3 (line : List (V3 α)) : List (Line3 α) :=
  (Verif.Shape.chunks2 line).map (fun (a, b) => ⟨a, b⟩)

end Verif.Model
