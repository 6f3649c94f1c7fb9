import Verif.Model.Dist
import Verif.Model.Err
/-!
# Ramer–Douglas–Peucker simplification

The crate contains four copies of the same recursion: 2D, 3D, and the two indexed versions.  They
differ only in the point type and in the distance function, so the model has one recursion,
parametrised by both; the four entry points instantiate it.  `dist` may fail because the indexed
versions index into the vertex table while computing distances.
-/
namespace Verif.Model
open Verif Scalar
variable {α : Type} [Scalar α] {P : Type}

/-- One step of `max_by` (std: `match compare(&x, &y) { Greater => x, _ => y }`) with the comparator
of `src/linestring_2d/simplify.rs` 74-78. -/
def maxStep (x y : α × Nat) : α × Nat :=
  if (pcmp x.1 y.1).getD .eq = .gt then x else y

/-- `Iterator::max_by` with the comparator `dist1.partial_cmp(dist2).unwrap_or(Equal)`:
`src/linestring_2d/simplify.rs` 74-78 (std: `reduce`, keeps the later element unless the earlier is
`Greater`). -/
def maxByLast (l : List (α × Nat)) : Option (α × Nat) :=
  match l with
  | [] => none
  | x :: xs => some (xs.foldl maxStep x)

/-- `src/linestring_2d/simplify.rs` 50-87 `simplify_rdp_recursive`;
`src/linestring_3d/simplify.rs` 20-57 `simplify_rdp_recursive`;
`src/linestring_2d/simplify.rs` 155-209 and `src/linestring_3d/simplify.rs` 259-314
`indexed_simplify_rdp_recursive`.  The value is the list of points appended to `rv`.
The branch `.error .diverge` stands for a recursive call on a slice that is not shorter; it is
never taken (`rdpRec_eq`). -/
def rdpRec (dist : P → P → P → Except Err α) (thr : α) (points : List P) : Except Err (List P) :=
  if hlen : points.length ≤ 2 then
    match points.getLast? with
    | none => .error .panic
    | some p => .ok [p]
  else
    let start := points[0]
    let end_ := points[points.length - 1]
    match ((points.zipIdx.drop 1).take (points.length - 2)).mapM
        (fun (p, i) => (dist start end_ p).map (fun d => (d, i))) with
    | .error e => .error e
    | .ok ds =>
      match (maxByLast ds).getD (Scalar.neg one, 0) with
      | (maxDistSq, index) =>
      if maxDistSq <=. thr then .ok [end_]
      else if h : 0 < index ∧ index + 1 < points.length then
        match rdpRec dist thr (points.take (index + 1)) with
        | .error e => .error e
        | .ok l =>
          match rdpRec dist thr (points.drop index) with
          | .error e => .error e
          | .ok r => .ok (l ++ r)
      else .error .diverge
termination_by points.length
decreasing_by
  · simp only [List.length_take]; omega
  · simp only [List.length_drop]; omega

/-- Common part of the plain entry points: `src/linestring_2d.rs` 975-984 and
`src/linestring_3d/simplify.rs` 8-17. -/
def rdpTop (dist : P → P → P → Except Err α) (d : α) (points : List P) : Except Err (List P) :=
  match points with
  | [] => .ok []
  | p :: _ =>
    if points.length ≤ 2 then .ok points
    else (rdpRec dist (d *. d) points).map (p :: ·)

/-- `src/linestring_2d.rs` 975-984 `LineString2::simplify_rdp` -/
def simplifyRdp2 (points : List (V2 α)) (d : α) : Except Err (List (V2 α)) :=
  rdpTop (fun a b p => .ok (distToLineSqSafe2 a b p)) d points

/-- `src/linestring_3d.rs` 494-496, `src/linestring_3d/simplify.rs` 8-17 `simplify_rdp` -/
def simplifyRdp3 (points : List (V3 α)) (d : α) : Except Err (List (V3 α)) :=
  rdpTop (fun a b p => .ok (distToLineSqSafe3 a b p)) d points

/-- slice indexing `vertices[i]` -/
def idx {P : Type} (vertices : List P) (i : Nat) : Except Err P :=
  match vertices[i]? with
  | some p => .ok p
  | none => .error .panic

/-- the distance closure of the indexed versions: `src/linestring_2d/simplify.rs` 176-187,
`src/linestring_3d/simplify.rs` 281-292 -/
def indexedDist (dist : P → P → P → α) (vertices : List P) (i j k : Nat) : Except Err α := do
  let a ← idx vertices i
  let b ← idx vertices j
  let p ← idx vertices k
  return dist a b p

/-- common part of `indexed_simplify_rdp`: `src/linestring_2d/simplify.rs` 131-152,
`src/linestring_3d/simplify.rs` 235-256 -/
def indexedRdpTop (dist : P → P → P → α) (vertices : List P) (indices : List Nat) (d : α) :
    Except Err (List Nat) :=
  if vertices.length ≤ 2 then .ok indices
  else
    match indices with
    | [] => .error .panic
    | i :: _ => (rdpRec (indexedDist dist vertices) (d *. d) indices).map (i :: ·)

/-- `src/linestring_2d/simplify.rs` 131-152, exported as `prelude::indexed_simplify_rdp_2d` -/
def indexedSimplifyRdp2 (vertices : List (V2 α)) (indices : List Nat) (d : α) :
    Except Err (List Nat) :=
  indexedRdpTop distToLineSqSafe2 vertices indices d

/-- `src/linestring_3d/simplify.rs` 235-256, exported as `prelude::indexed_simplify_rdp_3d` -/
def indexedSimplifyRdp3 (vertices : List (V3 α)) (indices : List Nat) (d : α) :
    Except Err (List Nat) :=
  indexedRdpTop distToLineSqSafe3 vertices indices d

end Verif.Model
