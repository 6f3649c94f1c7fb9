import Verif.Model.LineString2
import Mathlib.Data.List.Sort
import Verif.Model.Line2
import Verif.Model.Rdp
/-!
# Visvalingam–Whyatt simplification

`src/linestring_2d/simplify.rs` 213-370 and `src/linestring_3d/simplify.rs` 62-191 are the same code
but for three differences: the 3D version does not look at `is_connected`, has no test
`link_tree.len() == 2` and does not append the last point.  Both are instances of the functions here:
`area` is the area function, `guard2` says whether the test `link_tree.len() == 2` is there.

* `link_tree`, an `AHashMap`, is an association list.
* `search_tree`, a `std::collections::BinaryHeap`, is a list of its entries; `pop` removes the entry
  that the parameter `pick` chooses.  `pick` also gets a number that is different in every round, so
  that every sequence of choices of a heap (which depend on its layout) is covered.
-/
namespace Verif.Model
open Verif Scalar
variable {α : Type} [Scalar α] {P : Type}

/-- the values of `link_tree`: previous node, next node, area -/
abbrev VwLinks (α : Type) := List (Nat × Nat × Nat × α)
/-- `search_tree`: entries `PriorityDistance { key, index }` (`src/linestring_2d.rs` 654-657,
`src/linestring_3d.rs` 356-359) -/
abbrev VwHeap (α : Type) := List (α × Nat)

/-- `link_tree.get(&i)` -/
def linkGet (links : VwLinks α) (i : Nat) : Option (Nat × Nat × α) := links.lookup i
/-- `link_tree.remove(&i)` -/
def linkRemove (links : VwLinks α) (i : Nat) : VwLinks α := links.filter (fun e => e.1 != i)
/-- `link_tree.insert(i, v)` -/
def linkInsert (links : VwLinks α) (i : Nat) (v : Nat × Nat × α) : VwLinks α := (i, v) :: linkRemove links i

/-- `search_tree.push(PriorityDistance { key, index })`.  The comparison of entries
(`src/linestring_2d/impls.rs` 68-73, `src/linestring_3d/impls.rs` 116-121) is
`partial_cmp(..).unwrap().reverse()`: a push to a heap that is not empty compares the new entry with
another one, and panics if one of them is NaN (a heap with more than one entry has no NaN). -/
def heapPush (heap : VwHeap α) (key : α) (index : Nat) : Except Err (VwHeap α) :=
  if heap.any (fun e => (Scalar.pcmp key e.1).isNone) then .error .panic else .ok ((key, index) :: heap)

/-- push the entry of node `j` between `i` and `k` and link it: `src/linestring_2d/simplify.rs` 238-244
(also 252-257, 287-296 and so on) -/
def vwLink (heap : VwHeap α) (links : VwLinks α) (i j k : Nat) (area : α) :
    Except Err (VwHeap α × VwLinks α) := do
  let heap ← heapPush heap area j
  .ok (heap, linkInsert links j (i, k, area))

/-- one round of the loop `src/linestring_2d/simplify.rs` 234-245 (3D: 82-93): node `t + 1` -/
def vwInitStep (area : P → P → P → α) (line : List P) (s : VwHeap α × VwLinks α) (t : Nat) :
    Except Err (VwHeap α × VwLinks α) := do
  let pi ← idx line t
  let pj ← idx line (t + 1)
  let pk ← idx line (t + 2)
  vwLink s.1 s.2 t (t + 1) (t + 2) (area pi pj pk)

/-- `src/linestring_2d/simplify.rs` 230-246 (3D: 78-94) -/
def vwInit (area : P → P → P → α) (line : List P) : Except Err (VwHeap α × VwLinks α) :=
  (List.range (line.length - 2)).foldlM (vwInitStep area line) ([], [])

/-- the extra node of a connected line: `src/linestring_2d/simplify.rs` 247-258 -/
def vwConnect (area : P → P → P → α) (line : List P) (s : VwHeap α × VwLinks α) :
    Except Err (VwHeap α × VwLinks α) := do
  let pi ← idx line (line.length - 2)
  let pj ← idx line (line.length - 1)
  let p0 ← idx line 0
  vwLink s.1 s.2 (line.length - 2) (line.length - 1) line.length (area pi pj p0)

/-- new area and links of node `next` after its left neighbour is deleted:
`src/linestring_2d/simplify.rs` 287-296 and 327-336 (3D: 122-131, 162-171) -/
def vwFixNext (area : P → P → P → α) (line : List P) (s : VwHeap α × VwLinks α) (prev next nextNext : Nat) :
    Except Err (VwHeap α × VwLinks α) := do
  let a ← idx line prev
  let b ← idx line (next % line.length)
  let c ← idx line (nextNext % line.length)
  vwLink s.1 s.2 prev next nextNext (area a b c)

/-- new area and links of node `prev` after its right neighbour is deleted:
`src/linestring_2d/simplify.rs` 298-307 and 313-322 (3D: 133-142, 148-157) -/
def vwFixPrev (area : P → P → P → α) (line : List P) (s : VwHeap α × VwLinks α) (prevPrev prev next : Nat) :
    Except Err (VwHeap α × VwLinks α) := do
  let a ← idx line prevPrev
  let b ← idx line prev
  let c ← idx line (next % line.length)
  vwLink s.1 s.2 prevPrev prev next (area a b c)

/-- `src/linestring_2d/simplify.rs` 279-339 (3D: 114-174): a node with the neighbours `prev` and `next`
has been removed from `link_tree` -/
def vwDelete (area : P → P → P → α) (line : List P) (s : VwHeap α × VwLinks α) (prev next : Nat) :
    Except Err (VwHeap α × VwLinks α) :=
  let prevPrev := (linkGet s.2 prev).map (fun l => l.1)
  let nextNext := (linkGet s.2 next).map (fun l => l.2.1)
  match nextNext, prevPrev with
  | some nextNext, some prevPrev => do
    let s ← vwFixNext area line s prev next nextNext
    vwFixPrev area line s prevPrev prev next
  | none, some prevPrev => vwFixPrev area line s prevPrev prev next
  | some nextNext, none => vwFixNext area line s prev next nextNext
  | none, none => .ok s

/-- the loop `src/linestring_2d/simplify.rs` 263-345 (3D: 99-180) -/
def vwLoop (area : P → P → P → α) (line : List P) (pick : Nat → VwHeap α → Nat) (guard2 : Bool)
    (toDelete : Nat) : Nat → VwHeap α × VwLinks α → Nat → Except Err (VwLinks α)
  | 0, _, _ => .error .diverge
  | fuel + 1, s, deleted =>
    if s.1.isEmpty || (guard2 && s.2.length == 2) || decide (toDelete ≤ deleted) then .ok s.2
    else
      let pos := pick fuel s.1
      match s.1[pos]? with
      | none => .error .panic
      | some smallest =>
        let heap := s.1.eraseIdx pos
        match linkGet s.2 smallest.2 with
        | none => vwLoop area line pick guard2 toDelete fuel (heap, s.2) deleted
        | some links =>
          if !(smallest.1 ==. links.2.2) then
            vwLoop area line pick guard2 toDelete fuel (heap, s.2) deleted
          else do
            let s ← vwDelete area line (heap, linkRemove s.2 smallest.2) links.1 links.2.1
            vwLoop area line pick guard2 toDelete fuel s (deleted + 1)

/-- `link_tree.keys().sorted_unstable()` (the keys are different) -/
def vwKeys (links : VwLinks α) : List Nat := (links.map (·.1)).insertionSort (· ≤ ·)

/-- `src/linestring_2d/simplify.rs` 213-370 `simplify_vw`, `src/linestring_2d.rs` 1033-1035
`LineString2::simplify_vw` -/
def simplifyVw2 (pick : Nat → VwHeap α → Nat) (fuel : Nat) (line : List (V2 α)) (toDelete : Nat) :
    Except Err (List (V2 α)) :=
  if line.length ≤ 2 then .ok line
  else do
    let s ← vwInit triangleArea2 line
    let s ← if isConnected2 line then vwConnect triangleArea2 line s else .ok s
    let links ← vwLoop triangleArea2 line pick true toDelete fuel s 0
    if !isConnected2 line then (0 :: (vwKeys links ++ [line.length - 1])).mapM (idx line)
    else (0 :: vwKeys links).mapM (idx line)

/-- `src/linestring_3d.rs` 166-179 `Line3::triangle_area_squared_times_4` -/
def triangleArea3 (p1 p2 p3 : V3 α) : α :=
  let v1x := p1.x -. p2.x
  let v1y := p1.y -. p2.y
  let v1z := p1.z -. p2.z
  let v2x := p3.x -. p2.x
  let v2y := p3.y -. p2.y
  let v2z := p3.z -. p2.z
  let x := v1y *. v2z -. v2y *. v1z
  let y := v1x *. v2z -. v2x *. v1z
  let z := v1x *. v2y -. v2x *. v1y
  x *. x +. y *. y +. z *. z

/-- `src/linestring_3d/simplify.rs` 62-191 `simplify_vw`, `src/linestring_3d.rs` 504-506 -/
def simplifyVw3 (pick : Nat → VwHeap α → Nat) (fuel : Nat) (line : List (V3 α)) (toDelete : Nat) :
    Except Err (List (V3 α)) :=
  if line.length ≤ 2 then .ok line
  else do
    let s ← vwInit triangleArea3 line
    let links ← vwLoop triangleArea3 line pick false toDelete fuel s 0
    (0 :: vwKeys links).mapM (idx line)

end Verif.Model
