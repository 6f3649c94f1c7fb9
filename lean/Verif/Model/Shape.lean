import Verif.Model.Err
/-!
# Model of `/repo/src/shape.rs`

Panics are explicit (`Err.panic`); loops carry fuel and report `Err.diverge` when it runs out.
`usize` is `Nat`.
-/
namespace Verif.Shape
open Verif

/-- `shape.rs` 51-55 `SetVob`: a bit vector (`Vob<u32>`) with a count of set bits. -/
structure SetVob where
  numberOfSetBits : Nat
  vob : List Bool
deriving DecidableEq, Repr

namespace SetVob
/-- `shape.rs` 58-65 `SetVob::fill_with_false`. -/
def fillWithFalse (size : Nat) : SetVob := ⟨0, List.replicate size false⟩

/-- `shape.rs` 67-70 `SetVob::get`: `vob.get(index).unwrap()` panics out of range. -/
def get (s : SetVob) (index : Nat) : Except Err Bool :=
  match s.vob[index]? with
  | some b => .ok b
  | none => .error .panic

/-- `shape.rs` 72-77 `SetVob::set`: `Vob::set` panics out of range and returns whether the bit
changed. -/
def set (s : SetVob) (index : Nat) : Except Err SetVob :=
  match s.vob[index]? with
  | none => .error .panic
  | some true => .ok s
  | some false => .ok ⟨s.numberOfSetBits + 1, s.vob.set index true⟩
end SetVob

/-- The `AHashMap<usize, SmallVec<[usize; 2]>>` of `shape.rs`, as a partial function
(iteration order is never used). -/
abbrev AdjMap := Nat → Option (List Nat)

/-- `slice::chunks_exact(2)`: consecutive pairs, a trailing odd element is dropped. -/
def chunks2 {β : Type} : List β → List (β × β)
  | a :: b :: rest => (a, b) :: chunks2 rest
  | _ => []

/-- `shape.rs` 209-212 / 214-217: `entry(k).or_default()` then push `v` if not contained. -/
def addEntry (m : AdjMap) (k v : Nat) : AdjMap := fun i =>
  if i = k then
    let e := (m k).getD []
    some (if e.contains v then e else e ++ [v])
  else m i

/-- `shape.rs` 202-220 `adjacency_map`. -/
def adjacencyMap (indices : List Nat) : Nat × AdjMap :=
  (chunks2 indices).foldl
    (fun (acc : Nat × AdjMap) (c : Nat × Nat) =>
      (max (max acc.1 c.1) c.2, addEntry (addEntry acc.2 c.1 c.2) c.2 c.1))
    (0, fun _ => none)

/-- `shape.rs` 224-251 `termination_candidate_nodes`.  The candidate vector is only used as a stack
(`last_mut`, `pop`), it is modelled as a list whose *head* is the last element; the neighbour array of
a candidate is only ever `pop`ped, so it is kept reversed (head = last element). -/
def terminationCandidateNodes (maxIndex : Nat) (adj : AdjMap) :
    Except Err (SetVob × List (Nat × List Nat)) :=
  (List.range (maxIndex + 1)).foldlM
    (fun (acc : SetVob × List (Nat × List Nat)) vId =>
      match adj vId with
      | some neighbours =>
        if neighbours.length ≠ 2 then do
          let t ← acc.1.set vId
          return (t, (vId, neighbours.reverse) :: acc.2)
        else return acc
      | none => do
        let t ← acc.1.set vId
        return (t, acc.2))
    (SetVob.fillWithFalse (maxIndex + 1), [])

/-- `shape.rs` 126-178, the `loop` of `unwind_line`.  -/
def unwindLoop (adj : AdjMap) (termination : SetVob) :
    (fuel : Nat) → (current : Nat) → (prev : Option Nat) → (line : List Nat) → (visited : SetVob) →
    Except Err (List Nat × SetVob)
  | 0, _, _, _, _ => .error .diverge
  | fuel + 1, current, prev, line, visited => do
    if (← visited.get current) || (← termination.get current) then
      return (line ++ [current], visited)
    let visited ← visited.set current
    let line := line ++ [current]
    match adj current with
    | none => return (line, visited)
    | some neighbours =>
      match neighbours with
      | [n0, n1] =>
        if !((← visited.get n0) || prev == some n0) then
          unwindLoop adj termination fuel n0 (some current) line visited
        else if !((← visited.get n1) || prev == some n1) then
          unwindLoop adj termination fuel n1 (some current) line visited
        else return (line, visited)
      | _ => return (line, visited)      -- neighbours.len() != 2

/-- `shape.rs` 91-183 `unwind_line`.  The fuel is the number of vertices plus two. -/
def unwindLine (current : Nat) (next : Option Nat) (adj : AdjMap) (termination visited : SetVob) :
    Except Err (List Nat × SetVob) := do
  let fuel := visited.vob.length + 2
  match next with
  | some next =>
    let visited ← if !(← termination.get current) then visited.set current else pure visited
    unwindLoop adj termination fuel next (some current) [current] visited
  | none => unwindLoop adj termination fuel current none [] visited

/-- `shape.rs` 312-332: pop neighbours of the top candidate until one is found that is neither a
termination node nor visited.  Returns the found vertex, the rest of the array and the groups. -/
def scanArray (termination visited : SetVob) (current : Nat) :
    (array : List Nat) → (groups : List (List Nat)) →
    Except Err (Option Nat × List Nat × List (List Nat))
  | [], groups => return (none, [], groups)
  | n :: array, groups => do
    if ← termination.get n then
      if current < n then scanArray termination visited current array (groups ++ [[current, n]])
      else scanArray termination visited current array groups
    else if ← visited.get n then scanArray termination visited current array groups
    else return (some n, array, groups)

/-- `shape.rs` 308-349, first stage: the two nested `while` loops over the candidate stack.
One step of this function handles the top candidate: if its array yields an unvisited vertex a line is
unwound, otherwise the candidate is popped (line 334, whose assert `a.is_empty()` is checked). -/
def stage1 (adj : AdjMap) (termination : SetVob) :
    (fuel : Nat) → (cands : List (Nat × List Nat)) → (visited : SetVob) →
    (groups : List (List Nat)) → Except Err (SetVob × List (List Nat))
  | 0, _, _, _ => .error .diverge
  | _ + 1, [], visited, groups => return (visited, groups)
  | fuel + 1, (current, array) :: cands, visited, groups => do
    let (next, array, groups) ← scanArray termination visited current array groups
    match next with
    | some _ =>
      let (line, visited) ← unwindLine current next adj termination visited
      stage1 adj termination fuel ((current, array) :: cands) visited (groups ++ [line])
    | none =>
      if !array.isEmpty then throw .panic     -- assert!(a.is_empty())
      stage1 adj termination fuel cands visited groups

/-- `shape.rs` 387-395, the inner `while` of stage two: returns `(current, min_index)`. -/
def scanMin (termination visited : SetVob) (maxIndex : Nat) :
    (fuel : Nat) → (current minIndex : Nat) → Except Err (Nat × Nat)
  | 0, _, _ => .error .diverge
  | fuel + 1, current, minIndex => do
    if (← visited.get current) || (← termination.get current) then
      let current := current + 1
      let minIndex := current
      if current ≥ maxIndex then return (minIndex, minIndex)
      else scanMin termination visited maxIndex fuel current minIndex
    else return (current, minIndex)

/-- `shape.rs` 385-421, the `'outer: loop` of stage two. -/
def stage2 (adj : AdjMap) (termination : SetVob) (maxIndex : Nat) :
    (fuel : Nat) → (minIndex : Nat) → (visited : SetVob) →
    (groups : List (List Nat)) → Except Err (SetVob × List (List Nat))
  | 0, _, _, _ => .error .diverge
  | fuel + 1, minIndex, visited, groups => do
    let (current, minIndex) ← scanMin termination visited maxIndex (maxIndex + 2) minIndex minIndex
    if current > maxIndex ∧
        visited.numberOfSetBits + termination.numberOfSetBits ≥ maxIndex then
      return (visited, groups)
    let current := if current > maxIndex then minIndex else current
    if ← visited.get current then throw .panic      -- assert!(!visited.get(current))
    let (line, visited) ← unwindLine current none adj termination visited
    let groups :=
      match line with
      | first :: _ :: _ => groups ++ [line ++ [first]]
      | _ => groups
    if visited.numberOfSetBits + termination.numberOfSetBits ≥ maxIndex then
      return (visited, groups)
    stage2 adj termination maxIndex fuel minIndex visited groups

/-- `shape.rs` 282-424 `divide_into_shapes`.  Fuel of stage one: one step per candidate and one per
neighbour entry; stage two: one step per vertex. -/
def divideIntoShapes (indices : List Nat) : Except Err (List (List Nat) × List Bool) := do
  let (maxIndex, adj) := adjacencyMap indices
  let (termination, cands) ← terminationCandidateNodes maxIndex adj
  let visited := SetVob.fillWithFalse (maxIndex + 1)
  let fuel1 := (cands.map fun c => c.2.length + 1).sum + 1
  let (visited, groups) ← stage1 adj termination fuel1 cands visited []
  if visited.numberOfSetBits + termination.numberOfSetBits < maxIndex + 1 then
    let (visited, groups) ← stage2 adj termination maxIndex (maxIndex + 2) 0 visited groups
    return (groups, visited.vob)
  else return (groups, visited.vob)

end Verif.Shape
