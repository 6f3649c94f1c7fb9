import Verif.Model.Aabb
/-!
# `save_to_obj_file`

`/repo/src/linestring_3d.rs` 656-702.  The text of a vertex, `format!("v {:+e} {:+e} {:+e}", x, y, z)`,
is an arbitrary function `fmt` of the point (Rust's float formatting is not modelled).  The file is the
list of its records; `render` gives the text of a record.  The writer may fail at every record:
`limit` is the number of records it accepts (`none`: no failure).  `File::create` failing is the case
`limit = some 0`; the buffering of `BufWriter` is not modelled (a failing flush leaves a prefix of the
text, as a failing write does here).
-/
namespace Verif.Model
open Verif
variable {α : Type}

/-- a line of the file -/
inductive ObjRec where
  | obj (name : String)
  | vert (text : String) (number : Nat)
  | line (p0 p1 : Nat)
deriving DecidableEq, Repr

/-- the text of a record: the `writeln!` of `src/linestring_3d.rs` 675, 677, 685 (without line feed) -/
def ObjRec.render : ObjRec → String
  | .obj name => "o " ++ name
  | .vert text n => text ++ " #" ++ toString n
  | .line a b => "l " ++ toString a ++ " " ++ toString b

/-- the errors of `save_to_obj_file` -/
inductive ObjErr where
  | io
  | internal
deriving DecidableEq, Repr

/-- the `HashMap<String, usize>`: its entries (in some order) -/
abbrev ObjMap := List (String × Nat)

/-- `point_set.get(k)` -/
def ObjMap.get (m : ObjMap) (k : String) : Option Nat := (m.find? (fun e => e.1 == k)).map (·.2)

/-- `let len = point_set.len(); point_set.entry(k).or_insert(len)`, `src/linestring_3d.rs` 667-668 -/
def ObjMap.intern (m : ObjMap) (k : String) : ObjMap :=
  match m.get k with
  | some _ => m
  | none => m ++ [(k, m.length)]

/-- the body of the loop `src/linestring_3d.rs` 666-671 -/
def ObjMap.addLine (fmt : V3 α → String) (m : ObjMap) (l : Line3 α) : ObjMap :=
  (m.intern (fmt l.start)).intern (fmt l.end)

/-- `src/linestring_3d.rs` 662-673 -/
def objPointSet (fmt : V3 α → String) (lines : List (List (Line3 α))) : ObjMap :=
  lines.foldl (fun m i => i.foldl (fun m j => m.addLine fmt j) m) []

/-- the file being written and the error that stopped the function, if any -/
structure ObjState where
  file : List ObjRec
  err : Option ObjErr

/-- `writeln!(file, ..)?` -/
def ObjState.write (limit : Option Nat) (r : ObjRec) (s : ObjState) : ObjState :=
  match s.err with
  | some _ => s
  | none =>
    match limit with
    | none => ⟨s.file ++ [r], none⟩
    | some n => if s.file.length < n then ⟨s.file ++ [r], none⟩ else ⟨s.file, some .io⟩

/-- the body of the second loop, `src/linestring_3d.rs` 681-696 -/
def ObjState.writeLine (fmt : V3 α → String) (m : ObjMap) (limit : Option Nat) (s : ObjState)
    (l : Line3 α) : ObjState :=
  match s.err with
  | some _ => s
  | none =>
    match m.get (fmt l.start) with
    | some p0 =>
      match m.get (fmt l.end) with
      | some p1 => s.write limit (.line (p0 + 1) (p1 + 1))
      | none => ⟨s.file, some .internal⟩
    | none => ⟨s.file, some .internal⟩

/-- `src/linestring_3d.rs` 656-702 `save_to_obj_file`.  `sorted` is the result of
`point_set.iter().sorted_unstable_by(|a, b| a.1.cmp(b.1))`: the theorems take every list that is a
permutation of the entries sorted by value, whatever the iteration order of the map. -/
def saveToObj (fmt : V3 α → String) (name : String) (lines : List (List (Line3 α)))
    (sorted : ObjMap) (limit : Option Nat) : ObjState :=
  let ps := objPointSet fmt lines
  let s := (⟨[], none⟩ : ObjState).write limit (.obj name)
  let s := sorted.foldl (fun s kv => s.write limit (.vert kv.1 (kv.2 + 1))) s
  lines.foldl (fun s i => i.foldl (fun s j => s.writeLine fmt ps limit j) s) s

end Verif.Model
