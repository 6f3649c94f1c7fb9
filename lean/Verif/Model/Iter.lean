import Verif.Model.LineString2
/-!
# `WindowIterator` as an `ExactSizeIterator`

`WindowIterator` (2D) implements `Iterator::next` and `ExactSizeIterator::len` but not `Iterator::size_hint`, so the provided
`size_hint` applies.  The iterator adapters of the standard library that do not define `len` themselves compute it from
`size_hint` with the provided `ExactSizeIterator::len`, which panics if the two bounds differ.
-/
namespace Verif.Model
open Verif

/-- `src/linestring_2d/impls.rs` 155-164: `size_hint` is not defined, so it is the provided `Iterator::size_hint`, `(0, None)` -/
def windowSizeHint {A : Type} (_line : List A) : Nat × Option Nat := (0, none)

/-- `src/linestring_2d/impls.rs` 177-181 `ExactSizeIterator::len` for `WindowIterator`; `self.len()` is the inherent method -/
def windowExactLen {A : Type} (line : List A) : Nat := windowLen line

/-- standard library: `Take::size_hint` -/
def takeSizeHint (n : Nat) (h : Nat × Option Nat) : Nat × Option Nat :=
  if n = 0 then (0, some 0)
  else (min h.1 n, match h.2 with | some x => if x < n then some x else some n | none => some n)

/-- standard library: the provided `ExactSizeIterator::len`, `assert_eq!(upper, Some(lower))`; `none` is a panic -/
def providedLen (h : Nat × Option Nat) : Option Nat := if h.2 = some h.1 then some h.1 else none

end Verif.Model
