import Verif.Model.Float
/-!
# Decimal numerals, and what the standard library's `Display` of a float promises

`format!("{}", x)` and `format!("{:.1}", x)` of an `f32` or `f64` are code of the Rust standard library, not of
the crate.  `DisplayOk` and `DisplayOneOk` say what the documentation of the standard library promises about
them; `Props/Debug.lean` shows that there are functions that do what is promised.
-/
namespace Verif.Spec
open Verif Verif.Fl

/-- the natural number written with these digits; nothing if there is no digit or some other character -/
def natOf (s : List Char) : Option ℕ :=
  if s ≠ [] ∧ s.all Char.isDigit then some (s.foldl (fun n c => 10 * n + (c.toNat - '0'.toNat)) 0) else none

/-- the value of an unsigned decimal numeral, `12` or `12.375` -/
def decimal (s : List Char) : Option ℚ :=
  match s.dropWhile (· ≠ '.') with
  | [] => (natOf s).map (fun n => (n : ℚ))
  | _ :: b =>
    match natOf (s.takeWhile (· ≠ '.')), natOf b with
    | some n, some m => some (n + m / 10 ^ b.length)
    | _, _ => none

/-- the number a text without sign stands for: the float nearest to the decimal, `inf` or `NaN` -/
def unsignedNumber (f : Fmt) (s : List Char) : Option (Flt f) :=
  if s = ['N', 'a', 'N'] then some .nan
  else if s = ['i', 'n', 'f'] then some (.inf false)
  else (decimal s).map (Flt.ofQ false)

/-- the number a text stands for, as `str::parse` reads it -/
def number (f : Fmt) (s : List Char) : Option (Flt f) :=
  match s with
  | '-' :: r => (unsignedNumber f r).map Flt.neg
  | _ => unsignedNumber f s

/-- `format!("{}", x)`: `NaN`, `inf`, `-inf`; for finite numbers a decimal numeral (no exponent) from which the number can be
read back, with a minus in front of it if the sign bit is set. -/
structure DisplayOk {f : Fmt} (plain : Flt f → String) : Prop where
  nan : plain .nan = "NaN"
  inf : plain (.inf false) = "inf"
  neg : ∀ x : Flt f, x ≠ .nan → x.sign = true → plain x = "-" ++ plain x.neg
  pos : ∀ x : Flt f, x.isFin = true → x.sign = false → ∃ v, decimal (plain x).toList = some v ∧ Flt.ofQ false v = x

/-- `format!("{:.1}", x)` for finite numbers: the decimal numeral with one digit after the point that is nearest to the
number, with a minus in front of it if the sign bit is set. -/
structure DisplayOneOk {f : Fmt} (one : Flt f → String) : Prop where
  neg : ∀ x : Flt f, x.isFin = true → x.sign = true → one x = "-" ++ one x.neg
  pos : ∀ x : Flt f, x.isFin = true → x.sign = false → ∃ (n : ℕ) (d : Char), d.isDigit = true ∧
    (one x).toList = Nat.toDigits 10 n ++ ['.', d] ∧ |(n : ℚ) + ((d.toNat - '0'.toNat : ℕ) : ℚ) / 10 - x.val| ≤ 1 / 20

end Verif.Spec
