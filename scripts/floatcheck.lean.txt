/- Compares `Verif.Flt b64` with the floating point unit (`Float`) on random bit patterns.
   A test of the float model, not part of the build:  cp floatcheck.lean.txt /tmp/fc.lean; lake env lean /tmp/fc.lean -/
import Verif.Model.Float
open Verif Flt Fl
def ofBits (u : UInt64) : F64 :=
  let s := u >>> 63 == 1
  let e := ((u >>> 52) &&& 0x7ff).toNat
  let m := (u &&& 0xfffffffffffff).toNat
  if e = 2047 then (if m = 0 then .inf s else .nan)
  else if e = 0 ∧ m = 0 then .zero s
  else
    let q : ℚ := if e = 0 then m * pow2 (-1074) else (m + 2^52 : ℕ) * pow2 (e - 1075)
    ofQ s (if s then -q else q)
def toBits (a : F64) : UInt64 :=
  match a with
  | .nan => 0x7ff8000000000000
  | a => (if a.sign then 0x8000000000000000 else 0) + UInt64.ofNat a.ord.toNat
def canon (x : Float) : UInt64 := if x.isNaN then 0x7ff8000000000000 else x.toBits
def rnd (g : StdGen) (x : UInt64) (i : Nat) : UInt64 × StdGen :=
  let (a, g) := randNat g 0 (2^64-1)
  let (b, g) := randNat g 0 63
  let (c, g) := randNat g 0 20
  let special : Array UInt64 := #[0, 0x8000000000000000, 0x7ff0000000000000, 0xfff0000000000000, 0x7ff8000000000000,
    0x3ff0000000000000, 0x4000000000000000, 0x7fefffffffffffff, 1, 0x000fffffffffffff, 0x0010000000000000, 0x3fe0000000000000]
  if c < 2 then (special[b % 12]!, g)
  else if c < 6 then (x ^^^ (UInt64.ofNat (a % 2^b.min 8)), g)          -- near the other operand
  else if c < 9 then ((0x3fe0000000000000 : UInt64) + UInt64.ofNat (a % 2^55), g)   -- around one
  else if c < 12 then (Float.toBits (Float.ofNat (a % 2^b)), g)
  else (UInt64.ofNat a, g)
def run (n : Nat) : IO Unit := do
  let mut g := mkStdGen 12345
  let mut bad := 0
  let mut x : UInt64 := 0
  let mut y : UInt64 := 0
  for i in [0:n] do
    let (x', g1) := rnd g y i
    x := x'
    let (y', g2) := rnd g1 x i
    y := y'
    g := g2
    let fx := Float.ofBits x; let fy := Float.ofBits y
    let a := ofBits x; let b := ofBits y
    let ck (nm : String) (p : UInt64) (q : UInt64) : IO Nat := do
      if p != q then IO.println s!"{nm} {x} {y}: model {p} fpu {q}"; return 1 else return 0
    bad := bad + (← ck "id" (toBits a) (canon fx))
    bad := bad + (← ck "add" (toBits (add a b)) (canon (fx + fy)))
    bad := bad + (← ck "sub" (toBits (sub a b)) (canon (fx - fy)))
    bad := bad + (← ck "mul" (toBits (mul a b)) (canon (fx * fy)))
    bad := bad + (← ck "div" (toBits (div a b)) (canon (fx / fy)))
    bad := bad + (← ck "sqrt" (toBits (sqrt a)) (canon fx.sqrt))
    bad := bad + (← ck "ceil" (toBits (ceil a)) (canon fx.ceil))
    bad := bad + (← ck "neg" (toBits (neg a)) (canon (-fx)))
    bad := bad + (← ck "lt" (if lt a b then 1 else 0) (if fx < fy then 1 else 0))
    bad := bad + (← ck "le" (if le a b then 1 else 0) (if fx ≤ fy then 1 else 0))
    bad := bad + (← ck "beq" (if beq a b then 1 else 0) (if fx == fy then 1 else 0))
    bad := bad + (← ck "toUsize" (UInt64.ofNat (toUsize a)) fx.toUInt64)
    bad := bad + (← ck "ofUsize" (toBits (ofQ false (x.toNat : ℚ))) (canon (Float.ofNat x.toNat)))
  IO.println s!"{n} pairs, {bad} differences"
#eval run 20000
