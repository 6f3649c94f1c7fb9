import Verif.Model.Sweep
import Verif.Model.Rdp
import Verif.Model.Vw
import Verif.Model.Hull
import Verif.Model.Dist
import Verif.Model.Float
import Verif.Props.Vw
import Verif.Model.LineString2

open Verif Model

def ordBits (x : Float32) : Int := (x.toBits.toNat : Int)
def ulps32 (a b : Float32) : Bool :=
  if (a - b).abs <= 1.1920929e-7 then true
  else if a.isNaN || b.isNaN then false
  else
    let na := a.toBits >>> 31; let nb := b.toBits >>> 31
    if na != nb then false else (ordBits a - ordBits b).natAbs ≤ 4

instance : Scalar Float32 where
  zero := 0
  one := 1
  two := 2
  inf := 1.0 / 0.0
  add := (· + ·)
  sub := (· - ·)
  mul := (· * ·)
  div := (· / ·)
  neg := fun a => -a
  sqrt := Float32.sqrt
  ceil := Float32.ceil
  atan2 := Float32.atan2
  lt := fun a b => decide (a < b)
  le := fun a b => decide (a ≤ b)
  beq := fun a b => a == b
  fmin := fun a b => if a.isNaN then b else if b.isNaN then a else if a < b then a else b
  fmax := fun a b => if a.isNaN then b else if b.isNaN then a else if a < b then b else a
  ulpsEq := ulps32
  isFinite := Float32.isFinite
  isSignNeg := fun a => a.toBits >>> 31 != 0
  toUsize := fun a => a.toUSize.toNat
  ofUsize := Float32.ofNat

/-- ChaCha block -/
def rotl (x : UInt32) (n : UInt32) : UInt32 := (x <<< n) ||| (x >>> (32 - n))
def qr (s : Array UInt32) (a b c d : Nat) : Array UInt32 := Id.run do
  let mut s := s
  s := s.set! a (s[a]! + s[b]!); s := s.set! d (rotl (s[d]! ^^^ s[a]!) 16)
  s := s.set! c (s[c]! + s[d]!); s := s.set! b (rotl (s[b]! ^^^ s[c]!) 12)
  s := s.set! a (s[a]! + s[b]!); s := s.set! d (rotl (s[d]! ^^^ s[a]!) 8)
  s := s.set! c (s[c]! + s[d]!); s := s.set! b (rotl (s[b]! ^^^ s[c]!) 7)
  return s
def block (ctr : Nat) : Array UInt32 := Id.run do
  let init : Array UInt32 := #[0x61707865, 0x3320646e, 0x79622d32, 0x6b206574] ++ Array.replicate 8 0x2a2a2a2a ++ #[UInt32.ofNat ctr, 0, 0, 0]
  let mut s := init
  for _ in [0:6] do
    s := qr s 0 4 8 12; s := qr s 1 5 9 13; s := qr s 2 6 10 14; s := qr s 3 7 11 15
    s := qr s 0 5 10 15; s := qr s 1 6 11 12; s := qr s 2 7 8 13; s := qr s 3 4 9 14
  return Array.zipWith (· + ·) s init
def words (n : Nat) : Array UInt32 := Id.run do
  let mut out := #[]
  for i in [0:(n + 15) / 16] do out := out ++ block i
  return out
def unit (w : UInt32) : Float32 := Float32.ofBits ((w >>> 9) ||| 0x3f800000) - 1.0
def range (lo hi : Float32) (w : UInt32) : Float32 := unit w * (hi - lo) + lo
def pts2 (ws : Array UInt32) (off n : Nat) (lo hi : Float32) : List (V2 Float32) :=
  (List.range n).map fun i => ⟨range lo hi ws[off + 2*i]!, range lo hi ws[off + 2*i+1]!⟩
def pts3 (ws : Array UInt32) (n : Nat) (lo hi : Float32) : List (V3 Float32) :=
  (List.range n).map fun i => ⟨range lo hi ws[3*i]!, range lo hi ws[3*i+1]!, range lo hi ws[3*i+2]!⟩
def WS := words 8000


/-- the shape of the search trees of the sweep line -/
instance : TreeShape Float32 := TreeShape.middle _
