open Fl
/-- exact value of the bits of an f32 -/
def toFlt32 (x : Float32) : F32 :=
  let b := x.toBits.toNat
  let s := b >>> 31 == 1
  let e : Nat := (b >>> 23) % 256
  let m : Nat := b % 2^23
  if e == 255 then (if m == 0 then .inf s else .nan)
  else if e == 0 && m == 0 then .zero s
  else
    let q : ℚ := if e == 0 then (m : ℚ) * pow2 (-149) else ((m : ℚ) + 2^23) * pow2 ((e : ℤ) - 150)
    Flt.ofQ s (if s then -q else q)
def toFlt64 (x : Float) : F64 :=
  let b := x.toBits.toNat
  let s := b >>> 63 == 1
  let e : Nat := (b >>> 52) % 2048
  let m : Nat := b % 2^52
  if e == 2047 then (if m == 0 then .inf s else .nan)
  else if e == 0 && m == 0 then .zero s
  else
    let q : ℚ := if e == 0 then (m : ℚ) * pow2 (-1074) else ((m : ℚ) + 2^52) * pow2 ((e : ℤ) - 1075)
    Flt.ofQ s (if s then -q else q)
def eqF {f} : Flt f → Flt f → Bool
  | .nan, .nan => true
  | .inf a, .inf b => a == b
  | .zero a, .zero b => a == b
  | .fin p _, .fin q _ => p == q
  | _, _ => false
def ulps64 (a b : Float) : Bool :=
  if (a - b).abs <= 2.220446049250313e-16 then true
  else if a.isNaN || b.isNaN then false
  else if a.toBits >>> 63 != b.toBits >>> 63 then false
  else ((a.toBits.toNat : Int) - b.toBits.toNat).natAbs ≤ 4
def W := words 40000
/-- interesting bit patterns: random, near each other, special, small exponents -/
def spec32 : Array UInt32 := #[0,0x80000000,0x7f800000,0xff800000,0x7fc00000,1,2,0x80000001,0x007fffff,0x00800000,0x7f7fffff,0xff7fffff,
  0x3f800000,0xbf800000,0x3f800001,0x3f7fffff,0x4b800000,0x4b800001,0x4b000001,0x34000000,0x34000001,0x5f800000,0x5f7fffff,0x5f000000,0x3fc00000,0x40200000,0x40600000]
def pick32 (i : Nat) : Float32 :=
  let w := W[i]!
  match w.toNat % 5 with
  | 0 => Float32.ofBits spec32[(w.toNat / 5) % spec32.size]!
  | 1 => Float32.ofBits w
  | 2 => Float32.ofBits ((w &&& 0x80ffffff) ||| 0x3f000000)
  | 3 => Float32.ofBits ((0x3f800000 : UInt32) + (w >>> 5) % 16)
  | _ => Float32.ofBits ((w &&& 0x83ffffff) ||| (0x3c000000))
def spec64 : Array UInt64 := spec32.map fun w => (Float32.ofBits w).toFloat.toBits
def spec64b : Array UInt64 := spec64 ++ #[1,2,0x8000000000000001,0x000fffffffffffff,0x0010000000000000,0x7fefffffffffffff,0x3ff0000000000001,0x3cb0000000000000,0x3cb0000000000001,0x4340000000000000,0x4340000000000001]
def pick64 (i : Nat) : Float :=
  let w := W[2*i]!.toUInt64 <<< 32 ||| W[2*i+1]!.toUInt64
  match w.toNat % 5 with
  | 0 => Float.ofBits spec64b[(w.toNat / 5) % spec64b.size]!
  | 1 => Float.ofBits w
  | 2 => Float.ofBits ((w &&& 0x801fffffffffffff) ||| 0x3fe0000000000000)
  | 3 => Float.ofBits ((0x3ff0000000000000 : UInt64) + (w >>> 5) % 16)
  | _ => Float.ofBits ((w &&& 0x807fffffffffffff) ||| (0x3f80000000000000))
def chk32 (x y : Float32) : List Bool :=
  let a := toFlt32 x; let b := toFlt32 y
  [eqF (a.add b) (toFlt32 (x+y)), eqF (a.sub b) (toFlt32 (x-y)), eqF (a.mul b) (toFlt32 (x*y)), eqF (a.div b) (toFlt32 (x/y)),
   eqF a.sqrt (toFlt32 x.sqrt), eqF a.ceil (toFlt32 x.ceil), Flt.lt a b == decide (x < y), Flt.le a b == decide (x ≤ y), Flt.beq a b == (x == y),
   Flt.ulpsEq a b == ulps32 x y, a.isFin == x.isFinite, eqF a.neg (toFlt32 (-x)), eqF a.abs (toFlt32 x.abs), a.toUsize == x.toUSize.toNat,
   x.isNaN || a.sign == (x.toBits >>> 31 == 1),
   x.isNaN || a.ord.toNat == (x.toBits &&& 0x7fffffff).toNat]
def chk64 (x y : Float) : List Bool :=
  let a := toFlt64 x; let b := toFlt64 y
  [eqF (a.add b) (toFlt64 (x+y)), eqF (a.sub b) (toFlt64 (x-y)), eqF (a.mul b) (toFlt64 (x*y)), eqF (a.div b) (toFlt64 (x/y)),
   eqF a.sqrt (toFlt64 x.sqrt), eqF a.ceil (toFlt64 x.ceil), Flt.lt a b == decide (x < y), Flt.le a b == decide (x ≤ y), Flt.beq a b == (x == y),
   Flt.ulpsEq a b == ulps64 x y, a.isFin == x.isFinite, eqF a.neg (toFlt64 (-x)), eqF a.abs (toFlt64 x.abs), a.toUsize == x.toUSize.toNat,
   x.isNaN || a.sign == (x.toBits >>> 63 == 1),
   x.isNaN || a.ord.toNat == (x.toBits &&& 0x7fffffffffffffff).toNat]
#eval Id.run do
  let mut fails := #[]
  for i in [0:20000] do
    let x := pick32 (2*i % 39990); let y := pick32 ((2*i+1 + 17*(i/10000)) % 39990)
    let r := chk32 x y
    for (c, k) in r.zipIdx do if !c then fails := fails.push (k, x.toBits, y.toBits)
  return (fails.size, fails.toList.take 10)
#eval Id.run do
  let mut fails := #[]
  for i in [0:9990] do
    let x := pick64 (2*i); let y := pick64 (2*i+1)
    let r := chk64 x y
    for (c, k) in r.zipIdx do if !c then fails := fails.push (k, x.toBits, y.toBits)
  return (fails.size, fails.toList.take 10)
-- how often the two sides of ulps_eq occur
#eval ((List.range 9990).map fun i => ulps64 (pick64 (2*i)) (pick64 (2*i+1))).count true
