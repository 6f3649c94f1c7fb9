def srt {I} (l : List (I × Float32 × Float32)) : List (I × Float32 × Float32) :=
  l.mergeSort fun a b => angleCmp a b != .gt
def same (a b : List (V2 Float32)) := a.length == b.length && (a.zip b).all fun p => p.1.beq p.2
def PI : Float32 := Float32.ofBits 0x40490fdb
def rad (a : Float32) : Float32 := a * (PI / 180.0)
def pivot (x y l1 l2 angle : Float32) : Line2 Float32 :=
  let s : V2 Float32 := ⟨x + (rad angle).cos * l1, y + (rad angle).sin * l1⟩
  let e : V2 Float32 := ⟨x + (rad (angle + 180)).cos * l2, y + (rad (angle + 180)).sin * l2⟩
  let v := e.sub s
  let v1 := v.neg.smul (l1 / (l1 + l2))
  let v2 := v.smul (l2 / (l1 + l2))
  ⟨⟨x + v1.x, y + v1.y⟩, ⟨x + v2.x, y + v2.y⟩⟩
def steps (a b s : Nat) : List Float32 := ((List.range b).filter fun i => a ≤ i && (i - a) % s == 0).map Float32.ofNat
-- ray_intersection_2: always a hit
#eval (steps 1 361 3).all fun r => let l := pivot 200 200 50 4 r
  (closestRayIntersection [l.start, l.end] ⟨1, 0⟩ ⟨10, 200⟩).isSome
-- intersection_5: always a point
#eval (steps 0 360 5).all fun r => let l := pivot 100 100 50 50 r
  let p := scaleToCoordinate l.start (l.end.sub l.start) 0.45
  (l.intersectionPoint ⟨p, p⟩).isSome
-- intersection_9 and 10: always an overlap, equal to the line up to ulps
def overlapOk (l : Line2 Float32) : Option (Intersection Float32) → Bool
  | some (.overlap o) => o.start.ulpsEq l.start && o.end.ulpsEq l.end
  | _ => false
def overlapAny (l : Line2 Float32) : Option (Intersection Float32) → Bool
  | some (.overlap o) => (o.start.ulpsEq l.start && o.end.ulpsEq l.end) || (o.start.ulpsEq l.end && o.end.ulpsEq l.start)
  | _ => false
#eval (steps 0 360 3).all fun r => let l := pivot 200 200 50 1 r
  overlapAny l (l.intersectionPoint l)
#eval (steps 0 360 3).all fun r => let l := pivot 200 200 50 1 r
  overlapAny l (l.intersectionPoint ⟨l.end, l.start⟩)
-- simplify_vw_4
def leastP (heap : VwHeap Float32) : Nat := Id.run do
  let mut best := 0
  let mut v : Float32 := 1.0/0.0
  let mut i := 0
  for e in heap do
    if e.1 < v then
      best := i
      v := e.1
    i := i + 1
  return best
def vw4 : List (V2 Float32) := (steps 0 360 20).map fun i => ⟨(rad i).cos * 100, (rad i).sin * 100⟩
#eval (vw4.length, (simplifyVw2 (fun _ h => leastP h) 1000 vw4 6).toOption.map fun l => (l.length, isConnected2 l == isConnected2 vw4))
-- convex_hull_circle
def circ0 : List (V2 Float32) := (List.range 1000).map fun i => let t := 2.0 * PI * Float32.ofNat i / 1000; ⟨t.cos, t.sin⟩
def circ := circ0 ++ circ0.take 1
def ghs := (grahamScan srt circ).toOption.get!
def gw := (giftWrap 5000 circ).toOption.get!
def chp := (convexHullPar 5000 (.node 2 .leaf (.node 1 .leaf .leaf)) srt circ (List.range 1000) 200).toOption.get!
def ighs := (indexedGrahamScan srt circ (List.range 1000)).toOption.get!
def igw := (indexedGiftWrap 5000 circ (List.range 1000)).toOption.get!
#eval (ghs.length, gw.length, chp.length, ighs.length, igw.length, same ghs gw, chp == ighs, chp == igw)
-- indexed_intersection test_1, intersection_13
def v13 : List (V2 Float32) := [⟨651.3134, 410.21536⟩, ⟨335.7384, 544.54614⟩, ⟨154.29922, 363.10654⟩, ⟨425.06284, 255.50153⟩, ⟨651.1434, 387.16595⟩, ⟨250.0, 300.0⟩]
#eval (indexedSweepIntersections (fun _ l => l) 1000 true true v13 [(0,1),(2,3),(4,5)]).toOption.map fun r => (r.1.length, r.2)
