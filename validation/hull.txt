def merge3 {A} (lt : A → A → Bool) (l : List A) : List A := l.mergeSort (fun a b => !lt b a)
def srt {I} (l : List (I × Float32 × Float32)) : List (I × Float32 × Float32) :=
  l.mergeSort fun a b => angleCmp a b != .gt
def ok! {A} [Inhabited A] : Except Err A → A | .ok a => a | .error _ => panic! "error"
instance : Inhabited (V2 Float32) := ⟨⟨0,0⟩⟩
def P2 := pts2 WS 0 3023 0 4096
def gs := ok! (grahamScan srt P2)
def ix (n : Nat) := List.range n
def igs := ok! (indexedGrahamScan srt P2 (ix 3023))
def igw := ok! (indexedGiftWrap 4000 P2 (ix 3023))
def gw := ok! (giftWrap 4000 P2)
def ctr : V2 Float32 := ⟨2000, 2000⟩
def leftAll (l : List (V2 Float32)) (c : V2 Float32) := (windowIter2 l).all fun e => isPointLeft e.start e.end c
def same (a b : List (V2 Float32)) := a.length == b.length && (a.zip b).all fun p => p.1.beq p.2
#eval (gs.length, igs.length, igw.length, gw.length, leftAll gs ctr, igs == igw, same gs gw)
#eval igs
-- all points inside every edge (the doc tests)
def allLeft (l : List (V2 Float32)) := l.all fun p => (windowIter2 l).all fun e => isPointLeftAllowCollinear e.start e.end p
#eval allLeft gs
-- convex_hull_3
def A3 := pts2 WS 0 1023 0 4096
def B3 := pts2 WS 2046 1023 100 3000
def a3 := ok! (grahamScan srt A3)
def b3 := ok! (grahamScan srt B3)
def sortWo (s : V2 Float32) (l : List (V2 Float32)) : Option (List (V2 Float32)) :=
  some (l.mergeSort fun x y => orientCmp s x y != some .gt)
def b3' := ok! (grahamScanWoAtan2 sortWo B3)
#eval (a3.length, b3.length, (ok! (indexedGrahamScan srt B3 (ix 1023))).length, b3'.length)
#eval [containsConvexHull a3 b3, containsConvexHullPar id a3 b3, containsConvexHull b3 a3, containsConvexHullPar List.reverse b3 a3,
  containsConvexHull a3 b3', containsConvexHull b3' a3].map (·.toOption)
-- doc tests
def dpar := ok! (convexHullPar 4000 (.node 2 (.node 1 .leaf .leaf) (.node 1 .leaf .leaf)) srt A3 (ix 1023) 250)
def digs := ok! (indexedGrahamScan srt A3 (ix 1023))
#eval (dpar, digs, dpar == digs)
def D200 := pts2 WS 0 200 0 10
def d200 := ok! (indexedGiftWrap 4000 D200 (ix 200))
#eval (d200, leftAll (d200.map fun i => D200[i]!) ⟨5,5⟩, allLeft (d200.map fun i => D200[i]!))
def D50 := pts2 WS 0 50 0 4096
#eval (leftAll (ok! (giftWrap 400 D50)) ctr, allLeft (ok! (giftWrap 400 D50)))
def wo := ok! (grahamScanWoAtan2 sortWo A3)
#eval (leftAll wo ctr, allLeft wo, same wo a3)
