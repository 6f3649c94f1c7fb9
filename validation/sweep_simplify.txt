def leastP (heap : VwHeap Float32) : Nat := Id.run do
  let mut best := 0
  let mut v : Float32 := 1.0/0.0
  let mut i := 0
  for e in heap do
    if e.1 < v then
      best := i
      v := e.1
    i := i + 1
  return best
def cnt {A} : Except Err (List A) → String
  | .ok l => s!"ok {l.length}"
  | .error _ => "err"

def l8 := pts3 WS 500 0 5
def i8 := (List.range 499).flatMap fun i => [i, i+1]
#eval cnt (simplifyVw3 (fun _ h => leastP h) 100000 l8 250)
#eval cnt (indexedSimplifyRdp3 l8 i8 3.5)
#eval cnt (simplifyRdp3 l8 3.5)
def l14 := pts2 WS 0 500 0 4096
def e14 := (List.range 250).map fun i => (2*i, 2*i+1)
#eval isSelfIntersectingLong (fun _ l => l) 100000 l14 |>.toOption
#eval (indexedSweepIntersections (fun _ l => l) 100000 true false l14 e14).toOption.map fun r => r.2.length
