import Verif.Model.Hull
/-!
# The hull algorithms only look at their points through a few tests

If two kinds of points agree on these tests, the algorithms do the same on both.
-/
namespace Verif.Proofs.Transfer
open Verif Verif.Model Scalar
variable {α β : Type} [Scalar α] [Scalar β] {ι : Type}
set_option linter.unusedVariables false
set_option linter.unusedSectionVars false

/-- the tests that containment uses (sides and equality) give the same answers on points of `S` and on their images under `φ` -/
structure Turns (S : V2 α → Prop) (φ : V2 α → V2 β) : Prop where
  left : ∀ a b c, S a → S b → S c → isPointLeft (φ a) (φ b) (φ c) = isPointLeft a b c
  leftC : ∀ a b c, S a → S b → S c →
    isPointLeftAllowCollinear (φ a) (φ b) (φ c) = isPointLeftAllowCollinear a b c
  beq : ∀ a b, S a → S b → (φ a).beq (φ b) = a.beq b

/-- the tests give the same answers on points of `S` and on their images under `φ` -/
structure Agree (S : V2 α → Prop) (φ : V2 α → V2 β) : Prop extends Turns S φ where
  orient : ∀ a b c, S a → S b → S c → pointOrientation (φ a) (φ b) (φ c) = pointOrientation a b c
  pop : ∀ a b c, S a → S b → S c →
    (Scalar.zero >. cross2d (φ a) (φ b) (φ c) || Scalar.ulpsEq (cross2d (φ a) (φ b) (φ c)) Scalar.zero)
      = (Scalar.zero >. cross2d a b c || Scalar.ulpsEq (cross2d a b c) Scalar.zero)
  far : ∀ a b c, S a → S b → S c →
    ((φ a).distSq (φ c) >. (φ a).distSq (φ b)) = (a.distSq c >. a.distSq b)
  pcx : ∀ a b, S a → S b → Scalar.pcmp (φ a).x (φ b).x = Scalar.pcmp a.x b.x
  lty : ∀ a b, S a → S b → ((φ a).y <. (φ b).y) = (a.y <. b.y)

theorem Agree.mono {S T : V2 α → Prop} {φ : V2 α → V2 β} (H : Agree S φ) (h : ∀ p, T p → S p) : Agree T φ where
  orient a b c ha hb hc := H.orient a b c (h a ha) (h b hb) (h c hc)
  left a b c ha hb hc := H.left a b c (h a ha) (h b hb) (h c hc)
  leftC a b c ha hb hc := H.leftC a b c (h a ha) (h b hb) (h c hc)
  pop a b c ha hb hc := H.pop a b c (h a ha) (h b hb) (h c hc)
  far a b c ha hb hc := H.far a b c (h a ha) (h b hb) (h c hc)
  pcx a b ha hb := H.pcx a b (h a ha) (h b hb)
  lty a b ha hb := H.lty a b (h a ha) (h b hb)
  beq a b ha hb := H.beq a b (h a ha) (h b hb)

/-- `get'` is `get` seen through `φ` at the index `i`, which is called `g i` on the other side -/
def RelAt {κ : Type} (S : V2 α → Prop) (φ : V2 α → V2 β) (get : ι → Except Err (V2 α))
    (get' : κ → Except Err (V2 β)) (g : ι → κ) (i : ι) : Prop :=
  (∃ e, get i = .error e ∧ get' (g i) = .error e) ∨ ∃ p, S p ∧ get i = .ok p ∧ get' (g i) = .ok (φ p)

/-- `get'` is `get` seen through `φ` -/
def Related (S : V2 α → Prop) (φ : V2 α → V2 β) (get : ι → Except Err (V2 α)) (get' : ι → Except Err (V2 β)) :
    Prop :=
  ∀ i, RelAt S φ get get' id i

theorem Related.look {S : V2 α → Prop} {φ : V2 α → V2 β} {get : ι → Except Err (V2 α)}
    {get' : ι → Except Err (V2 β)} (R : Related S φ get get') (i : ι) :
    (∃ e, get i = .error e ∧ get' i = .error e) ∨ ∃ p, S p ∧ get i = .ok p ∧ get' i = .ok (φ p) := R i

variable {S : V2 α → Prop} {φ : V2 α → V2 β} {κ : Type}

theorem lowestLoop_eq {get : ι → Except Err (V2 α)} {get' : κ → Except Err (V2 β)} {g : ι → κ}
    (H : Agree S φ) : ∀ (l : List ι) (R : ∀ i ∈ l, RelAt S φ get get' g i) (pos k : Nat) (v : V2 α), S v →
    lowestLoop get' (l.map g) pos k (φ v) = (lowestLoop get l pos k v).map (fun r => (r.1, φ r.2)) ∧
      ∀ r, lowestLoop get l pos k v = .ok r → S r.2
  | [], _, pos, k, v, hv => by
    refine ⟨rfl, ?_⟩
    intro r hr
    simp only [lowestLoop, Except.ok.injEq] at hr
    subst hr; exact hv
  | i :: l, R, pos, k, v, hv => by
    have R' : ∀ i ∈ l, RelAt S φ get get' g i := fun i hi => R i (List.mem_cons_of_mem _ hi)
    rcases R i List.mem_cons_self with ⟨e, h1, h2⟩ | ⟨p, hp, h1, h2⟩
    · simp only [List.map_cons, lowestLoop, h1, h2]
      exact ⟨rfl, fun r hr => by cases hr⟩
    · simp only [List.map_cons, lowestLoop, h1, h2]
      simp only [bind, Except.bind]
      rw [H.pcx p v hp hv, H.lty p v hp hv]
      have a1 := lowestLoop_eq H l R' (pos + 1) pos p hp
      have a2 := lowestLoop_eq H l R' (pos + 1) k v hv
      cases Scalar.pcmp p.x v.x with
      | none => exact ⟨rfl, fun r hr => by cases hr⟩
      | some o =>
        cases o with
        | lt => exact a1
        | gt => exact a2
        | eq =>
          simp only
          split
          · exact a1
          · exact a2

theorem findLowest_eq {get : ι → Except Err (V2 α)} {get' : κ → Except Err (V2 β)} {g : ι → κ}
    (H : Agree S φ) (nv : Bool) (l : List ι) (R : ∀ i ∈ l, RelAt S φ get get' g i) :
    findLowest nv get' (l.map g) = (findLowest nv get l).map (fun r => (r.1, φ r.2)) ∧
      ∀ r, findLowest nv get l = .ok r → S r.2 := by
  unfold findLowest
  split
  · exact ⟨rfl, fun r hr => by cases hr⟩
  · cases l with
    | nil => exact ⟨rfl, fun r hr => by cases hr⟩
    | cons i l =>
      rcases R i List.mem_cons_self with ⟨e, h1, h2⟩ | ⟨p, hp, h1, h2⟩
      · simp only [List.map_cons, h1, h2]
        exact ⟨rfl, fun r hr => by cases hr⟩
      · simp only [List.map_cons, h1, h2, bind, Except.bind]
        exact lowestLoop_eq H l (fun i hi => R i (List.mem_cons_of_mem _ hi)) 1 0 p hp

theorem popWhile_eq {get : ι → Except Err (V2 α)} {get' : κ → Except Err (V2 β)} {g : ι → κ}
    (H : Agree S φ) (p : V2 α) (hp : S p) :
    ∀ (n : Nat) (l : List ι), l.length ≤ n → (∀ i ∈ l, RelAt S φ get get' g i) →
      popWhile get' (φ p) (l.map g) = (popWhile get p l).map (List.map g) ∧
        ∀ r, popWhile get p l = .ok r → ∀ i ∈ r, i ∈ l
  | _, [], _, _ => by
    refine ⟨by simp [popWhile, Except.map], ?_⟩
    intro r hr; simp only [popWhile, Except.ok.injEq] at hr; subst hr; simp
  | _, [a], _, _ => by
    refine ⟨by simp [popWhile, Except.map], ?_⟩
    intro r hr; simp only [popWhile, Except.ok.injEq] at hr; subst hr; simp
  | 0, a :: b :: l, h, _ => by simp at h
  | n + 1, a :: b :: l, h, R => by
    have ih := popWhile_eq H p hp n (b :: l) (by simp at h ⊢; omega)
      (fun i hi => R i (List.mem_cons_of_mem _ hi))
    rw [List.map_cons, List.map_cons]
    unfold popWhile
    rcases R b (by simp) with ⟨e, h1, h2⟩ | ⟨pb, hb, h1, h2⟩
    · rw [h1, h2]; exact ⟨rfl, fun r hr => by cases hr⟩
    · rcases R a (by simp) with ⟨e, h3, h4⟩ | ⟨pa, ha, h3, h4⟩
      · rw [h1, h2, h3, h4]; exact ⟨rfl, fun r hr => by cases hr⟩
      · rw [h1, h2, h3, h4]
        simp only [bind, Except.bind]
        rw [H.pop pb pa p hb ha hp]
        split
        · refine ⟨ih.1, fun r hr i hi => List.mem_cons_of_mem _ (ih.2 r hr i hi)⟩
        · refine ⟨rfl, ?_⟩
          intro r hr
          simp only [Except.ok.injEq] at hr
          subst hr; exact fun i hi => hi

theorem grahamLoop_eq {get : ι → Except Err (V2 α)} {get' : κ → Except Err (V2 β)} {g : ι → κ}
    (H : Agree S φ) (skip : ι → Bool) (skip' : κ → Bool) :
    ∀ (l hull : List ι), (∀ i ∈ l, RelAt S φ get get' g i) → (∀ i ∈ hull, RelAt S φ get get' g i) →
      (∀ i ∈ l, skip' (g i) = skip i) →
      grahamLoop get' skip' (l.map g) (hull.map g) = (grahamLoop get skip l hull).map (List.map g)
  | [], _, _, _, _ => rfl
  | i :: l, hull, Rl, Rh, hs => by
    have Rl' : ∀ i ∈ l, RelAt S φ get get' g i := fun i hi => Rl i (List.mem_cons_of_mem _ hi)
    have hs' : ∀ i ∈ l, skip' (g i) = skip i := fun i hi => hs i (List.mem_cons_of_mem _ hi)
    rw [List.map_cons]
    unfold grahamLoop
    rw [hs i List.mem_cons_self]
    split
    · exact grahamLoop_eq H skip skip' l hull Rl' Rh hs'
    · rcases Rl i List.mem_cons_self with ⟨e, h1, h2⟩ | ⟨p, hp, h1, h2⟩
      · rw [h1, h2]; rfl
      · rw [h1, h2]
        simp only [bind, Except.bind]
        obtain ⟨e1, e2⟩ := popWhile_eq H p hp _ hull (Nat.le_refl _) Rh
        rw [e1]
        cases hc : popWhile get p hull with
        | error e => rfl
        | ok h =>
          exact grahamLoop_eq H skip skip' l (i :: h) Rl' (by
            intro j hj
            rcases List.mem_cons.1 hj with rfl | hj
            · exact Rl j List.mem_cons_self
            · exact Rh j (e2 h hc j hj)) hs'

/-- the scan of `graham_scan_wo_atan2` -/
theorem grahamLoop2_eq (H : Agree S φ) :
    ∀ (l hull : List (V2 α)), (∀ p ∈ l, S p) → (∀ p ∈ hull, S p) →
      grahamLoop2 (l.map φ) (hull.map φ) = (grahamLoop2 l hull).map (List.map φ)
  | [], _, _, _ => rfl
  | p :: l, hull, hl, hh => by
    have hl' : ∀ p ∈ l, S p := fun i hi => hl i (List.mem_cons_of_mem _ hi)
    have hp : S p := hl p List.mem_cons_self
    rw [List.map_cons]
    unfold grahamLoop2
    obtain ⟨e1, e2⟩ := popWhile_eq (get := getPoint) (get' := getPoint) (g := φ) H p hp _ hull (Nat.le_refl _)
      (fun i hi => Or.inr ⟨i, hh i hi, rfl, rfl⟩)
    rw [e1]
    cases hc : popWhile getPoint p hull with
    | error e => rfl
    | ok h =>
      have hhS : ∀ q ∈ h, S q := fun q hq => hh q (e2 h hc q hq)
      simp only [Except.map, bind, Except.bind]
      cases h with
      | nil => rfl
      | cons last rest =>
        simp only [List.map_cons]
        rw [H.beq last p (hhS last List.mem_cons_self) hp]
        split
        · have := grahamLoop2_eq H l (last :: rest) hl' hhS
          rw [List.map_cons] at this
          exact this
        · have := grahamLoop2_eq H l (p :: last :: rest) hl' (by
            intro q hq
            rcases List.mem_cons.1 hq with rfl | hq
            · exact hp
            · exact hhS q hq)
          rw [List.map_cons, List.map_cons] at this
          exact this

/-! ### Gift wrapping -/

theorem giftStep_eq {get : Nat → Except Err (V2 α)} {get' : Nat → Except Err (V2 β)}
    (H : Agree S φ) (R : Related S φ get get') (start p : Nat) (s : Nat × List Nat) (j : Nat) :
    giftStep get' start p s j = giftStep get start p s j := by
  unfold giftStep
  split
  · rfl
  · rcases R.look p with ⟨e, h1, h2⟩ | ⟨pp, hp, h1, h2⟩
    · rw [h1, h2]; rfl
    rcases R.look s.1 with ⟨e, h3, h4⟩ | ⟨pe, he, h3, h4⟩
    · rw [h1, h2, h3, h4]; rfl
    rcases R.look j with ⟨e, h5, h6⟩ | ⟨pj, hj, h5, h6⟩
    · rw [h1, h2, h3, h4, h5, h6]; rfl
    rw [h1, h2, h3, h4, h5, h6]
    simp only [bind, Except.bind]
    rw [H.orient pp pe pj hp he hj, H.far pp pe pj hp he hj]

theorem giftRound_eq {get : Nat → Except Err (V2 α)} {get' : Nat → Except Err (V2 β)}
    (H : Agree S φ) (R : Related S φ get get') (n start p : Nat) (v : List Nat) :
    giftRound get' n start p v = giftRound get n start p v := by
  unfold giftRound
  have : giftStep get' start p = giftStep get start p := by
    funext s j; exact giftStep_eq H R start p s j
  rw [this]

theorem giftLoop_eq {get : Nat → Except Err (V2 α)} {get' : Nat → Except Err (V2 β)}
    (H : Agree S φ) (R : Related S φ get get') (n start : Nat) :
    ∀ (fuel p : Nat) (v h : List Nat), giftLoop get' n start fuel p v h = giftLoop get n start fuel p v h
  | 0, _, _, _ => rfl
  | fuel + 1, p, v, h => by
    unfold giftLoop
    rw [giftRound_eq H R]
    cases giftRound get n start p v with
    | error e => rfl
    | ok r =>
      simp only [bind, Except.bind]
      rw [giftLoop_eq H R n start fuel]

/-! ### Lists of points and indexed points -/

theorem related_idx {pts : List (V2 α)} (hS : ∀ p ∈ pts, S p) :
    Related S φ (idx pts) (idx (pts.map φ)) := by
  intro i
  unfold RelAt idx
  simp only [id]
  rw [List.getElem?_map]
  cases h : pts[i]? with
  | none => exact Or.inl ⟨_, rfl, rfl⟩
  | some p => exact Or.inr ⟨p, hS p (List.mem_of_getElem? h), rfl, rfl⟩

theorem related_idx2 {pts : List (V2 α)} (hS : ∀ p ∈ pts, S p) (is : List Nat) :
    Related S φ (fun j => do idx pts (← idx is j)) (fun j => do idx (pts.map φ) (← idx is j)) := by
  intro j
  cases h : idx is j with
  | error e => exact Or.inl ⟨e, by simp [h, bind, Except.bind], by simp [h, bind, Except.bind]⟩
  | ok i =>
    unfold RelAt
    simp only [id, h, bind, Except.bind]
    exact related_idx hS i

theorem idx_map {A B : Type} (g : A → B) (l : List A) (i : Nat) :
    idx (l.map g) i = (idx l i).map g := by
  unfold idx
  rw [List.getElem?_map]
  cases l[i]? <;> rfl

theorem mapM_idx_map {A B : Type} (g : A → B) (l : List A) : ∀ (is : List Nat),
    is.mapM (idx (l.map g)) = (is.mapM (idx l)).map (List.map g)
  | [] => rfl
  | i :: is => by
    rw [List.mapM_cons, List.mapM_cons, mapM_idx_map g l is, idx_map]
    cases idx l i with
    | error e => rfl
    | ok a => cases is.mapM (idx l) <;> rfl

theorem dropLoopPoint_eq (H : Agree S φ) {l : List (V2 α)} (hS : ∀ p ∈ l, S p) :
    dropLoopPoint (l.map φ) = (dropLoopPoint l).map φ := by
  unfold dropLoopPoint
  rw [List.head?_map, List.getLast?_map]
  cases ha : l.head? with
  | none => rfl
  | some a =>
    cases hb : l.getLast? with
    | none => rfl
    | some b =>
      simp only [Option.map_some]
      rw [H.beq a b (hS a (List.mem_of_head? ha)) (hS b (List.mem_of_getLast? hb))]
      split
      · rw [List.map_tail]
      · rfl

theorem dropLoopPoint_mem {l : List (V2 α)} {p : V2 α} (h : p ∈ dropLoopPoint l) : p ∈ l := by
  unfold dropLoopPoint at h
  split at h
  · split at h
    · exact List.mem_of_mem_tail h
    · exact h
  · exact h

theorem triangle3_eq (H : Agree S φ) {a b c : V2 α} (ha : S a) (hb : S b) (hc : S c) :
    triangle3 (φ a) (φ b) (φ c) = (triangle3 a b c).map φ := by
  unfold triangle3
  rw [H.left a b c ha hb hc]
  split <;> rfl

/-- gift wrapping -/
theorem giftWrap_eq (H : Agree S φ) (fuel : Nat) (l : List (V2 α)) (hS : ∀ p ∈ l, S p) :
    giftWrap fuel (l.map φ) = (giftWrap fuel l).map (List.map φ) := by
  unfold giftWrap
  rw [dropLoopPoint_eq H hS]
  have hd : ∀ p ∈ dropLoopPoint l, S p := fun p hp => hS p (dropLoopPoint_mem hp)
  generalize dropLoopPoint l = pts at hd
  match pts, hd with
  | [], _ => rfl
  | [a], _ => rfl
  | [a, b], _ => rfl
  | [a, b, c], hd =>
    simp only [List.map_cons, List.map_nil, Except.map]
    rw [triangle3_eq H (hd a (by simp)) (hd b (by simp)) (hd c (by simp))]
  | a :: b :: c :: d :: r, hd =>
    show (do
      let (start, _) ← findLowest false getPoint ((a :: b :: c :: d :: r).map φ)
      let hull ← giftLoop (idx ((a :: b :: c :: d :: r).map φ)) ((a :: b :: c :: d :: r).map φ).length start fuel start [] []
      (hull ++ [start]).mapM (idx ((a :: b :: c :: d :: r).map φ)) : Except Err (List (V2 β))) = Except.map (List.map φ) (do
      let (start, _) ← findLowest false getPoint (a :: b :: c :: d :: r)
      let hull ← giftLoop (idx (a :: b :: c :: d :: r)) (a :: b :: c :: d :: r).length start fuel start [] []
      (hull ++ [start]).mapM (idx (a :: b :: c :: d :: r)))
    obtain ⟨e1, -⟩ := findLowest_eq (get := getPoint) (get' := getPoint) (g := φ) H false (a :: b :: c :: d :: r)
      (fun i hi => Or.inr ⟨i, hd i hi, rfl, rfl⟩)
    rw [e1]
    cases findLowest false getPoint (a :: b :: c :: d :: r) with
    | error e => rfl
    | ok s =>
      simp only [Except.map, bind, Except.bind, List.length_map]
      rw [giftLoop_eq H (related_idx hd)]
      cases giftLoop (idx (a :: b :: c :: d :: r)) (a :: b :: c :: d :: r).length s.1 fuel s.1 [] [] with
      | error e => rfl
      | ok h =>
        simp only
        rw [mapM_idx_map]
        rfl

theorem indexedShort_eq (H : Agree S φ) {pts : List (V2 α)} (hS : ∀ p ∈ pts, S p) (is : List Nat) :
    indexedShort (pts.map φ) is = indexedShort pts is := by
  unfold indexedShort
  split
  · rfl
  · generalize openIndices is = js
    match js with
    | [] => rfl
    | [a] => rfl
    | [a, b] => rfl
    | [a, b, c] =>
      simp only
      congr 1
      have R := related_idx (φ := φ) hS
      rcases R.look a with ⟨e, h1, h2⟩ | ⟨pa, ha, h1, h2⟩
      · rw [h1, h2]; rfl
      rcases R.look b with ⟨e, h3, h4⟩ | ⟨pb, hb, h3, h4⟩
      · rw [h1, h2, h3, h4]; rfl
      rcases R.look c with ⟨e, h5, h6⟩ | ⟨pc, hc, h5, h6⟩
      · rw [h1, h2, h3, h4, h5, h6]; rfl
      rw [h1, h2, h3, h4, h5, h6]
      simp only [bind, Except.bind]
      rw [H.left pa pb pc ha hb hc]
    | a :: b :: c :: d :: r => rfl

/-- indexed gift wrapping -/
theorem indexedGiftWrap_eq (H : Agree S φ) (fuel : Nat) (pts : List (V2 α)) (hS : ∀ p ∈ pts, S p) (is : List Nat) :
    indexedGiftWrap fuel (pts.map φ) is = indexedGiftWrap fuel pts is := by
  unfold indexedGiftWrap indexedGiftNoLoop
  rw [indexedShort_eq H hS]
  congr 1
  cases indexedShort pts is with
  | inl r => rfl
  | inr js =>
    simp only [List.isEmpty_map]
    obtain ⟨e1, -⟩ := findLowest_eq (get := idx pts) (get' := idx (pts.map φ)) (g := id) H pts.isEmpty js
      (fun i _ => related_idx hS i)
    rw [List.map_id] at e1
    rw [e1]
    cases findLowest pts.isEmpty (idx pts) js with
    | error e => rfl
    | ok s =>
      simp only [Except.map, bind, Except.bind]
      have := giftLoop_eq H (related_idx2 (φ := φ) hS js) js.length s.1 fuel s.1 [] []
      simp only [bind, Except.bind] at this
      rw [this]

/-! ### Graham scans -/

theorem isConnected2_eq (H : Turns S φ) {l : List (V2 α)} (hS : ∀ p ∈ l, S p) :
    isConnected2 (l.map φ) = isConnected2 l := by
  unfold isConnected2
  rw [List.head?_map, List.getLast?_map]
  cases ha : l.head? with
  | none => rfl
  | some a =>
    cases hb : l.getLast? with
    | none => rfl
    | some b =>
      exact H.beq a b (hS a (List.mem_of_head? ha)) (hS b (List.mem_of_getLast? hb))

theorem grahamLoop2_mem : ∀ (l hull r : List (V2 α)), grahamLoop2 l hull = .ok r →
    (∀ p ∈ l, S p) → (∀ p ∈ hull, S p) → (∀ p ∈ r, S p)
  | [], hull, r, h, _, hh => by
    simp only [grahamLoop2, Except.ok.injEq] at h
    subst h; exact hh
  | p :: l, hull, r, h, hl, hh => by
    have hl' : ∀ p ∈ l, S p := fun i hi => hl i (List.mem_cons_of_mem _ hi)
    have hp : S p := hl p List.mem_cons_self
    unfold grahamLoop2 at h
    have key : ∀ (n : Nat) (l r : List (V2 α)), l.length ≤ n → popWhile getPoint p l = .ok r → ∀ q ∈ r, q ∈ l := by
      intro n
      induction n with
      | zero =>
        intro l r hn hr
        have : l = [] := by cases l with
          | nil => rfl
          | cons a t => simp at hn
        subst this
        simp only [popWhile, Except.ok.injEq] at hr
        subst hr; exact fun q hq => hq
      | succ n ih =>
        intro l r hn hr
        match l with
        | [] => simp only [popWhile, Except.ok.injEq] at hr; subst hr; exact fun q hq => hq
        | [a] => simp only [popWhile, Except.ok.injEq] at hr; subst hr; exact fun q hq => hq
        | a :: b :: t =>
          unfold popWhile at hr
          simp only [getPoint, bind, Except.bind] at hr
          split at hr
          · intro q hq
            exact List.mem_cons_of_mem _ (ih (b :: t) r (by simp at hn ⊢; omega) hr q hq)
          · simp only [Except.ok.injEq] at hr
            subst hr; exact fun q hq => hq
    cases hc : popWhile getPoint p hull with
    | error e => rw [hc] at h; cases h
    | ok h' =>
      rw [hc] at h
      have hh' : ∀ q ∈ h', S q := fun q hq => hh q (key _ hull h' (Nat.le_refl _) hc q hq)
      simp only [bind, Except.bind] at h
      cases h' with
      | nil => cases h
      | cons last rest =>
        simp only at h
        split at h
        · exact grahamLoop2_mem l _ r h hl' hh'
        · exact grahamLoop2_mem l _ r h hl' (by
            intro q hq
            rcases List.mem_cons.1 hq with rfl | hq
            · exact hp
            · exact hh' q hq)

/-- the scan without angles: if the sorted points correspond, so do the results -/
theorem grahamScanWo_eq (H : Agree S φ) (srt : V2 α → List (V2 α) → Option (List (V2 α)))
    (srt' : V2 β → List (V2 β) → Option (List (V2 β))) (l : List (V2 α)) (hS : ∀ p ∈ l, S p)
    (hsrt : ∀ k s, findLowest false getPoint (dropLoopPoint l) = .ok (k, s) →
      srt' (φ s) ((dropLoopPoint l).map φ) = (srt s (dropLoopPoint l)).map (List.map φ) ∧
      ∀ r, srt s (dropLoopPoint l) = some r → ∀ p ∈ r, S p) :
    grahamScanWoAtan2 srt' (l.map φ) = (grahamScanWoAtan2 srt l).map (List.map φ) := by
  unfold grahamScanWoAtan2
  rw [dropLoopPoint_eq H hS]
  have hd : ∀ p ∈ dropLoopPoint l, S p := fun p hp => hS p (dropLoopPoint_mem hp)
  generalize dropLoopPoint l = pts at hd hsrt
  match pts, hd, hsrt with
  | [], _, _ => rfl
  | [a], _, _ => rfl
  | [a, b], _, _ => rfl
  | [a, b, c], hd, _ =>
    simp only [List.map_cons, List.map_nil, Except.map]
    rw [triangle3_eq H (hd a (by simp)) (hd b (by simp)) (hd c (by simp))]
  | a :: b :: c :: d :: r, hd, hsrt =>
    obtain ⟨e1, e2⟩ := findLowest_eq (get := getPoint) (get' := getPoint) (g := φ) H false (a :: b :: c :: d :: r)
      (fun i hi => Or.inr ⟨i, hd i hi, rfl, rfl⟩)
    simp only [List.map_cons] at e1 hsrt ⊢
    rw [e1]
    cases hc : findLowest false getPoint (a :: b :: c :: d :: r) with
    | error e => rfl
    | ok s =>
      obtain ⟨f1, f2⟩ := hsrt s.1 s.2 hc
      simp only [Except.map, bind, Except.bind]
      rw [f1]
      cases hs : srt s.2 (a :: b :: c :: d :: r) with
      | none => rfl
      | some sorted =>
        simp only [Option.map_some]
        have g := grahamLoop2_eq H sorted [s.2] (f2 sorted hs) (by
          intro q hq; rw [List.mem_singleton] at hq; subst hq; exact e2 s hc)
        rw [List.map_cons, List.map_nil] at g
        rw [g]
        cases hg : grahamLoop2 sorted [s.2] with
        | error e => rfl
        | ok h =>
          simp only [Except.map]
          have hm := grahamLoop2_mem (S := S) sorted [s.2] h hg (f2 sorted hs) (by
            intro q hq; rw [List.mem_singleton] at hq; subst hq; exact e2 s hc)
          rw [← List.map_reverse, isConnected2_eq H.toTurns (fun p hp => hm p (List.mem_reverse.1 hp))]
          split
          · rfl
          · simp only [List.head?_map, List.map_append, Except.ok.injEq, List.append_cancel_left_eq]
            cases h.reverse.head? <;> rfl

/-- skipped points can be left out before -/
theorem grahamLoop_filter {get : ι → Except Err (V2 α)} (skip : ι → Bool) : ∀ (l hull : List ι),
    grahamLoop get skip l hull = grahamLoop get skip (l.filter (fun i => !skip i)) hull
  | [], _ => rfl
  | i :: l, hull => by
    by_cases h : skip i = true
    · rw [List.filter_cons_of_neg (by simp [h]), grahamLoop, if_pos h]
      exact grahamLoop_filter skip l hull
    · rw [List.filter_cons_of_pos (by simp [h])]
      simp only [grahamLoop, if_neg h]
      cases get i with
      | error e => rfl
      | ok p =>
        simp only [bind, Except.bind]
        cases popWhile get p hull with
        | error e => rfl
        | ok hull => exact grahamLoop_filter skip l _

/-- the scan with angles: if the sorted points other than the start correspond, so do the results -/
theorem grahamScan_eq (H : Agree S φ) (srt : List (V2 α × α × α) → List (V2 α × α × α))
    (srt' : List (V2 β × β × β) → List (V2 β × β × β)) (l : List (V2 α)) (hS : ∀ p ∈ l, S p)
    (hsrt : ∀ k s, findLowest false getPoint (dropLoopPoint l) = .ok (k, s) →
      ((srt' (((dropLoopPoint l).map φ).map (fun p => angleEntry (φ s) p p))).map (·.1)).filter
          (fun p => !p.beq (φ s)) =
        (((srt ((dropLoopPoint l).map (fun p => angleEntry s p p))).map (·.1)).filter (fun p => !p.beq s)).map φ ∧
      ∀ p ∈ (srt ((dropLoopPoint l).map (fun p => angleEntry s p p))).map (·.1), S p) :
    grahamScan srt' (l.map φ) = (grahamScan srt l).map (List.map φ) := by
  unfold grahamScan
  rw [dropLoopPoint_eq H hS]
  have hd : ∀ p ∈ dropLoopPoint l, S p := fun p hp => hS p (dropLoopPoint_mem hp)
  generalize dropLoopPoint l = pts at hd hsrt
  match pts, hd, hsrt with
  | [], _, _ => rfl
  | [a], _, _ => rfl
  | [a, b], _, _ => rfl
  | [a, b, c], hd, _ =>
    simp only [List.map_cons, List.map_nil, Except.map]
    rw [triangle3_eq H (hd a (by simp)) (hd b (by simp)) (hd c (by simp))]
  | a :: b :: c :: d :: r, hd, hsrt =>
    obtain ⟨e1, e2⟩ := findLowest_eq (get := getPoint) (get' := getPoint) (g := φ) H false (a :: b :: c :: d :: r)
      (fun i hi => Or.inr ⟨i, hd i hi, rfl, rfl⟩)
    have hpts : ∀ p ∈ a :: b :: c :: d :: r, S p := hd
    rw [show (List.map φ (a :: b :: c :: d :: r)) = φ a :: φ b :: φ c :: φ d :: r.map φ from rfl] at *
    simp only
    rw [e1]
    cases hc : findLowest false getPoint (a :: b :: c :: d :: r) with
    | error e => rfl
    | ok s =>
      obtain ⟨f1, f2⟩ := hsrt s.1 s.2 hc
      simp only [Except.map, bind, Except.bind]
      rw [grahamLoop_filter, f1]
      have hs2 : S s.2 := e2 s hc
      have g := grahamLoop_eq (get := getPoint) (get' := getPoint) (g := φ) H (fun p => p.beq s.2)
        (fun p => p.beq (φ s.2)) (((srt ((a :: b :: c :: d :: r).map (fun p => angleEntry s.2 p p))).map (·.1)).filter
          (fun p => !p.beq s.2)) [s.2]
        (fun i hi => Or.inr ⟨i, f2 i (List.mem_filter.1 hi).1, rfl, rfl⟩)
        (fun i hi => by rw [List.mem_singleton] at hi; subst hi; exact Or.inr ⟨_, hs2, rfl, rfl⟩)
        (fun i hi => H.beq i s.2 (f2 i (List.mem_filter.1 hi).1) hs2)
      rw [show [s.2].map φ = [φ s.2] from rfl] at g
      rw [g, ← grahamLoop_filter]
      cases hg : grahamLoop getPoint (fun p => p.beq s.2)
          ((srt ((a :: b :: c :: d :: r).map (fun p => angleEntry s.2 p p))).map (·.1)) [s.2] with
      | error e => rfl
      | ok h =>
        simp only [Except.map]
        rw [← List.map_reverse, List.length_map]
        split
        · simp only [List.head?_map, List.map_append, Except.ok.injEq, List.append_cancel_left_eq]
          cases h.reverse.head? <;> rfl
        · rfl

/-! ### Containment -/

theorem windows2_map {A B : Type} (g : A → B) : ∀ l : List A,
    windows2 (l.map g) = (windows2 l).map (fun w => (g w.1, g w.2))
  | [] => rfl
  | [_] => rfl
  | a :: b :: l => by
    simp only [List.map_cons, windows2]
    rw [← List.map_cons, windows2_map g (b :: l)]

theorem windows2_mem {A : Type} : ∀ (l : List A) (w : A × A), w ∈ windows2 l → w.1 ∈ l ∧ w.2 ∈ l
  | [], _, h => by simp [windows2] at h
  | [_], _, h => by simp [windows2] at h
  | a :: b :: l, w, h => by
    simp only [windows2, List.mem_cons] at h
    rcases h with rfl | h
    · simp
    · obtain ⟨h1, h2⟩ := windows2_mem (b :: l) w h
      exact ⟨List.mem_cons_of_mem _ h1, List.mem_cons_of_mem _ h2⟩

theorem idx_mem {A : Type} {l : List A} {i : Nat} {a : A} (h : idx l i = .ok a) : a ∈ l := by
  unfold idx at h
  split at h
  · rename_i p hp
    simp only [Except.ok.injEq] at h
    subst h; exact List.mem_of_getElem? hp
  · cases h

theorem containsLoop_eq (H : Turns S φ) {base p : V2 α} (hb : S base) (hp : S p) :
    ∀ (fuel : Nat) (slice : List (V2 α)) (retain : Bool), (∀ q ∈ slice, S q) →
      containsLoop (φ base) (φ p) fuel (slice.map φ) retain =
        (containsLoop base p fuel slice retain).map (Option.map (fun r => (r.1.map φ, r.2))) ∧
      ∀ r, containsLoop base p fuel slice retain = .ok (some r) → ∀ q ∈ r.1, S q
  | 0, _, _, _ => ⟨rfl, fun r hr => by cases hr⟩
  | fuel + 1, slice, retain, hS => by
    unfold containsLoop
    rw [List.length_map]
    split
    · simp only [idx_map]
      cases h1 : idx slice ((if retain = true then (slice.length + 1) / 2 - 1 else slice.length / 2) - 1) with
      | error e => exact ⟨rfl, fun r hr => by cases hr⟩
      | ok a =>
        cases h2 : idx slice (if retain = true then (slice.length + 1) / 2 - 1 else slice.length / 2) with
        | error e => exact ⟨rfl, fun r hr => by cases hr⟩
        | ok m =>
          have ha := hS a (idx_mem h1)
          have hm := hS m (idx_mem h2)
          simp only [Except.map, bind, Except.bind]
          rw [H.leftC a m p ha hm hp]
          split
          · exact ⟨rfl, fun r hr => by cases hr⟩
          · cases h3 : idx slice 0 with
            | error e => exact ⟨rfl, fun r hr => by cases hr⟩
            | ok s0 =>
              have hs0 := hS s0 (idx_mem h3)
              simp only
              rw [H.leftC base m p hb hm hp, H.leftC s0 m p hs0 hm hp, ← List.map_drop, ← List.map_take]
              split
              · exact containsLoop_eq H hb hp fuel _ true (fun q hq => hS q (List.mem_of_mem_drop hq))
              · exact containsLoop_eq H hb hp fuel _ retain (fun q hq => hS q (List.mem_of_mem_take hq))
    · refine ⟨rfl, ?_⟩
      intro r hr
      simp only [Except.ok.injEq, Option.some.injEq] at hr
      subst hr; exact hS

theorem containsFinal_eq {test : V2 α → V2 α → V2 α → Bool} {test' : V2 β → V2 β → V2 β → Bool}
    (ht : ∀ a b c, S a → S b → S c → test' (φ a) (φ b) (φ c) = test a b c)
    {base p : V2 α} (hb : S base) (hp : S p) (slice : List (V2 α)) (retain : Bool) (hS : ∀ q ∈ slice, S q) :
    containsFinal test' (φ base) (φ p) (slice.map φ) retain = containsFinal test base p slice retain := by
  unfold containsFinal
  rw [idx_map, idx_map, List.length_map, windows2_map]
  cases h1 : idx slice 0 with
  | error e => rfl
  | ok a =>
    cases h2 : idx slice (slice.length - 1) with
    | error e => rfl
    | ok b =>
      have ha := hS a (idx_mem h1)
      have hb' := hS b (idx_mem h2)
      simp only [Except.map, bind, Except.bind, List.all_map]
      have hall : (windows2 slice).all ((fun w => test' w.1 w.2 (φ p)) ∘ fun w => (φ w.1, φ w.2)) =
          (windows2 slice).all (fun w => test w.1 w.2 p) := by
        rw [Bool.eq_iff_iff, List.all_eq_true, List.all_eq_true]
        refine forall_congr' fun w => imp_congr_right fun hw => ?_
        obtain ⟨w1, w2⟩ := windows2_mem slice w hw
        simp only [Function.comp, ht _ _ _ (hS _ w1) (hS _ w2) hp]
      rw [hall, ht _ _ _ hb ha hp, ht _ _ _ hb' hb hp, ht _ _ _ hb' ha hp]

theorem containsPoint_eq (H : Turns S φ) {test : V2 α → V2 α → V2 α → Bool} {test' : V2 β → V2 β → V2 β → Bool}
    (ht : ∀ a b c, S a → S b → S c → test' (φ a) (φ b) (φ c) = test a b c)
    (l : List (V2 α)) {p : V2 α} (hp : S p) (hS : ∀ q ∈ l, S q) :
    containsPoint test' (l.map φ) (φ p) = containsPoint test l p := by
  match l, hS with
  | [], _ => rfl
  | [a], hS => simp only [List.map_cons, List.map_nil, containsPoint, H.beq p a hp (hS a (by simp))]
  | a :: b :: rest, hS =>
    have ha := hS a (by simp)
    have hb := hS b (by simp)
    simp only [List.map_cons, containsPoint]
    rw [H.beq a b ha hb, List.isEmpty_map]
    split
    · rfl
    · rw [show φ a :: φ b :: rest.map φ = (a :: b :: rest).map φ from rfl, idx_map, List.length_map]
      cases h1 : idx (a :: b :: rest) ((a :: b :: rest).length - 1) with
      | error e => rfl
      | ok last =>
        have hl := hS last (idx_mem h1)
        simp only [Except.map, bind, Except.bind]
        rw [H.beq a last ha hl]
        have e1 : (if a.beq last = true then φ b :: rest.map φ else (a :: b :: rest).map φ) =
            (if a.beq last = true then b :: rest else a :: b :: rest).map φ := by split <;> rfl
        have e2 : (if a.beq last = true then φ b else φ a) = φ (if a.beq last = true then b else a) := by
          split <;> rfl
        have hs1 : ∀ q ∈ (if a.beq last = true then b :: rest else a :: b :: rest), S q := by
          split
          · exact fun q hq => hS q (List.mem_cons_of_mem _ hq)
          · exact hS
        have hs2 : S (if a.beq last = true then b else a) := by split <;> assumption
        rw [e1, e2]
        generalize (if a.beq last = true then b :: rest else a :: b :: rest) = slice at hs1
        generalize (if a.beq last = true then b else a) = base at hs2
        rw [List.length_map]
        obtain ⟨g1, g2⟩ := containsLoop_eq H hs2 hp (slice.length + 1) slice false hs1
        rw [g1]
        cases hc : containsLoop base p (slice.length + 1) slice false with
        | error e => rfl
        | ok o =>
          cases o with
          | none => rfl
          | some r =>
            exact containsFinal_eq ht hs2 hp r.1 r.2 (g2 r hc)

theorem containsInclusive_eq (H : Turns S φ) (l : List (V2 α)) {p : V2 α} (hp : S p) (hS : ∀ q ∈ l, S q) :
    containsPointInclusive (l.map φ) (φ p) = containsPointInclusive l p :=
  containsPoint_eq H H.leftC l hp hS

theorem containsExclusive_eq (H : Turns S φ) (l : List (V2 α)) {p : V2 α} (hp : S p) (hS : ∀ q ∈ l, S q) :
    containsPointExclusive (l.map φ) (φ p) = containsPointExclusive l p :=
  containsPoint_eq H H.left l hp hS

theorem allM_eq {A B : Type} (g : A → B) {F : A → Except Err Bool} {F' : B → Except Err Bool} :
    ∀ l : List A, (∀ a ∈ l, F' (g a) = F a) → allM F' (l.map g) = allM F l
  | [], _ => rfl
  | a :: l, h => by
    simp only [List.map_cons, allM]
    rw [h a List.mem_cons_self, allM_eq g l (fun b hb => h b (List.mem_cons_of_mem _ hb))]

theorem pointCount2_eq (H : Turns S φ) {l : List (V2 α)} (hS : ∀ p ∈ l, S p) :
    pointCount2 (l.map φ) = pointCount2 l := by
  unfold pointCount2
  simp only [isConnected2_eq H hS, List.length_map, List.isEmpty_map]

theorem containsConvexHull_eq (H : Turns S φ) (a b : List (V2 α)) (ha : ∀ q ∈ a, S q) (hb : ∀ q ∈ b, S q) :
    containsConvexHull (a.map φ) (b.map φ) = containsConvexHull a b := by
  unfold containsConvexHull
  rw [pointCount2_eq H ha, List.isEmpty_map]
  split
  · rfl
  · split
    · rfl
    · simp only [idx_map, List.length_map]
      cases h1 : idx a (a.length / 2 - 1) with
      | error e => rfl
      | ok e0 =>
      cases h2 : idx a (a.length / 2) with
      | error e => rfl
      | ok e1 =>
      cases h3 : idx b 0 with
      | error e => rfl
      | ok b0 =>
      cases h4 : idx b (b.length / 2) with
      | error e => rfl
      | ok b1 =>
        simp only [Except.map, bind, Except.bind]
        rw [H.leftC e0 e1 b0 (ha _ (idx_mem h1)) (ha _ (idx_mem h2)) (hb _ (idx_mem h3)),
          H.leftC e0 e1 b1 (ha _ (idx_mem h1)) (ha _ (idx_mem h2)) (hb _ (idx_mem h4)),
          allM_eq φ b (fun p hp => containsInclusive_eq H a (hb p hp) ha)]

theorem containsConvexHullPar_eq (H : Turns S φ) (order : List (V2 α) → List (V2 α))
    (order' : List (V2 β) → List (V2 β)) (a b : List (V2 α)) (ha : ∀ q ∈ a, S q) (hb : ∀ q ∈ order b, S q)
    (ho : order' (b.map φ) = (order b).map φ) :
    containsConvexHullPar order' (a.map φ) (b.map φ) = containsConvexHullPar order a b := by
  unfold containsConvexHullPar
  rw [pointCount2_eq H ha, List.isEmpty_map, ho,
    allM_eq φ (order b) (fun p hp => containsInclusive_eq H a (hb p hp) ha)]

end Verif.Proofs.Transfer
