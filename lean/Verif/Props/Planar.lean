import Verif.Props.DiscretizeSim
import Verif.Props.FloatDiscretize
import Verif.Props.Similar
import Verif.Props.Vw
import Verif.Props.Aabb
/-!
# C99: line strings in a plane: the functions for 2D and for 3D agree
-/
namespace Verif.Props.Planar
open Verif Verif.Model Verif.Spec Verif.Props Verif.Props.Discretize Verif.Vw Scalar
set_option linter.unusedSectionVars false

section lawless
variable {α : Type} [Scalar α]

/-- where a point of a line string goes when the line string is copied to 3D (for `YZ`: first coordinate to `z`) -/
def lift (pl : Plane) (p : V2 α) : V3 α :=
  match pl with
  | .xy => ⟨p.x, p.y, zero⟩
  | .xz => ⟨p.x, zero, p.y⟩
  | .yz => ⟨zero, p.y, p.x⟩

theorem copy_eq (pl : Plane) (l : List (V2 α)) : copyTo3d l pl = l.map (lift pl) := by
  cases pl <;> rfl

/-- the laws of the zero that are needed: they hold for numbers and for floats -/
structure PlanarLaws (α : Type) [Scalar α] : Prop where
  sub : (Scalar.sub zero zero : α) = zero
  xy : ∀ x y : α, Scalar.add (Scalar.add (Scalar.mul x x) (Scalar.mul y y)) (Scalar.mul zero zero) = Scalar.add (Scalar.mul x x) (Scalar.mul y y)
  xz : ∀ x y : α, Scalar.add (Scalar.add (Scalar.mul x x) (Scalar.mul zero zero)) (Scalar.mul y y) = Scalar.add (Scalar.mul x x) (Scalar.mul y y)
  yz : ∀ x y : α, Scalar.add (Scalar.add (Scalar.mul zero zero) (Scalar.mul y y)) (Scalar.mul x x) = Scalar.add (Scalar.mul x x) (Scalar.mul y y)
  step : ∀ (n : α) (k : Nat), k < Scalar.toUsize n →
    Scalar.add zero (Scalar.mul (Scalar.div zero n) (Scalar.ofUsize k)) = zero
  rest : (Scalar.add zero (Scalar.mul zero (Scalar.ofUsize 0)) : α) = zero

theorem lift_sub (L : PlanarLaws α) (pl : Plane) (a b : V2 α) : (lift pl a).sub (lift pl b) = lift pl (a.sub b) := by
  cases pl <;> simp only [lift, V3.sub, V2.sub, L.sub]

theorem lift_magSq (L : PlanarLaws α) (pl : Plane) (a : V2 α) : (lift pl a).magSq = a.magSq := by
  cases pl <;> simp only [lift, V3.magSq, V2.magSq, V3.dot, V2.dot, L.xy, L.xz, L.yz]

theorem lift_mag (L : PlanarLaws α) (pl : Plane) (a : V2 α) : (lift pl a).mag = a.mag := by
  rw [V3.mag, V2.mag, lift_magSq L]

theorem segPoints_lift (L : PlanarLaws α) (pl : Plane) (d : α) (a b : V2 α) :
    segPoints ops3 d (lift pl a) (lift pl b) = (segPoints ops2 d a b).map (lift pl) := by
  have hs : ops3.sub (lift pl b) (lift pl a) = lift pl (ops2.sub b a) := lift_sub L pl b a
  have hm : ops3.mag (lift pl (ops2.sub b a)) = ops2.mag (ops2.sub b a) := lift_mag L pl _
  unfold segPoints segSteps
  simp only [hs, hm]
  by_cases hc : (ops2.mag (ops2.sub b a) >. zero) = true
  · simp only [hc, if_true, List.map_map]
    refine List.map_congr_left fun k hk => ?_
    have hk' := L.step _ k (List.mem_range.1 hk)
    simp only [Function.comp]
    cases pl <;> simp only [ops3, ops2, lift, V3.add, V3.smul, V3.sdiv, V2.add, V2.smul, V2.sdiv, V2.sub] at hk' ⊢ <;> rw [hk']
  · simp only [hc, Bool.false_eq_true, if_false, List.map_map]
    refine List.map_congr_left fun k hk => ?_
    have hk0 : k = 0 := by simpa using hk
    subst hk0
    cases pl <;> simp only [Function.comp, ops3, ops2, lift, V3.add, V3.smul, V3.zero, V2.add, V2.smul, V2.zero, L.rest]

theorem allPoints_lift (L : PlanarLaws α) (pl : Plane) (d : α) (l : List (V2 α)) :
    allPoints ops3 d (l.map (lift pl)) = (allPoints ops2 d l).map (lift pl) := by
  induction l with
  | nil => rfl
  | cons a l ih =>
    cases l with
    | nil => rfl
    | cons b l =>
      simp only [List.map_cons] at ih ⊢
      rw [allPoints, allPoints, List.map_append, segPoints_lift L, ih]

theorem discretize_lift (L : PlanarLaws α) (pl : Plane) (d : α) (l out : List (V2 α))
    (h : Collects (discNext ops2) (discNew ops2 l d) out) :
    Collects (discNext ops3) (discNew ops3 (copyTo3d l pl) d) (copyTo3d out pl) := by
  rw [collects_unique h (collects_all ops2 l d), copy_eq, copy_eq, ← allPoints_lift L]
  exact collects_all ops3 _ d

theorem box_lift (h1 : (Scalar.fmin zero zero : α) = zero) (h2 : (Scalar.fmax zero zero : α) = zero) (pl : Plane) (l : List (V2 α)) :
    (Aabb3.withPoints (copyTo3d l pl)).minMax = (Aabb2.withPoints l).minMax.map (fun b => (lift pl b.1, lift pl b.2)) := by
  have hs : ∀ (b : V2 α × V2 α) (p : V2 α), Aabb3.step (lift pl b.1, lift pl b.2) (lift pl p) =
      (lift pl (Aabb2.step b p).1, lift pl (Aabb2.step b p).2) := by
    intro b p
    cases pl <;> simp only [Aabb3.step, Aabb2.step, lift, h1, h2]
  have hf : ∀ (l : List (V2 α)) (b : V2 α × V2 α), (l.map (lift pl)).foldl Aabb3.step (lift pl b.1, lift pl b.2) =
      (lift pl (l.foldl Aabb2.step b).1, lift pl (l.foldl Aabb2.step b).2) := by
    intro l
    induction l with
    | nil => intro b; rfl
    | cons p l ih => intro b; rw [List.map_cons, List.foldl_cons, List.foldl_cons, hs, ih]
  rw [copy_eq]
  cases l with
  | nil => rfl
  | cons p l => exact congrArg some (hf (p :: l) (p, p))

/-- the recursion of Ramer, Douglas and Peucker looks only at distances of points from segments around them -/
theorem rdpRec_map_sublist {P Q : Type} (g : Q → P) (dist : P → P → P → α)
    (distQ : Q → Q → Q → α) (thr : α) (points : List Q)
    (h : ∀ a p b, [a, p, b].Sublist points → distQ a b p = dist (g a) (g b) (g p)) :
    rdpRec (fun a b p => .ok (dist a b p)) thr (points.map g) = (rdpRec (fun a b p => .ok (distQ a b p)) thr points).map (List.map g) := by
  induction hn : points.length using Nat.strong_induction_on generalizing points with
  | _ n ih =>
    subst hn
    rw [rdpRec, rdpRec]
    by_cases hl : points.length ≤ 2
    · rw [dif_pos (by simpa using hl), dif_pos hl, List.getLast?_map]
      cases points.getLast? <;> rfl
    · rw [dif_neg (by simpa using hl), dif_neg hl]
      have hm : (((points.map g).zipIdx.drop 1).take ((points.map g).length - 2)).mapM
            (fun (p, i) => (Except.ok (dist ((points.map g)[0]'(by simp; omega)) ((points.map g)[(points.map g).length - 1]'(by simp; omega)) p) : Except Err α).map
              (fun d => (d, i))) =
          ((points.zipIdx.drop 1).take (points.length - 2)).mapM
            (fun (p, i) => (Except.ok (distQ (points[0]'(by omega)) (points[points.length - 1]'(by omega)) p) : Except Err α).map (fun d => (d, i))) := by
        have ht : ((points.map g).zipIdx.drop 1).take ((points.map g).length - 2) =
            (((points.zipIdx.drop 1).take (points.length - 2)).map (fun (p, i) => (g p, i))) := by
          have hz : (points.map g).zipIdx = points.zipIdx.map (fun (p, i) => (g p, i)) := by
            rw [List.zipIdx_map]; rfl
          rw [hz, List.length_map, ← List.map_drop, ← List.map_take]
        rw [ht]
        have gen : ∀ l : List (Q × Nat), (∀ x ∈ l, [points[0]'(by omega), x.1, points[points.length - 1]'(by omega)].Sublist points) →
            (l.map (fun (p, i) => (g p, i))).mapM
            (fun (p, i) => (Except.ok (dist ((points.map g)[0]'(by simp; omega)) ((points.map g)[(points.map g).length - 1]'(by simp; omega)) p) : Except Err α).map
              (fun d => (d, i))) =
            l.mapM (fun (p, i) => (Except.ok (distQ (points[0]'(by omega)) (points[points.length - 1]'(by omega)) p) : Except Err α).map
              (fun d => (d, i))) := by
          intro l
          induction l with
          | nil => intro _; rfl
          | cons x l ihl =>
            intro hx
            rw [List.map_cons, List.mapM_cons, List.mapM_cons, ihl (fun y hy => hx y (by simp [hy]))]
            have := h _ _ _ (hx x (by simp))
            simp only [this, List.getElem_map, List.length_map]
        refine gen ((points.zipIdx.drop 1).take (points.length - 2)) (fun x hx => ?_)
        have hx1 : x.1 ∈ (points.drop 1).take (points.length - 2) := by
          have := List.mem_map_of_mem (f := Prod.fst) hx
          rw [List.map_take, List.map_drop, List.zipIdx_map_fst] at this
          exact this
        have he := Proofs.Rdp.list_ends points (by omega)
        conv_rhs => rw [he]
        refine List.Sublist.cons_cons _ ?_
        exact (List.singleton_sublist.2 hx1).append (List.Sublist.refl [_])
      simp only [hm]
      cases hq : ((points.zipIdx.drop 1).take (points.length - 2)).mapM
            (fun (p, i) => (Except.ok (distQ (points[0]'(by omega)) (points[points.length - 1]'(by omega)) p) : Except Err α).map (fun d => (d, i))) with
      | error e => rfl
      | ok ds =>
        simp only
        generalize (maxByLast ds).getD (Scalar.neg one, 0) = m
        obtain ⟨md, i⟩ := m
        simp only
        split
        · simp [Except.map]
        · by_cases hi : 0 < i ∧ i + 1 < points.length
          · rw [dif_pos (by simpa using hi), dif_pos hi, ← List.map_take, ← List.map_drop]
            rw [ih (points.take (i + 1)).length (by simp; omega) (points.take (i + 1))
              (fun a p b hs => h a p b (hs.trans (List.take_sublist _ _))) rfl]
            rw [ih (points.drop i).length (by simp; omega) (points.drop i)
              (fun a p b hs => h a p b (hs.trans (List.drop_sublist _ _))) rfl]
            cases rdpRec (fun a b p => .ok (distQ a b p)) thr (points.take (i + 1)) with
            | error e => rfl
            | ok l =>
              cases rdpRec (fun a b p => .ok (distQ a b p)) thr (points.drop i) with
              | error e => rfl
              | ok r => simp [Except.map]
          · rw [dif_neg (by simpa using hi), dif_neg hi]; rfl

theorem rdpTop_map_sublist {P Q : Type} (g : Q → P) (dist : P → P → P → α)
    (distQ : Q → Q → Q → α) (d : α) (points : List Q)
    (h : ∀ a p b, [a, p, b].Sublist points → distQ a b p = dist (g a) (g b) (g p)) :
    rdpTop (fun a b p => .ok (dist a b p)) d (points.map g) = (rdpTop (fun a b p => .ok (distQ a b p)) d points).map (List.map g) := by
  cases points with
  | nil => rfl
  | cons p l =>
    simp only [rdpTop, List.map_cons]
    by_cases hl : (p :: l).length ≤ 2
    · rw [if_pos (by simpa using hl), if_pos hl]; rfl
    · rw [if_neg (by simpa using hl), if_neg hl]
      have := rdpRec_map_sublist g dist distQ (d *. d) (p :: l) h
      rw [List.map_cons] at this
      rw [this]
      cases rdpRec (fun a b p => .ok (distQ a b p)) (d *. d) (p :: l) <;> rfl

section vw
variable {P Q : Type} {area : P → P → P → α} {areaQ : Q → Q → Q → α} {g : Q → P}

theorem idx_map (line : List Q) (i : Nat) : idx (line.map g) i = (idx line i).map g := by
  unfold idx
  rw [List.getElem?_map]
  cases getElem? line i <;> rfl

theorem mapM_idx (line : List Q) (l : List Nat) : l.mapM (idx (line.map g)) = (l.mapM (idx line)).map (List.map g) := by
  induction l with
  | nil => rfl
  | cons i l ih =>
    rw [List.mapM_cons, List.mapM_cons, ih, idx_map]
    cases idx line i with
    | error e => rfl
    | ok v => cases l.mapM (idx line) <;> rfl

theorem initStep_map (h : ∀ a b c, area (g a) (g b) (g c) = areaQ a b c) (line : List Q) :
    vwInitStep area (line.map g) = vwInitStep areaQ line := by
  funext s t
  unfold vwInitStep
  simp only [idx_map]
  cases idx line t with
  | error e => rfl
  | ok a =>
    cases idx line (t + 1) with
    | error e => rfl
    | ok b =>
      cases idx line (t + 2) with
      | error e => rfl
      | ok c => simp only [Except.map, bind, Except.bind, h]

theorem fixNext_map (h : ∀ a b c, area (g a) (g b) (g c) = areaQ a b c) (line : List Q) :
    vwFixNext area (line.map g) = vwFixNext areaQ line := by
  funext s p n nn
  unfold vwFixNext
  simp only [idx_map, List.length_map]
  cases idx line p with
  | error e => rfl
  | ok a =>
    cases idx line (n % line.length) with
    | error e => rfl
    | ok b =>
      cases idx line (nn % line.length) with
      | error e => rfl
      | ok c => simp only [Except.map, bind, Except.bind, h]

theorem fixPrev_map (h : ∀ a b c, area (g a) (g b) (g c) = areaQ a b c) (line : List Q) :
    vwFixPrev area (line.map g) = vwFixPrev areaQ line := by
  funext s pp p n
  unfold vwFixPrev
  simp only [idx_map, List.length_map]
  cases idx line pp with
  | error e => rfl
  | ok a =>
    cases idx line p with
    | error e => rfl
    | ok b =>
      cases idx line (n % line.length) with
      | error e => rfl
      | ok c => simp only [Except.map, bind, Except.bind, h]

theorem delete_map (h : ∀ a b c, area (g a) (g b) (g c) = areaQ a b c) (line : List Q) :
    vwDelete area (line.map g) = vwDelete areaQ line := by
  funext s p n
  unfold vwDelete
  rw [fixNext_map h, fixPrev_map h]

theorem loop_map (h : ∀ a b c, area (g a) (g b) (g c) = areaQ a b c) (line : List Q) (pick : Nat → VwHeap α → Nat) (g2 : Bool) (k : Nat) :
    ∀ fuel s d, vwLoop area (line.map g) pick g2 k fuel s d = vwLoop areaQ line pick g2 k fuel s d := by
  intro fuel
  induction fuel with
  | zero => intro s d; rfl
  | succ fuel ih =>
    intro s d
    unfold vwLoop
    simp only [delete_map h, ih]

/-- the rule to stop at two inner points has no effect unless fewer points would do -/
theorem loop_guard (line : List Q) (pick : Nat → VwHeap α → Nat) (k : Nat) :
    ∀ fuel s d links, vwLoop areaQ line pick true k fuel s d = .ok links →
      vwLoop areaQ line pick false k fuel s d = .ok links ∨ (d < k ∧ vwLoop areaQ line pick true (k - 1) fuel s d = .ok links) := by
  intro fuel
  induction fuel with
  | zero => intro s d links h; cases h
  | succ fuel ih =>
    intro s d links h
    unfold vwLoop at h ⊢
    by_cases hd : k ≤ d
    · left
      rw [if_pos (by simp [hd])] at h ⊢
      exact h
    · by_cases he : s.1.isEmpty = true
      · left
        rw [if_pos (by simp [he])] at h ⊢
        exact h
      · by_cases hg : s.2.length = 2
        · right
          rw [if_pos (by simp [hg])] at h
          refine ⟨by omega, ?_⟩
          rw [if_pos (by simp [hg])]
          exact h
        · rw [if_neg (by simp [hd, he, hg])] at h
          rw [if_neg (show ¬ (_ = true) by simp [hd, he])]
          by_cases hk : k - 1 ≤ d
          · rw [if_pos (show (_ = true) by simp [hk])]
            dsimp only at h ⊢
            cases hp : getElem? s.1 (pick fuel s.1) with
            | none => rw [hp] at h; cases h
            | some sm =>
              rw [hp] at h
              dsimp only at h ⊢
              cases hl : linkGet s.2 sm.2 with
              | none =>
                rw [hl] at h
                dsimp only at h ⊢
                rcases ih _ _ _ h with r | ⟨r1, r⟩
                · exact Or.inl r
                · right
                  refine ⟨r1, ?_⟩
                  cases fuel with
                  | zero => cases r
                  | succ fuel =>
                    unfold vwLoop at r
                    rwa [if_pos (show (_ = true) by simp [hk])] at r
              | some lk =>
                rw [hl] at h
                dsimp only at h ⊢
                by_cases hs : (!(sm.1 ==. lk.2.2)) = true
                · rw [if_pos hs] at h ⊢
                  rcases ih _ _ _ h with r | ⟨r1, r⟩
                  · exact Or.inl r
                  · right
                    refine ⟨r1, ?_⟩
                    cases fuel with
                    | zero => cases r
                    | succ fuel =>
                      unfold vwLoop at r
                      rwa [if_pos (show (_ = true) by simp [hk])] at r
                · rw [if_neg hs] at h ⊢
                  cases hv : vwDelete areaQ line (s.1.eraseIdx (pick fuel s.1), linkRemove s.2 sm.2) lk.1 lk.2.1 with
                  | error e => rw [hv] at h; cases h
                  | ok s' =>
                    rw [hv] at h
                    rcases ih _ _ _ h with r | ⟨r1, r⟩
                    · exact Or.inl r
                    · omega
          · rw [if_neg (show ¬ (_ = true) by simp [hk, he, hg])]
            dsimp only at h ⊢
            cases hp : getElem? s.1 (pick fuel s.1) with
            | none => rw [hp] at h; cases h
            | some sm =>
              rw [hp] at h
              dsimp only at h ⊢
              cases hl : linkGet s.2 sm.2 with
              | none => rw [hl] at h; exact ih _ _ _ h
              | some lk =>
                rw [hl] at h
                dsimp only at h ⊢
                by_cases hs : (!(sm.1 ==. lk.2.2)) = true
                · rw [if_pos hs] at h
                  rw [if_pos hs, if_pos hs]
                  exact ih _ _ _ h
                · rw [if_neg hs] at h
                  rw [if_neg hs, if_neg hs]
                  cases hv : vwDelete areaQ line (s.1.eraseIdx (pick fuel s.1), linkRemove s.2 sm.2) lk.1 lk.2.1 with
                  | error e => rw [hv] at h; cases h
                  | ok s' =>
                    rw [hv] at h
                    rcases ih _ _ _ h with r | ⟨r1, r⟩
                    · exact Or.inl r
                    · exact Or.inr ⟨by omega, r⟩

end vw

end lawless

section exact
variable {K : Type} [Scalar K] [Field K] [LinearOrder K] [ExactScalar K]

theorem exact_laws : PlanarLaws K where
  sub := by simp only [exact_simp, sub_zero]
  xy x y := by simp only [exact_simp]; ring
  xz x y := by simp only [exact_simp]; ring
  yz x y := by simp only [exact_simp]; ring
  step n k _ := by simp only [exact_simp]; simp
  rest := by simp only [exact_simp]; simp

/-- **C99** discretizing and copying to 3D commute, in exact arithmetic. -/
theorem C99_discretize (pl : Plane) (d : K) (line out : List (V2 K))
    (h : Collects (discNext ops2) (discNew ops2 line d) out) :
    Collects (discNext ops3) (discNew ops3 (copyTo3d line pl) d) (copyTo3d out pl) :=
  discretize_lift exact_laws pl d line out h

theorem lift_sqDist (pl : Plane) (a b : V2 K) : sqDist3 (lift pl a) (lift pl b) = sqDist2 a b := by
  cases pl <;> simp only [lift, sqDist3, sqDist2, exact_simp] <;> ring

/-- **C99** `simplify_rdp` (which in 3D measures distances from infinite lines) agrees with the 2D version if in every triangle of three
points in the order of the line the angles at the first and the last one are not obtuse. -/
theorem C99_simplify_rdp (pl : Plane) (d : K) (line : List (V2 K))
    (h : ∀ a p b, [a, p, b].Sublist line → sqDist2 b p ≤ sqDist2 a p + sqDist2 a b ∧ sqDist2 a p ≤ sqDist2 b p + sqDist2 a b) :
    simplifyRdp3 (copyTo3d line pl) d = (simplifyRdp2 line d).map (fun out => copyTo3d out pl) := by
  have := ExactScalar.toIsStrictOrderedRing (K := K)
  unfold simplifyRdp3 simplifyRdp2
  simp only [copy_eq]
  refine rdpTop_map_sublist (lift pl) _ _ d line fun a p b hs => ?_
  obtain ⟨h1, h2⟩ := h a p b hs
  rw [Similar.dist2_pairwise, Similar.dist3_pairwise, lift_sqDist, lift_sqDist, lift_sqDist]
  have h0 : 0 ≤ sqDist2 a b := by unfold sqDist2; positivity
  by_cases hz : sqDist2 a b = 0
  · rw [if_pos hz, if_pos hz]
  · have hp : 0 < sqDist2 a b := lt_of_le_of_ne h0 (Ne.symm hz)
    rw [if_neg hz, if_neg hz, if_neg, if_neg]
    · rw [not_lt, div_le_one hp]; linarith
    · rw [not_lt]; apply div_nonneg _ h0; linarith

/-- **C99** a hook: the 3D version drops the point that the 2D version keeps -/
theorem C99_rdp_differs : simplifyRdp2 [(⟨0, 0⟩ : V2 ℚ), ⟨5, 0⟩, ⟨1, 0⟩] 1 = .ok [⟨0, 0⟩, ⟨5, 0⟩, ⟨1, 0⟩] ∧
    simplifyRdp3 (copyTo3d [(⟨0, 0⟩ : V2 ℚ), ⟨5, 0⟩, ⟨1, 0⟩] .xy) 1 = .ok (copyTo3d [⟨0, 0⟩, ⟨1, 0⟩] .xy) := by
  decide +kernel

theorem lift_area (pl : Plane) (a b c : V2 K) : triangleArea3 (lift pl a) (lift pl b) (lift pl c) = triangleArea2 a b c := by
  cases pl <;> simp only [lift, triangleArea3, triangleArea2, exact_simp] <;> ring

/-- **C99** `simplify_vw` of an open line string: as long as at least four points are left the 3D version returns what the 2D version
does, without the last point (it forgets the last point always, C15). -/
theorem C99_simplify_vw (pl : Plane) (pick : Nat → List (K × Nat) → Nat) (hpick : PopsLeast (fun _ => True) pick) (line : List (V2 K))
    (k fuel : Nat) (hk : k + 4 ≤ line.length) (hopen : ∀ a b, line.head? = some a → line.getLast? = some b → a ≠ b)
    (hf : 4 * line.length < fuel) :
    ∃ out last, simplifyVw2 pick fuel line k = .ok (out ++ [last]) ∧
      simplifyVw3 pick fuel (copyTo3d line pl) k = .ok (copyTo3d out pl) := by
  have hc : isConnected2 line = false := by
    cases line with
    | nil => simp at hk
    | cons a l =>
      unfold isConnected2
      have hl : (a :: l).getLast? = some ((a :: l).getLast (by simp)) := List.getLast?_eq_some_getLast _
      have hne := hopen a _ rfl hl
      simp only [List.head?_cons, hl]
      rw [Bool.eq_false_iff]
      intro hb
      simp only [V2.beq, Bool.and_eq_true, exact_simp] at hb
      apply hne
      cases a
      generalize (List.getLast _ _ : V2 K) = q at *
      cases q
      simp_all
  have core := fun k => vw_core (exact_total (K := K)) triangleArea2 line (by omega) (fun _ _ _ _ _ _ => trivial) pick hpick true k fuel hf false
  obtain ⟨s, s', links, cur, pt, h1, h2, h3, h4, h5, h6, g1, g2, g3, g4, g5, g6, g7⟩ := core k
  have hfalse : vwLoop triangleArea2 line pick false k fuel s' 0 = .ok links := by
    rcases loop_guard line pick k fuel s' 0 links h3 with r | ⟨r1, r⟩
    · exact r
    · exfalso
      obtain ⟨t, t', links', cur', pt', e1, e2, e3, -, -, -, -, -, e5, e6, -, -, e7⟩ := core (k - 1)
      rw [h1] at e1
      cases e1
      rw [h2] at e2
      cases e2
      rw [r] at e3
      cases e3
      have hl : cur.tail.dropLast.length = cur'.tail.dropLast.length := by rw [← g7, ← e7]
      simp only [Bool.false_eq_true, if_false, Nat.add_zero, deletable, true_and] at g3 e5
      simp only [List.length_dropLast, List.length_tail] at hl
      split at g3 <;> omega
  simp only [Bool.false_eq_true, if_false, Nat.add_zero] at *
  obtain rfl : s = s' := by simpa using h2
  obtain ⟨hsw, hdl⟩ := sandwich cur 0 (line.length - 1) g4 g5 g6
  have hmem : ∀ i ∈ cur, i < line.length := fun i hi => by simpa using g2.mem hi
  have hm : cur.mapM (idx line) = .ok (cur.map pt) := mapM_ok _ pt cur (fun i hi => h4 i (hmem i hi))
  have hm3 : cur.dropLast.mapM (idx line) = .ok (cur.dropLast.map pt) :=
    mapM_ok _ pt _ (fun i hi => h4 i (hmem i (List.dropLast_subset _ hi)))
  have hcur : cur = cur.dropLast ++ [line.length - 1] := by
    rw [← hdl, List.cons_append]; exact hsw.symm
  refine ⟨cur.dropLast.map pt, pt (line.length - 1), ?_, ?_⟩
  · unfold simplifyVw2
    rw [if_neg (by omega), h1]
    simp only [bind, Except.bind, hc, Bool.false_eq_true, if_false]
    rw [h3]
    simp only [Bool.not_false, if_true, g7, hsw]
    rw [hm]
    congr 1
    conv_lhs => rw [hcur]
    rw [List.map_append]; rfl
  · unfold simplifyVw3
    simp only [copy_eq]
    rw [if_neg (by rw [List.length_map]; omega)]
    have hi : vwInit triangleArea3 (line.map (lift pl)) = vwInit triangleArea2 line := by
      unfold vwInit
      rw [initStep_map (lift_area pl), List.length_map]
    rw [hi, h1]
    simp only [bind, Except.bind]
    rw [loop_map (lift_area pl), hfalse]
    simp only [g7, hdl]
    rw [mapM_idx, hm3]; rfl

theorem box_list {b2 : Aabb2 K} {b3 : Aabb3 K} (pl : Plane) (h : b3.minMax = b2.minMax.map (fun b => (lift pl b.1, lift pl b.2))) :
    b3.minMax.map (fun b => [b.1, b.2]) = b2.minMax.map (fun b => copyTo3d [b.1, b.2] pl) := by
  rw [h, Option.map_map]
  simp only [copy_eq]; rfl

/-- **C99** the corners of the bounding box of the copy are the copies of the corners of the bounding box. -/
theorem C99_box (pl : Plane) (line : List (V2 K)) : (Aabb3.withPoints (copyTo3d line pl)).minMax.map (fun b => [b.1, b.2]) =
    (Aabb2.withPoints line).minMax.map (fun b => copyTo3d [b.1, b.2] pl) :=
  box_list pl (box_lift (by rw [OrderedScalar.fmin_eq, min_self]) (by rw [OrderedScalar.fmax_eq, max_self]) pl line)

/-- **C99** `get_plane` of the bounding box of a line string: the plane is found exactly if all points agree in the coordinate orthogonal
to the plane, and not all of them agree in one of the others. -/
theorem C99_get_plane (line : List (V3 K)) (pl : Plane) : Plane.getPlane (Aabb3.withPoints line) = some pl ↔
    (∀ p ∈ line, ∀ q ∈ line, Aabb.orthogonal pl p = Aabb.orthogonal pl q) ∧
      ∀ pl', pl' ≠ pl → ∃ p ∈ line, ∃ q ∈ line, Aabb.orthogonal pl' p ≠ Aabb.orthogonal pl' q := by
  have hb : IsBoundingBox3 (Aabb3.withPoints line) line := Aabb.C30_box3_is_bounding_box (.withPoints line)
  unfold IsBoundingBox3 at hb
  cases hm : (Aabb3.withPoints line).minMax with
  | none =>
    rw [hm] at hb
    simp only at hb
    subst hb
    have : ∃ pl', pl' ≠ pl := by cases pl; exacts [⟨.xz, by decide⟩, ⟨.xy, by decide⟩, ⟨.xy, by decide⟩]
    obtain ⟨pl', hp⟩ := this
    constructor
    · intro h; cases h
    · rintro ⟨-, h⟩
      obtain ⟨p, hp, -⟩ := h pl' hp
      cases hp
  | some mm =>
    obtain ⟨lo, hi⟩ := mm
    rw [hm] at hb
    simp only at hb
    have hr : ∀ pl' : Plane, IsRange (Aabb.orthogonal pl' lo) (Aabb.orthogonal pl' hi) (line.map (Aabb.orthogonal pl')) := by
      intro pl'
      cases pl'
      · exact hb.2.2
      · exact hb.2.1
      · exact hb.1
    have key : ∀ pl' : Plane, Aabb.orthogonal pl' lo = Aabb.orthogonal pl' hi ↔
        ∀ p ∈ line, ∀ q ∈ line, Aabb.orthogonal pl' p = Aabb.orthogonal pl' q := by
      intro pl'
      obtain ⟨h1, h2, h3⟩ := hr pl'
      constructor
      · intro e p hp q hq
        have a := h3 _ (List.mem_map_of_mem hp)
        have b := h3 _ (List.mem_map_of_mem hq)
        rw [← e] at a b
        rw [le_antisymm a.2 a.1, le_antisymm b.2 b.1]
      · intro h
        obtain ⟨p, hp, e1⟩ := List.mem_map.1 h1
        obtain ⟨q, hq, e2⟩ := List.mem_map.1 h2
        rw [← e1, ← e2]
        exact h p hp q hq
    have hprop : Proper3 (Aabb3.withPoints line) := by
      have g := fun pl' => (hr pl').2.2 _ (hr pl').1
      exact ⟨lo, hi, hm, (g .yz).2, (g .xz).2, (g .xy).2⟩
    rw [Aabb.C29_get_plane _ (Or.inr hprop)]
    constructor
    · rintro ⟨lo', hi', e, h1, h2⟩
      rw [hm] at e
      cases e
      refine ⟨(key pl).1 h1, fun pl' hp => ?_⟩
      have := h2 pl' hp
      rw [Ne, key] at this
      push Not at this
      exact this
    · rintro ⟨h1, h2⟩
      refine ⟨lo, hi, hm, (key pl).2 h1, fun pl' hp e => ?_⟩
      obtain ⟨p, hp, q, hq, hne⟩ := h2 pl' hp
      exact hne ((key pl').1 e p hp q hq)

/-- **C99** copying a flat 3D line string to 2D in the plane that `get_plane` found and back keeps every point but for the offset of the
plane, which becomes zero. -/
theorem C99_copy_flat (line : List (V3 K)) (pl : Plane) (h : Plane.getPlane (Aabb3.withPoints line) = some pl) :
    ∃ c, (∀ p ∈ line, Aabb.orthogonal pl p = c) ∧ ∀ (i : Nat) (p q : V3 K), getElem? line i = some p →
      getElem? (copyTo3d (copyTo2d line pl) pl) i = some q →
      Aabb.orthogonal pl q = 0 ∧ ∀ pl', pl' ≠ pl → Aabb.orthogonal pl' q = Aabb.orthogonal pl' p := by
  obtain ⟨h1, h2⟩ := (C99_get_plane line pl).1 h
  have : ∃ pl', pl' ≠ pl := by cases pl; exacts [⟨.xz, by decide⟩, ⟨.xy, by decide⟩, ⟨.xy, by decide⟩]
  obtain ⟨pl', hpl⟩ := this
  obtain ⟨r, hr, -⟩ := h2 pl' hpl
  refine ⟨Aabb.orthogonal pl r, fun p hm => h1 p hm r hr, fun i p q hi hq => ?_⟩
  cases pl <;> simp only [copyTo2d, copyTo3d, List.map_map, List.getElem?_map, hi, Option.map_some, Option.some.injEq, Function.comp] at hq <;>
    subst hq <;> refine ⟨ExactScalar.zero_eq, fun pl' hne => ?_⟩ <;> cases pl' <;> first | rfl | exact absurd rfl hne

/-- **C99** a line string is connected iff its copy is. -/
theorem C99_is_connected (pl : Plane) (line : List (V2 K)) : isConnected3 (copyTo3d line pl) = isConnected2 line := by
  have hz : (Scalar.beq zero zero : Bool) = true := (OrderedScalar.beq_iff (zero : K) zero).2 rfl
  have hb : ∀ a b : V2 K, V3.beq (lift pl a) (lift pl b) = V2.beq a b := by
    intro a b
    cases pl <;> simp only [lift, V3.beq, V2.beq, hz, Bool.and_true, Bool.true_and]
    rw [Bool.and_comm]
  rw [copy_eq]
  unfold isConnected3 isConnected2
  rw [List.head?_map, List.getLast?_map, List.isEmpty_map]
  cases line with
  | nil => rfl
  | cons a l =>
    cases (a :: l).getLast? with
    | none => rfl
    | some b => simp only [List.isEmpty_cons, Bool.false_or, List.head?_cons, Option.map_some, hb]

end exact

/-- a line string with acute triangles only, and an open line string of six points: the hypotheses of `C99_simplify_rdp` and
`C99_simplify_vw` can be met -/
example : simplifyRdp3 (copyTo3d [(⟨0, 0⟩ : V2 ℚ), ⟨1, 1⟩, ⟨2, 0⟩] .yz) (1 / 2) =
    (simplifyRdp2 [(⟨0, 0⟩ : V2 ℚ), ⟨1, 1⟩, ⟨2, 0⟩] (1 / 2)).map (fun out => copyTo3d out .yz) := by
  refine C99_simplify_rdp .yz (1 / 2) _ fun a p b h => ?_
  have e := h.eq_of_length (by rfl)
  simp only [List.cons.injEq, and_true] at e
  obtain ⟨rfl, rfl, rfl⟩ := e
  norm_num [sqDist2]

example : ∃ out last, simplifyVw2 (fun _ heap => leastPos heap) 100 [(⟨0, 0⟩ : V2 ℚ), ⟨1, 5⟩, ⟨2, 3⟩, ⟨7, 4⟩, ⟨20, 1⟩, ⟨21, 1⟩] 2 = .ok (out ++ [last]) ∧
    simplifyVw3 (fun _ heap => leastPos heap) 100 (copyTo3d [(⟨0, 0⟩ : V2 ℚ), ⟨1, 5⟩, ⟨2, 3⟩, ⟨7, 4⟩, ⟨20, 1⟩, ⟨21, 1⟩] .xz) 2 = .ok (copyTo3d out .xz) :=
  C99_simplify_vw .xz _ (leastPos_pops exact_total) _ 2 100 (by simp) (by simp) (by simp)

/-- **C99** below four points the 2D version stops, the 3D version does not. -/
theorem C99_vw_differs : simplifyVw2 (fun _ heap => leastPos heap) 100 [(⟨0, 0⟩ : V2 ℚ), ⟨1, 5⟩, ⟨2, 3⟩, ⟨7, 4⟩] 1 =
      .ok [⟨0, 0⟩, ⟨1, 5⟩, ⟨2, 3⟩, ⟨7, 4⟩] ∧
    simplifyVw3 (fun _ heap => leastPos heap) 100 (copyTo3d [(⟨0, 0⟩ : V2 ℚ), ⟨1, 5⟩, ⟨2, 3⟩, ⟨7, 4⟩] .xy) 1 =
      .ok (copyTo3d [⟨0, 0⟩, ⟨2, 3⟩] .xy) := by
  decide +kernel

section floats
open Flt Fl
variable {f : Fmt} [Libm f]

theorem ofQ_repr (s : Bool) (q : ℚ) (h : q ≠ 0 ∧ Repr f q) : (Flt.ofQ s q : Flt f) = .fin q h := by
  have h1 := h.2.fix
  have h2 := h.2.1
  unfold Flt.ofQ
  simp only [h1]
  rw [dif_pos h2, dif_neg h.1]

/-- adding the positive zero changes only the negative zero -/
theorem add_pzero (x : Flt f) (h : x ≠ .zero true) : Flt.add x (.zero false) = x := by
  match x, h with
  | .nan, _ => rfl
  | .inf s, _ => rfl
  | .zero true, h => exact absurd rfl h
  | .zero false, _ => rfl
  | .fin q hq, _ =>
    show Flt.ofQ false (q + 0) = _
    rw [add_zero]
    exact ofQ_repr _ _ _

theorem add_comm' (x y : Flt f) : Flt.add x y = Flt.add y x := by
  match x, y with
  | .nan, .nan => rfl
  | .nan, .inf _ => rfl
  | .nan, .zero _ => rfl
  | .nan, .fin _ _ => rfl
  | .inf _, .nan => rfl
  | .zero _, .nan => rfl
  | .fin _ _, .nan => rfl
  | .inf s, .inf t => cases s <;> cases t <;> rfl
  | .inf _, .zero _ => rfl
  | .inf _, .fin _ _ => rfl
  | .zero _, .inf _ => rfl
  | .fin _ _, .inf _ => rfl
  | .zero s, .zero t => cases s <;> cases t <;> rfl
  | .zero _, .fin q _ => show Flt.ofQ false (0 + q) = Flt.ofQ false (q + 0); rw [add_comm]
  | .fin q _, .zero _ => show Flt.ofQ false (q + 0) = Flt.ofQ false (0 + q); rw [add_comm]
  | .fin p _, .fin q _ => show Flt.ofQ false (p + q) = Flt.ofQ false (q + p); rw [add_comm]

theorem ofQ_not_nzero (q : ℚ) : (Flt.ofQ false q : Flt f) ≠ .zero true := by
  unfold Flt.ofQ
  split
  · split
    · exact fun h => nomatch h
    · exact fun h => nomatch h
  · exact fun h => nomatch h

theorem mul_self_pos (x : Flt f) : Flt.mul x x ≠ .zero true := by
  match x with
  | .nan => exact fun h => nomatch h
  | .inf s => cases s <;> exact fun h => nomatch h
  | .zero s => cases s <;> (show Flt.ofQ _ _ ≠ _; exact ofQ_not_nzero _)
  | .fin q h =>
    show Flt.ofQ (decide (q < 0) != decide (q < 0)) _ ≠ _
    rw [show (decide (q < 0) != decide (q < 0)) = false by simp]
    exact ofQ_not_nzero _

theorem add_not_nzero (x y : Flt f) (hx : x ≠ .zero true) : Flt.add x y ≠ .zero true := by
  match x, y with
  | .nan, _ => exact fun h => nomatch h
  | .inf _, .nan => exact fun h => nomatch h
  | .zero _, .nan => exact fun h => nomatch h
  | .fin _ _, .nan => exact fun h => nomatch h
  | .inf s, .inf t => cases s <;> cases t <;> exact fun h => nomatch h
  | .inf _, .zero _ => exact fun h => nomatch h
  | .inf _, .fin _ _ => exact fun h => nomatch h
  | .zero _, .inf _ => exact fun h => nomatch h
  | .fin _ _, .inf _ => exact fun h => nomatch h
  | .zero true, .zero t => exact absurd rfl hx
  | .zero false, .zero t => exact fun h => nomatch h
  | .zero _, .fin q _ => exact ofQ_not_nzero _
  | .fin q _, .zero _ => exact ofQ_not_nzero _
  | .fin p _, .fin q _ => exact ofQ_not_nzero _

theorem zero_sq : Flt.mul (.zero false) (.zero false) = (.zero false : Flt f) := by
  show Flt.ofQ false (0 * 0) = _
  rw [zero_mul]; exact ofQ_zero false

theorem usize_fin (he : 64 < f.emax) (k : Nat) (hk : k < 2 ^ 64) : (Flt.ofQ false (k : ℚ) : Flt f) = .zero false ∨
    ∃ q h, (Flt.ofQ false (k : ℚ) : Flt f) = .fin q h ∧ 0 < q := by
  rcases Nat.eq_zero_or_pos k with rfl | h0
  · left; simpa using ofQ_zero (f := f) false
  · have h64 : Repr f (pow2 64) := by
      refine ⟨?_, 1, 64, by norm_num, ?_, ?_⟩
      · rw [abs_of_pos (pow2_pos _)]; exact pow2_lt he
      · have := f.hprec
        rw [abs_one]
        exact one_lt_pow₀ (by norm_num) (by omega)
      · have := f.hemin
        omega
    have hb : |roundQ f k| < pow2 f.emax := by
      refine lt_of_le_of_lt (Proofs.FloatIntersect.abs_roundQ_le h64 ?_) (pow2_lt he)
      rw [abs_of_nonneg (by positivity), pow2_eq]
      have : (k : ℚ) ≤ 2 ^ 64 := by exact_mod_cast hk.le
      exact_mod_cast this
    have hp := roundQ_nonneg f (q := k) (by positivity)
    unfold Flt.ofQ
    rw [dif_pos hb]
    split
    · left; rfl
    · next hz =>
      right
      exact ⟨roundQ f k, ⟨hz, roundQ_repr f k hb⟩, rfl, lt_of_le_of_ne hp (Ne.symm hz)⟩

theorem float_laws (he : 64 < f.emax) : PlanarLaws (Flt f) where
  sub := rfl
  xy x y := by
    show Flt.add (Flt.add (Flt.mul x x) (Flt.mul y y)) (Flt.mul (.zero false) (.zero false)) = _
    rw [zero_sq, add_pzero _ (add_not_nzero _ _ (mul_self_pos x))]; rfl
  xz x y := by
    show Flt.add (Flt.add (Flt.mul x x) (Flt.mul (.zero false) (.zero false))) (Flt.mul y y) = _
    rw [zero_sq, add_pzero _ (mul_self_pos x)]; rfl
  yz x y := by
    show Flt.add (Flt.add (Flt.mul (.zero false) (.zero false)) (Flt.mul y y)) (Flt.mul x x) = _
    rw [zero_sq, add_comm' (.zero false), add_pzero _ (mul_self_pos y), add_comm']; rfl
  step n k hk := by
    have hd : Flt.div (.zero false) n = (.zero false : Flt f) := by
      match n, hk with
      | .nan, hk => cases hk
      | .inf true, hk => cases hk
      | .inf false, _ => rfl
      | .zero _, hk => cases hk
      | .fin q h, hk =>
        have hq : 0 < q := by
          by_contra hq
          have h1 : q.floor ≤ 0 := by
            have := Fl.floor_le' q
            have h2 : (q.floor : ℚ) ≤ 0 := by linarith [not_lt.1 hq]
            exact_mod_cast h2
          have h3 : k < min q.floor.toNat (2 ^ 64 - 1) := hk
          have h4 : q.floor.toNat = 0 := Int.toNat_of_nonpos h1
          omega
        show Flt.ofQ (false != decide (q < 0)) (0 / q) = _
        rw [zero_div, show (false != decide (q < 0)) = false by simp [hq.le], ofQ_zero]
    have hk64 : k < 2 ^ 64 := by
      have : Flt.toUsize n ≤ 2 ^ 64 - 1 := by
        match n with
        | .nan => exact Nat.zero_le _
        | .inf true => exact Nat.zero_le _
        | .inf false => exact le_refl _
        | .zero _ => exact Nat.zero_le _
        | .fin q h => exact min_le_right _ _
      have h : k < Flt.toUsize n := hk
      omega
    show Flt.add (.zero false) (Flt.mul (Flt.div (.zero false) n) (Flt.ofQ false (k : ℚ))) = .zero false
    rw [hd]
    rcases usize_fin he k hk64 with e | ⟨q, h, e, hq⟩
    · rw [e, zero_sq]; rfl
    · rw [e]
      show Flt.add (.zero false) (Flt.ofQ (false != decide (q < 0)) (0 * q)) = _
      rw [zero_mul, show (false != decide (q < 0)) = false by simp [hq.le], ofQ_zero]; rfl
  rest := by
    show Flt.add (.zero false) (Flt.mul (.zero false) (Flt.ofQ false ((0 : ℕ) : ℚ))) = .zero false
    rw [Nat.cast_zero, ofQ_zero, zero_sq]; rfl

/-- **C99** discretizing and copying to 3D commute on floats, bit by bit, for all floats and all distances. -/
theorem C99_discretize_floats (he : 64 < f.emax) (pl : Plane) (d : Flt f) (line out : List (V2 (Flt f)))
    (h : Collects (discNext ops2) (discNew ops2 line d) out) :
    Collects (discNext ops3) (discNew ops3 (copyTo3d line pl) d) (copyTo3d out pl) :=
  discretize_lift (float_laws he) pl d line out h

/-- **C99** the bounding box of the copy is the copy of the bounding box, for all floats. -/
theorem C99_box_floats (pl : Plane) (line : List (V2 (Flt f))) :
    (Aabb3.withPoints (copyTo3d line pl)).minMax.map (fun b => [b.1, b.2]) =
      (Aabb2.withPoints line).minMax.map (fun b => copyTo3d [b.1, b.2] pl) := by
  rw [box_lift (by simp [Scalar.fmin, Scalar.zero, Flt.fmin, Flt.lt]) (by simp [Scalar.fmax, Scalar.zero, Flt.fmax, Flt.lt]) pl line,
    Option.map_map]
  simp only [copy_eq]; rfl

end floats
end Verif.Props.Planar
