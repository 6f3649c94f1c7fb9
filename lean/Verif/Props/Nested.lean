import Verif.Props.Rdp
import Verif.Props.FloatRdp
import Verif.Props.Vw
import Verif.Props.FloatVw
import Verif.Props.FloatTiny
/-!
# C90: simplifications with different tolerances are nested
-/
namespace Verif.Props
open Verif Verif.Model Verif.Spec Verif.Proofs.Rdp Scalar
set_option linter.unusedSectionVars false

section lawless
variable {α : Type} [Scalar α] {P : Type}

/-- the last point is always produced -/
theorem rdpRec_last (d : P → P → P → α) (thr : α) (points : List P) (hne : points ≠ []) (out : List P)
    (h : rdpRec (fun a b p => .ok (d a b p)) thr points = .ok out) : points.getLast hne ∈ out := by
  obtain ⟨o, h1, h2⟩ := rdpRec_induct (fun a b p => .ok (d a b p)) d thr
    (fun points out => ∀ h : points ≠ [], points.getLast h ∈ out)
    (by intro a h; simp) (by intro a b h; simp)
    (by
      intro points i h2 hi i0 i1 _ _ h
      rw [List.getLast_eq_getElem]; simp)
    (by
      intro points l r i h2 hi i0 i1 _ _ _ hr h
      have hne : points.drop i ≠ [] := by
        apply List.ne_nil_of_length_pos; simp; omega
      have := hr hne
      rw [List.getLast_drop] at this
      exact List.mem_append_right _ this)
    points hne (by intros; rfl)
  rw [h] at h1
  cases h1
  exact h2 hne

/-- a larger threshold keeps a subsequence -/
theorem rdpRec_nested (d : P → P → P → α) (t1 t2 : α) (points : List P)
    (hle : ∀ a ∈ points, ∀ b ∈ points, ∀ p ∈ points, (d a b p <=. t1) = true → (d a b p <=. t2) = true)
    (o1 o2 : List P) (h1 : rdpRec (fun a b p => .ok (d a b p)) t1 points = .ok o1)
    (h2 : rdpRec (fun a b p => .ok (d a b p)) t2 points = .ok o2) : o2.Sublist o1 := by
  induction hn : points.length using Nat.strong_induction_on generalizing points o1 o2 with
  | _ n ih =>
    subst hn
    by_cases hne : points = []
    · subst hne; rw [rdpRec] at h1; simp at h1
    by_cases hl : points.length ≤ 2
    · rw [rdpRec_short _ _ _ _ (List.getLast?_eq_some_getLast hne) hl, Except.ok.injEq] at h1 h2
      rw [← h1, ← h2]
    · have hlast := rdpRec_last d t1 points hne o1 h1
      obtain ⟨i, hi, i0, i1, hm, e1⟩ := rdpRec_unfold (fun a b p => .ok (d a b p)) d t1 points
        (by intros; rfl) (by omega)
      obtain ⟨j, hj, j0, j1, hm', e2⟩ := rdpRec_unfold (fun a b p => .ok (d a b p)) d t2 points
        (by intros; rfl) (by omega)
      rw [hm] at hm'
      have hij : i = j := (Prod.mk.inj (Option.some.inj hm')).2
      subst hij
      by_cases c2 : (d points[0] points[points.length - 1] points[i] <=. t2) = true
      · rw [e2, if_pos c2, Except.ok.injEq] at h2
        rw [← h2, List.singleton_sublist, ← List.getLast_eq_getElem hne]
        exact hlast
      · have c1 : ¬ (d points[0] points[points.length - 1] points[i] <=. t1) = true :=
          fun hc => c2 (hle _ (List.getElem_mem _) _ (List.getElem_mem _) _ (List.getElem_mem _) hc)
        rw [e1, if_neg c1] at h1
        rw [e2, if_neg c2] at h2
        cases hl1 : rdpRec (fun a b p => .ok (d a b p)) t1 (points.take (i + 1)) with
        | error e => rw [hl1] at h1; cases h1
        | ok l1 =>
          cases hr1 : rdpRec (fun a b p => .ok (d a b p)) t1 (points.drop i) with
          | error e => rw [hl1, hr1] at h1; cases h1
          | ok r1 =>
            cases hl2 : rdpRec (fun a b p => .ok (d a b p)) t2 (points.take (i + 1)) with
            | error e => rw [hl2] at h2; cases h2
            | ok l2 =>
              cases hr2 : rdpRec (fun a b p => .ok (d a b p)) t2 (points.drop i) with
              | error e => rw [hl2, hr2] at h2; cases h2
              | ok r2 =>
                rw [hl1, hr1] at h1
                rw [hl2, hr2] at h2
                simp only [Except.ok.injEq] at h1 h2
                subst h1 h2
                exact List.Sublist.append
                  (ih _ (by simp; omega) (points.take (i + 1)) (fun a ha b hb p hp => hle a (List.mem_of_mem_take ha)
                    b (List.mem_of_mem_take hb) p (List.mem_of_mem_take hp)) l1 l2 hl1 hl2 rfl)
                  (ih _ (by simp; omega) (points.drop i) (fun a ha b hb p hp => hle a (List.mem_of_mem_drop ha)
                    b (List.mem_of_mem_drop hb) p (List.mem_of_mem_drop hp)) r1 r2 hr1 hr2 rfl)

theorem rdpTop_nested (d : P → P → P → α) (d1 d2 : α) (points : List P)
    (hle : ∀ x : α, (x <=. (d1 *. d1)) = true → (x <=. (d2 *. d2)) = true)
    (o1 o2 : List P) (h1 : rdpTop (fun a b p => .ok (d a b p)) d1 points = .ok o1)
    (h2 : rdpTop (fun a b p => .ok (d a b p)) d2 points = .ok o2) : o2.Sublist o1 := by
  match points with
  | [] =>
    simp only [rdpTop, Except.ok.injEq] at h1 h2
    rw [← h1, ← h2]
  | p :: rest =>
    by_cases hl : (p :: rest).length ≤ 2
    · rw [rdpTop, if_pos hl, Except.ok.injEq] at h1 h2
      rw [← h1, ← h2]
    · rw [rdpTop, if_neg hl] at h1 h2
      cases e1 : rdpRec (fun a b p => .ok (d a b p)) (d1 *. d1) (p :: rest) with
      | error e => rw [e1] at h1; cases h1
      | ok r1 =>
        cases e2 : rdpRec (fun a b p => .ok (d a b p)) (d2 *. d2) (p :: rest) with
        | error e => rw [e2] at h2; cases h2
        | ok r2 =>
          rw [e1] at h1
          rw [e2] at h2
          simp only [Except.map, Except.ok.injEq] at h1 h2
          subst h1 h2
          exact List.Sublist.cons_cons _ (rdpRec_nested d _ _ _ (fun _ _ _ _ _ _ h => hle _ h) _ _ e1 e2)

/-- a threshold that no number is below keeps every point -/
theorem rdpRec_all (d : P → P → P → α) (t : α) (points : List P) (h2 : 2 ≤ points.length)
    (hle : ∀ x : α, (x <=. t) = false) :
    rdpRec (fun a b p => .ok (d a b p)) t points = .ok (points.drop 1) := by
  obtain ⟨o, h1, h⟩ := rdpRec_induct (fun a b p => .ok (d a b p)) d t
    (fun points out => 2 ≤ points.length → out = points.drop 1)
    (by intro a h; simp at h) (by intro a b h; simp)
    (by intro points i h2 hi i0 i1 _ hc; rw [hle] at hc; cases hc)
    (by
      intro points l r i h2 hi i0 i1 _ _ hl hr _
      rw [hl (by simp; omega), hr (by simp; omega), List.drop_drop, List.drop_take]
      rw [show i + 1 - 1 = i by omega, show i + 1 = 1 + i by omega, ← List.drop_drop]
      exact List.take_append_drop _ _)
    points (by rintro rfl; simp at h2) (by intros; rfl)
  rw [h1, h h2]

theorem rdpTop_all (d : P → P → P → α) (t : α) (points : List P) (hle : ∀ x : α, (x <=. (t *. t)) = false) :
    rdpTop (fun a b p => .ok (d a b p)) t points = .ok points := by
  match points with
  | [] => rfl
  | p :: rest =>
    by_cases hl : (p :: rest).length ≤ 2
    · rw [rdpTop, if_pos hl]
    · rw [rdpTop, if_neg hl, rdpRec_all d _ _ (by omega) hle]; rfl

end lawless

section ordered
variable {α : Type} [Scalar α] [LinearOrder α] [OrderedScalar α] {P : Type}

/-- simplifying what a smaller threshold has kept is the same as simplifying the whole -/
theorem rdpRec_staged (d : P → P → P → α) (t1 t2 : α) (hle : ∀ x : α, (x <=. t1) = true → (x <=. t2) = true)
    (points : List P) (hne : points ≠ []) :
    ∃ out, rdpRec (fun a b p => .ok (d a b p)) t1 points = .ok out ∧
      (2 ≤ points.length → ∀ a, points.head? = some a →
        (a :: out).Sublist points ∧ out.getLast? = points.getLast? ∧
        rdpRec (fun a b p => .ok (d a b p)) t2 (a :: out) = rdpRec (fun a b p => .ok (d a b p)) t2 points) := by
  apply rdpRec_induct (fun a b p => .ok (d a b p)) d t1
    (fun points out => 2 ≤ points.length → ∀ a, points.head? = some a →
        (a :: out).Sublist points ∧ out.getLast? = points.getLast? ∧
        rdpRec (fun a b p => .ok (d a b p)) t2 (a :: out) = rdpRec (fun a b p => .ok (d a b p)) t2 points)
    _ _ _ _ points hne (by intros; rfl)
  · intro a h; simp at h
  · intro a b _ c hc
    simp only [List.head?_cons, Option.some.injEq] at hc
    subst hc
    exact ⟨List.Sublist.refl _, rfl, rfl⟩
  · intro points i h2 hi i0 i1 hmax hn _ c hc
    obtain ⟨k, hk, k0, k1, hkm, hkeq⟩ := rdpRec_unfold (fun a b p => .ok (d a b p)) d t2 points (by intros; rfl) h2
    rw [hmax] at hkm
    have hik : i = k := (Prod.mk.inj (Option.some.inj hkm)).2
    subst hik
    rw [if_pos (hle _ hn)] at hkeq
    obtain ⟨s, m1, x, m2, e, he, -, -, -⟩ := split_form points i i0 i1
    subst he
    simp only [List.head?_cons, Option.some.injEq] at hc
    subst hc
    have : (s :: (m1 ++ x :: m2 ++ [e]))[(s :: (m1 ++ x :: m2 ++ [e])).length - 1] = e :=
      last_idx (s :: (m1 ++ x :: m2)) e (by simp)
    rw [this] at hkeq ⊢
    refine ⟨?_, by simp [List.getLast?_cons], ?_⟩
    · exact List.Sublist.cons_cons _ (List.sublist_append_right _ _)
    · rw [hkeq]; exact rdpRec_short _ _ _ _ (by simp) (by simp)
  · intro points l r i h2 hi i0 i1 hmax hn ihl ihr _ c hc
    obtain ⟨j, hj, j0, j1, hjm, hjeq⟩ := rdpRec_unfold (fun a b p => .ok (d a b p)) d t2 points (by intros; rfl) h2
    rw [hmax] at hjm
    have hij : i = j := (Prod.mk.inj (Option.some.inj hjm)).2
    subst hij
    obtain ⟨s, m1, x, m2, e, he, hi2, ht, hdr⟩ := split_form points i i0 i1
    have hl := ihl (by rw [ht]; simp) s (by rw [ht]; rfl)
    have hr := ihr (by rw [hdr]; simp) x (by rw [hdr]; rfl)
    rw [ht] at hl hjeq
    rw [hdr] at hr hjeq
    have hcs : c = s := by rw [he] at hc; simpa using hc.symm
    subst hcs
    have hgi : points[i] = x := by
      subst he hi2; simp
    have hg0 : points[0] = c := by subst he; simp
    have hge : points[points.length - 1] = e := by
      subst he; exact last_idx (c :: (m1 ++ x :: m2)) e (by simp)
    rw [hgi, hg0, hge] at hmax hn hjeq
    obtain ⟨hl1, hl2, hl3⟩ := hl
    obtain ⟨hr1, hr2, hr3⟩ := hr
    obtain ⟨l1, rfl⟩ : ∃ l1, l = l1 ++ [x] := by
      have hl2' : l.getLast? = some x := by rw [hl2]; simp [List.getLast?_cons]
      exact ⟨_, (List.dropLast_append_getLast? x hl2').symm⟩
    obtain ⟨r1, rfl⟩ : ∃ r1, r = r1 ++ [e] := by
      have hr2' : r.getLast? = some e := by rw [hr2]; simp [List.getLast?_cons]
      exact ⟨_, (List.dropLast_append_getLast? e hr2').symm⟩
    rw [List.cons_sublist_cons, List.append_sublist_append_right] at hl1 hr1
    rw [he, hi2, farthest_form] at hmax
    have eout : c :: (l1 ++ [x] ++ (r1 ++ [e])) = c :: (l1 ++ x :: r1 ++ [e]) := by simp
    refine ⟨?_, ?_, ?_⟩
    · rw [he, eout, List.cons_sublist_cons, List.append_sublist_append_right]
      exact List.Sublist.append hl1 (List.Sublist.cons_cons _ hr1)
    · rw [he]; simp [List.getLast?_cons]
    · have hmax' := (farthest_form d c l1 x r1 e).2
        ⟨fun y hy => hmax.1 y (hl1.subset hy), fun y hy => hmax.2 y (hr1.subset hy)⟩
      obtain ⟨k, hk, k0, k1, hkm, hkeq⟩ := rdpRec_unfold (fun a b p => .ok (d a b p)) d t2
        (c :: (l1 ++ x :: r1 ++ [e])) (by intros; rfl) (by simp; omega)
      have e0 : (c :: (l1 ++ x :: r1 ++ [e]))[0] = c := rfl
      have e1 : (c :: (l1 ++ x :: r1 ++ [e]))[(c :: (l1 ++ x :: r1 ++ [e])).length - 1] = e :=
        last_idx (c :: (l1 ++ x :: r1)) e (by simp)
      rw [e0, e1] at hkm hkeq
      rw [hmax'] at hkm
      have hk2 : k = l1.length + 1 := by
        have := Option.some.inj hkm
        exact (Prod.mk.inj this).2.symm
      subst hk2
      have ex : (c :: (l1 ++ x :: r1 ++ [e]))[l1.length + 1] = x := by simp
      have t1 : (c :: (l1 ++ x :: r1 ++ [e])).take (l1.length + 1 + 1) = c :: (l1 ++ [x]) := by
        rw [List.take_succ_cons, List.append_assoc, List.take_append]
        simp
      have t2 : (c :: (l1 ++ x :: r1 ++ [e])).drop (l1.length + 1) = x :: (r1 ++ [e]) := by
        simp
      rw [ex, t1, t2, hl3, hr3] at hkeq
      rw [eout, hkeq, hjeq]

theorem rdpTop_staged (d : P → P → P → α) (t1 t2 : α)
    (hle : ∀ x : α, (x <=. (t1 *. t1)) = true → (x <=. (t2 *. t2)) = true) (points out : List P)
    (h : rdpTop (fun a b p => .ok (d a b p)) t1 points = .ok out) :
    rdpTop (fun a b p => .ok (d a b p)) t2 out = rdpTop (fun a b p => .ok (d a b p)) t2 points := by
  match points with
  | [] => simp only [rdpTop, Except.ok.injEq] at h; subst h; rfl
  | p :: rest =>
    by_cases hl : (p :: rest).length ≤ 2
    · rw [rdpTop, if_pos hl, Except.ok.injEq] at h
      subst h; rfl
    · obtain ⟨o, h1, h2⟩ := rdpRec_staged d (t1 *. t1) (t2 *. t2) hle (p :: rest) (by simp)
      obtain ⟨g1, g2, g3⟩ := h2 (by omega) p rfl
      rw [rdpTop, if_neg hl, h1] at h
      simp only [Except.map, Except.ok.injEq] at h
      subst h
      rw [rdpTop, rdpTop, if_neg hl, ← g3]
      split_ifs with ho
      · obtain ⟨e, rfl⟩ : ∃ e, o = [e] := by
          match o, ho with
          | [], _ =>
            rw [List.getLast?_eq_some_getLast (List.cons_ne_nil p rest)] at g2
            cases g2
          | [e], _ => exact ⟨e, rfl⟩
          | _ :: _ :: _, ho => simp at ho
        rw [rdpRec_short _ _ _ e rfl (by simp)]; rfl
      · rfl

end ordered

section transfer
variable {α β : Type} [Scalar α] [Scalar β] {P : Type}

theorem maxStep_key (k : α → β) (good : α → Prop)
    (hk : ∀ x y, good x → good y → ((pcmp x y).getD .eq = .gt ↔ (pcmp (k x) (k y)).getD .eq = .gt)) (x y : α × Nat)
    (hx : good x.1) (hy : good y.1) :
    maxStep (k x.1, x.2) (k y.1, y.2) = (k (maxStep x y).1, (maxStep x y).2) ∧ good (maxStep x y).1 := by
  unfold maxStep
  by_cases h : (pcmp x.1 y.1).getD .eq = .gt
  · rw [if_pos h, if_pos ((hk _ _ hx hy).1 h)]; exact ⟨rfl, hx⟩
  · rw [if_neg h, if_neg (fun hc => h ((hk _ _ hx hy).2 hc))]; exact ⟨rfl, hy⟩

theorem maxByLast_key (k : α → β) (good : α → Prop)
    (hk : ∀ x y, good x → good y → ((pcmp x y).getD .eq = .gt ↔ (pcmp (k x) (k y)).getD .eq = .gt))
    (l : List (α × Nat)) (hl : ∀ x ∈ l, good x.1) :
    maxByLast (l.map (fun x => (k x.1, x.2))) = (maxByLast l).map (fun x => (k x.1, x.2)) := by
  cases l with
  | nil => rfl
  | cons x xs =>
    simp only [maxByLast, List.map_cons, Option.map_some, Option.some.injEq]
    have hx := hl x (by simp)
    have hxs : ∀ y ∈ xs, good y.1 := fun y hy => hl y (by simp [hy])
    clear hl
    induction xs generalizing x with
    | nil => rfl
    | cons y ys ih =>
      obtain ⟨h1, h2⟩ := maxStep_key k good hk x y hx (hxs y (by simp))
      simp only [List.map_cons, List.foldl_cons, h1]
      exact ih _ h2 (fun z hz => hxs z (by simp [hz]))

/-- the recursion only compares distances: it is the same for numbers that compare in the same way -/
theorem rdpRec_key (k : α → β) (good : α → Prop)
    (hk : ∀ x y, good x → good y → ((pcmp x y).getD .eq = .gt ↔ (pcmp (k x) (k y)).getD .eq = .gt))
    (d : P → P → P → α) (thr : α) (T : β) (ht : ∀ x, good x → (x <=. thr) = (k x <=. T)) (points : List P)
    (hg : ∀ a ∈ points, ∀ b ∈ points, ∀ p ∈ points, good (d a b p)) :
    rdpRec (fun a b p => .ok (d a b p)) thr points = rdpRec (fun a b p => .ok (k (d a b p))) T points := by
  induction hn : points.length using Nat.strong_induction_on generalizing points with
  | _ n ih =>
    subst hn
    by_cases hl : points.length ≤ 2
    · rw [rdpRec, rdpRec, dif_pos hl, dif_pos hl]
    · have h2 : 2 < points.length := by omega
      obtain ⟨i, hi, i0, i1, hm, hr⟩ := rdpRec_unfold (fun a b p => .ok (d a b p)) d thr points (by intros; rfl) h2
      obtain ⟨j, hj, j0, j1, hm', hr'⟩ := rdpRec_unfold (fun a b p => .ok (k (d a b p))) (fun a b p => k (d a b p)) T
        points (by intros; rfl) h2
      have hint : Proofs.Rdp.interior (fun a b p => k (d a b p)) points points[0] points[points.length - 1] =
          (Proofs.Rdp.interior d points points[0] points[points.length - 1]).map (fun x => (k x.1, x.2)) := by
        unfold Proofs.Rdp.interior
        rw [List.map_map]; rfl
      rw [hint, maxByLast_key k good hk _ (by
        intro x hx
        obtain ⟨hi, -, -, hx1⟩ := interior_mem _ _ _ _ _ hx
        rw [hx1]
        exact hg _ (List.getElem_mem _) _ (List.getElem_mem _) _ (List.getElem_mem _)), hm] at hm'
      simp only [Option.map_some, Option.some.injEq, Prod.mk.injEq] at hm'
      obtain ⟨-, rfl⟩ := hm'
      rw [hr, hr', ht _ (hg _ (List.getElem_mem _) _ (List.getElem_mem _) _ (List.getElem_mem _))]
      have m1 : ∀ x ∈ points.take (i + 1), x ∈ points := fun x hx => List.mem_of_mem_take hx
      have m2 : ∀ x ∈ points.drop i, x ∈ points := fun x hx => List.mem_of_mem_drop hx
      rw [ih _ (by rw [List.length_take]; omega) (points.take (i + 1))
        (fun a ha b hb p hp => hg a (m1 a ha) b (m1 b hb) p (m1 p hp)) rfl]
      rw [ih _ (by rw [List.length_drop]; omega) (points.drop i)
        (fun a ha b hb p hp => hg a (m2 a ha) b (m2 b hb) p (m2 p hp)) rfl]

end transfer

section floats
open Flt Fl
variable {f : Fmt} [Libm f]

/-- the position of a float that is not NaN on the number line, the infinities at the first power of two that is not
a float -/
def nkey : Flt f → ℚ
  | .inf true => -pow2 f.emax
  | .inf false => pow2 f.emax
  | a => a.val

theorem nkey_lt {a b : Flt f} (ha : a ≠ .nan) (hb : b ≠ .nan) : Flt.lt a b = decide (nkey a < nkey b) := by
  have lim : ∀ x : Flt f, x.isFin = true → |x.val| < pow2 f.emax := fun x hx => (is_repr (is_self hx)).1
  have hp := pow2_pos f.emax
  have kt : nkey (.inf true : Flt f) = -pow2 f.emax := rfl
  have kf : nkey (.inf false : Flt f) = pow2 f.emax := rfl
  have key : ∀ x : Flt f, x.isFin = true → nkey x = x.val := by
    intro x hx; cases x <;> first | rfl | cases hx
  have up : ∀ x : Flt f, x.isFin = true → nkey x < pow2 f.emax := fun x hx => by
    rw [key x hx]; exact (abs_lt.1 (lim x hx)).2
  have down : ∀ x : Flt f, x.isFin = true → -pow2 f.emax < nkey x := fun x hx => by
    rw [key x hx]; exact (abs_lt.1 (lim x hx)).1
  by_cases fa : a.isFin = true <;> by_cases fb : b.isFin = true
  · rw [key a fa, key b fb]; exact is_lt (is_self fa) (is_self fb)
  · cases b with
    | nan => exact absurd rfl hb
    | zero s => exact absurd rfl fb
    | fin q h => exact absurd rfl fb
    | inf s =>
      cases s with
      | true => rw [kt, decide_eq_false (not_lt.2 (down a fa).le)]; cases a <;> first | rfl | cases fa
      | false => rw [kf, decide_eq_true (up a fa)]; cases a <;> first | rfl | cases fa
  · cases a with
    | nan => exact absurd rfl ha
    | zero s => exact absurd rfl fa
    | fin q h => exact absurd rfl fa
    | inf s =>
      cases s with
      | true => rw [kt, decide_eq_true (down b fb)]; cases b <;> first | rfl | cases fb
      | false => rw [kf, decide_eq_false (not_lt.2 (up b fb).le)]; cases b <;> rfl
  · cases a with
    | nan => exact absurd rfl ha
    | zero s => exact absurd rfl fa
    | fin q h => exact absurd rfl fa
    | inf s =>
      cases b with
      | nan => exact absurd rfl hb
      | zero s => exact absurd rfl fb
      | fin q h => exact absurd rfl fb
      | inf t =>
        cases s <;> cases t <;> symm
        · exact decide_eq_false (lt_irrefl _)
        · exact decide_eq_false (not_lt.2 (show -pow2 f.emax ≤ pow2 f.emax by linarith))
        · exact decide_eq_true (show -pow2 f.emax < pow2 f.emax by linarith)
        · exact decide_eq_false (lt_irrefl _)

theorem nkey_le {a b : Flt f} (ha : a ≠ .nan) (hb : b ≠ .nan) : Scalar.le a b = decide (nkey a ≤ nkey b) := by
  rw [le_ekey ha hb, decide_eq_decide, ← not_lt, ← not_lt (a := nkey b)]
  have h1 := lt_ekey hb ha
  rw [nkey_lt hb ha, decide_eq_decide] at h1
  rw [h1]

theorem nkey_gt (a b : Flt f) (ha : a ≠ .nan) (hb : b ≠ .nan) :
    (pcmp a b).getD .eq = .gt ↔ (pcmp (nkey a) (nkey b)).getD .eq = .gt := by
  have : pcmp a b = pcmp (nkey a) (nkey b) := by
    unfold Scalar.pcmp Scalar.ge
    rw [nkey_le ha hb, nkey_le hb ha]
    simp only [exact_simp]
  rw [this]

theorem le_ne_nan {a b : Flt f} (h : Scalar.le a b = true) : a ≠ .nan ∧ b ≠ .nan := by
  constructor
  · rintro rfl
    have e : Scalar.le (.nan : Flt f) b = false := rfl
    rw [e] at h; cases h
  · rintro rfl
    have e : Scalar.le a (.nan : Flt f) = false := by cases a <;> rfl
    rw [e] at h; cases h

theorem nkey_fin {x : Flt f} (h : x.isFin = true) : nkey x = x.val := by cases x <;> first | rfl | cases h

theorem nkey_ofQ (s : Bool) {q : ℚ} (h : 0 ≤ q) : nkey (ofQ s q : Flt f) = min (roundQ f q) (pow2 f.emax) := by
  by_cases hl : |roundQ f q| < pow2 f.emax
  · have e := is_ofQ (f := f) s hl
    rw [nkey_fin e.1, e.2, min_eq_left (abs_lt.1 hl).2.le]
  · have e : (ofQ s q : Flt f) = .inf false := by
      unfold Flt.ofQ; rw [dif_neg hl, decide_eq_false (not_lt.2 h)]
    rw [e, min_eq_right]
    · rfl
    · rw [abs_of_nonneg (roundQ_nonneg f h)] at hl
      exact not_lt.1 hl

/-- the computed square grows with the absolute value -/
theorem square_le {d1 d2 : Flt f} (h : Scalar.le (Flt.abs d1) (Flt.abs d2) = true) :
    Scalar.mul d1 d1 ≠ .nan ∧ Scalar.mul d2 d2 ≠ .nan ∧ nkey (Scalar.mul d1 d1) ≤ nkey (Scalar.mul d2 d2) := by
  have e : ∀ x : Flt f, Scalar.mul x x = Flt.mul x x := fun _ => rfl
  rw [e, e]
  have hk := h
  rw [nkey_le (le_ne_nan h).1 (le_ne_nan h).2, decide_eq_true_iff] at hk
  have infsq : ∀ s : Bool, Flt.mul (.inf s : Flt f) (.inf s) = .inf false := by intro s; cases s <;> rfl
  have top : ∀ x : Flt f, x.isFin = true → nkey x < pow2 f.emax := fun x hx => by
    rw [nkey_fin hx]; exact (abs_lt.1 (is_repr (is_self hx)).1).2
  by_cases f2 : d2.isFin = true
  · by_cases f1 : d1.isFin = true
    · refine ⟨?_, ?_, ?_⟩
      · rw [mul_ofQ f1 f1]; exact (nonNeg_ofQ (mul_self_nonneg _) _).ne_nan
      · rw [mul_ofQ f2 f2]; exact (nonNeg_ofQ (mul_self_nonneg _) _).ne_nan
      · rw [mul_ofQ f1 f1, mul_ofQ f2 f2, nkey_ofQ _ (mul_self_nonneg _), nkey_ofQ _ (mul_self_nonneg _)]
        apply min_le_min_right
        apply roundQ_mono
        have a1 := is_abs (is_self f1)
        have a2 := is_abs (is_self f2)
        rw [nkey_fin a1.1, nkey_fin a2.1, a1.2, a2.2] at hk
        rw [← abs_mul_abs_self d1.val, ← abs_mul_abs_self d2.val]
        exact mul_le_mul hk hk (abs_nonneg _) (abs_nonneg _)
    · exfalso
      cases d1 with
      | nan => exact (le_ne_nan h).1 rfl
      | zero s => exact f1 rfl
      | fin q hq => exact f1 rfl
      | inf s =>
        have a2 := is_abs (is_self f2)
        have := top _ a2.1
        have e1 : nkey (Flt.abs (.inf s : Flt f)) = pow2 f.emax := by cases s <;> rfl
        rw [e1] at hk
        linarith
  · cases d2 with
    | nan => exact absurd rfl (le_ne_nan h).2
    | zero s => exact absurd rfl f2
    | fin q hq => exact absurd rfl f2
    | inf s =>
      rw [infsq]
      have e2 : nkey (.inf false : Flt f) = pow2 f.emax := rfl
      have ni : (.inf false : Flt f) ≠ .nan := fun hc => (nomatch hc)
      refine ⟨?_, ni, ?_⟩
      · by_cases f1 : d1.isFin = true
        · rw [mul_ofQ f1 f1]; exact (nonNeg_ofQ (mul_self_nonneg _) _).ne_nan
        · cases d1 with
          | nan => exact absurd rfl (le_ne_nan h).1
          | zero s => exact absurd rfl f1
          | fin q hq => exact absurd rfl f1
          | inf s => rw [infsq]; exact ni
      · rw [e2]
        by_cases f1 : d1.isFin = true
        · rw [mul_ofQ f1 f1, nkey_ofQ _ (mul_self_nonneg _)]; exact min_le_right _ _
        · cases d1 with
          | nan => exact absurd rfl (le_ne_nan h).1
          | zero s => exact absurd rfl f1
          | fin q hq => exact absurd rfl f1
          | inf s => rw [infsq]; exact le_refl _

theorem below_square {d1 d2 : Flt f} (h : Scalar.le (Flt.abs d1) (Flt.abs d2) = true) (x : Flt f)
    (hx : Scalar.le x (Scalar.mul d1 d1) = true) : Scalar.le x (Scalar.mul d2 d2) = true := by
  obtain ⟨h1, h2, h3⟩ := square_le h
  have hn := (le_ne_nan hx).1
  rw [nkey_le hn h1, decide_eq_true_iff] at hx
  rw [nkey_le hn h2, decide_eq_true_iff]
  exact hx.trans h3

/-- stages on floats, if no distance is NaN -/
theorem rdpTop_staged_float {P : Type} (d : P → P → P → Flt f) (d1 d2 : Flt f)
    (h12 : Scalar.le (Flt.abs d1) (Flt.abs d2) = true) (points out : List P)
    (hn : ∀ a ∈ points, ∀ b ∈ points, ∀ p ∈ points, d a b p ≠ .nan)
    (h : rdpTop (fun a b p => .ok (d a b p)) d1 points = .ok out) :
    rdpTop (fun a b p => .ok (d a b p)) d2 out = rdpTop (fun a b p => .ok (d a b p)) d2 points := by
  obtain ⟨n1, n2, h3⟩ := square_le h12
  have tr1 := fun l => rdpRec_key (P := P) nkey (fun x : Flt f => x ≠ .nan) nkey_gt d (Scalar.mul d1 d1)
    (nkey (Scalar.mul d1 d1)) (fun x hx => by rw [nkey_le hx n1]; simp only [exact_simp]) l
  have tr2 := fun l => rdpRec_key (P := P) nkey (fun x : Flt f => x ≠ .nan) nkey_gt d (Scalar.mul d2 d2)
    (nkey (Scalar.mul d2 d2)) (fun x hx => by rw [nkey_le hx n2]; simp only [exact_simp]) l
  match points with
  | [] => simp only [rdpTop, Except.ok.injEq] at h; subst h; rfl
  | p :: rest =>
    by_cases hl : (p :: rest).length ≤ 2
    · rw [rdpTop, if_pos hl, Except.ok.injEq] at h
      subst h; rfl
    · obtain ⟨o, k1, k2⟩ := rdpRec_staged (fun a b p => nkey (d a b p)) (nkey (Scalar.mul d1 d1))
        (nkey (Scalar.mul d2 d2)) (fun x hx => by simp only [exact_simp] at hx ⊢; exact hx.trans h3) (p :: rest) (by simp)
      obtain ⟨g1, g2, g3⟩ := k2 (by omega) p rfl
      rw [← tr1 _ hn] at k1
      rw [← tr2 _ hn, ← tr2 _ (fun a ha b hb c hc => hn a (g1.subset ha) b (g1.subset hb) c (g1.subset hc))] at g3
      rw [rdpTop, if_neg hl, k1] at h
      simp only [Except.map, Except.ok.injEq] at h
      subst h
      rw [rdpTop, rdpTop, if_neg hl, ← g3]
      split_ifs with ho
      · obtain ⟨e, rfl⟩ : ∃ e, o = [e] := by
          match o, ho with
          | [], _ =>
            rw [List.getLast?_eq_some_getLast (List.cons_ne_nil p rest)] at g2
            cases g2
          | [e], _ => exact ⟨e, rfl⟩
          | _ :: _ :: _, ho => simp at ho
        rw [rdpRec_short _ _ _ e rfl (by simp)]; rfl
      · rfl

end floats

section vw
variable {α : Type} [Scalar α] {P : Type}

/-- which nodes are linked -/
def VwLinked (links : VwLinks α) : List Nat := links.map (·.1)

theorem linkGet_mem {links : VwLinks α} {i : Nat} {v : Nat × Nat × α} (h : linkGet links i = some v) :
    i ∈ VwLinked links := by
  by_contra hc
  rw [Verif.Vw.linkGet_none links i hc] at h
  cases h

theorem vwLink_keys {heap : VwHeap α} {links : VwLinks α} {i j k : Nat} {a : α} {s : VwHeap α × VwLinks α}
    (h : vwLink heap links i j k a = .ok s) (hn : (VwLinked links).Nodup) (hj : j ∈ VwLinked links) :
    (VwLinked s.2).Nodup ∧ ∀ x, x ∈ VwLinked s.2 ↔ x ∈ VwLinked links := by
  unfold vwLink at h
  cases e : heapPush heap a j with
  | error x => rw [e] at h; cases h
  | ok hp =>
    rw [e] at h
    have h' : (Except.ok (hp, linkInsert links j (i, k, a)) : Except Err _) = .ok s := h
    cases h'
    refine ⟨Verif.Vw.nodup_insert links j _ hn, fun x => ?_⟩
    show x ∈ (linkInsert links j (i, k, a)).map (·.1) ↔ _
    rw [Verif.Vw.mem_keys_insert]
    unfold VwLinked at hj ⊢
    constructor
    · rintro (rfl | h) <;> assumption
    · exact Or.inr

theorem vwFixNext_keys {area : P → P → P → α} {line : List P} {s s' : VwHeap α × VwLinks α} {a b c : Nat}
    (h : vwFixNext area line s a b c = .ok s') (hn : (VwLinked s.2).Nodup) (hj : b ∈ VwLinked s.2) :
    (VwLinked s'.2).Nodup ∧ ∀ x, x ∈ VwLinked s'.2 ↔ x ∈ VwLinked s.2 := by
  unfold vwFixNext at h
  cases e1 : idx line a with
  | error x => rw [e1] at h; cases h
  | ok pa =>
    cases e2 : idx line (b % line.length) with
    | error x => rw [e1, e2] at h; cases h
    | ok pb =>
      cases e3 : idx line (c % line.length) with
      | error x => rw [e1, e2, e3] at h; cases h
      | ok pc =>
        rw [e1, e2, e3] at h
        exact vwLink_keys h hn hj

theorem vwFixPrev_keys {area : P → P → P → α} {line : List P} {s s' : VwHeap α × VwLinks α} {a b c : Nat}
    (h : vwFixPrev area line s a b c = .ok s') (hn : (VwLinked s.2).Nodup) (hj : b ∈ VwLinked s.2) :
    (VwLinked s'.2).Nodup ∧ ∀ x, x ∈ VwLinked s'.2 ↔ x ∈ VwLinked s.2 := by
  unfold vwFixPrev at h
  cases e1 : idx line a with
  | error x => rw [e1] at h; cases h
  | ok pa =>
    cases e2 : idx line b with
    | error x => rw [e1, e2] at h; cases h
    | ok pb =>
      cases e3 : idx line (c % line.length) with
      | error x => rw [e1, e2, e3] at h; cases h
      | ok pc =>
        rw [e1, e2, e3] at h
        exact vwLink_keys h hn hj

theorem vwDelete_keys {area : P → P → P → α} {line : List P} {s s' : VwHeap α × VwLinks α} {prev next : Nat}
    (h : vwDelete area line s prev next = .ok s') (hn : (VwLinked s.2).Nodup) :
    (VwLinked s'.2).Nodup ∧ ∀ x, x ∈ VwLinked s'.2 ↔ x ∈ VwLinked s.2 := by
  unfold vwDelete at h
  cases ep : linkGet s.2 prev with
  | none =>
    cases en : linkGet s.2 next with
    | none =>
      simp only [ep, en, Option.map_none] at h
      cases h; exact ⟨hn, fun _ => Iff.rfl⟩
    | some v =>
      simp only [ep, en, Option.map_none, Option.map_some] at h
      exact vwFixNext_keys h hn (linkGet_mem en)
  | some u =>
    cases en : linkGet s.2 next with
    | none =>
      simp only [ep, en, Option.map_none, Option.map_some] at h
      exact vwFixPrev_keys h hn (linkGet_mem ep)
    | some v =>
      simp only [ep, en, Option.map_some] at h
      cases e : vwFixNext area line s prev next v.2.1 with
      | error x => rw [e] at h; cases h
      | ok t =>
        rw [e] at h
        obtain ⟨h1, h2⟩ := vwFixNext_keys e hn (linkGet_mem en)
        obtain ⟨h3, h4⟩ := vwFixPrev_keys h h1 ((h2 _).2 (linkGet_mem ep))
        exact ⟨h3, fun x => (h4 x).trans (h2 x)⟩

/-- the loop only unlinks -/
theorem vwLoop_keys {area : P → P → P → α} {line : List P} {pick : Nat → VwHeap α → Nat} {g : Bool} {k : Nat} :
    ∀ (fuel : Nat) (s : VwHeap α × VwLinks α) (m : Nat) (links : VwLinks α),
      vwLoop area line pick g k fuel s m = .ok links → (VwLinked s.2).Nodup →
      (VwLinked links).Nodup ∧ ∀ x ∈ VwLinked links, x ∈ VwLinked s.2 := by
  intro fuel
  induction fuel with
  | zero => intro s m links h; cases h
  | succ fuel ih =>
    intro s m links h hn
    rw [vwLoop] at h
    split at h
    · cases h; exact ⟨hn, fun _ h => h⟩
    · dsimp only at h
      cases e : s.1[pick fuel s.1]? with
      | none => rw [e] at h; cases h
      | some sm =>
        rw [e] at h
        dsimp only at h
        cases el : linkGet s.2 sm.2 with
        | none => rw [el] at h; exact ih (s.1.eraseIdx (pick fuel s.1), s.2) m links h hn
        | some l =>
          rw [el] at h
          dsimp only at h
          split at h
          · exact ih (s.1.eraseIdx (pick fuel s.1), s.2) m links h hn
          · cases ed : vwDelete area line (s.1.eraseIdx (pick fuel s.1), linkRemove s.2 sm.2) l.1 l.2.1 with
            | error x => rw [ed] at h; cases h
            | ok t =>
              rw [ed] at h
              obtain ⟨h1, h2⟩ := vwDelete_keys ed (Verif.Vw.nodup_remove s.2 sm.2 hn)
              obtain ⟨h3, h4⟩ := ih t (m + 1) links h h1
              refine ⟨h3, fun x hx => ?_⟩
              have := (h2 x).1 (h4 x hx)
              have := (Verif.Vw.mem_keys_remove s.2 sm.2 x).1 this
              exact this.1

/-- a loop that may delete more keeps fewer -/
theorem vwLoop_nested {area : P → P → P → α} {line : List P} {pick : Nat → VwHeap α → Nat} {g : Bool} {k1 k2 : Nat}
    (hk : k1 ≤ k2) : ∀ (fuel : Nat) (s : VwHeap α × VwLinks α) (m : Nat) (l1 l2 : VwLinks α),
      vwLoop area line pick g k1 fuel s m = .ok l1 → vwLoop area line pick g k2 fuel s m = .ok l2 →
      (VwLinked s.2).Nodup → ∀ x ∈ VwLinked l2, x ∈ VwLinked l1 := by
  intro fuel
  induction fuel with
  | zero => intro s m l1 l2 h; cases h
  | succ fuel ih =>
    intro s m l1 l2 h1 h2 hn
    have hall := (vwLoop_keys (fuel + 1) s m l2 h2 hn).2
    rw [vwLoop] at h1 h2
    by_cases c1 : (s.1.isEmpty || (g && s.2.length == 2) || decide (k1 ≤ m)) = true
    · rw [if_pos c1] at h1
      cases h1
      exact hall
    · have c2 : ¬ (s.1.isEmpty || (g && s.2.length == 2) || decide (k2 ≤ m)) = true := by
        simp only [Bool.or_eq_true, decide_eq_true_eq] at c1 ⊢
        rintro (h | h)
        · exact c1 (.inl h)
        · exact c1 (.inr (hk.trans h))
      rw [if_neg c1] at h1
      rw [if_neg c2] at h2
      dsimp only at h1 h2
      cases e : s.1[pick fuel s.1]? with
      | none => rw [e] at h1; cases h1
      | some sm =>
        rw [e] at h1 h2
        dsimp only at h1 h2
        cases el : linkGet s.2 sm.2 with
        | none => rw [el] at h1 h2; exact ih _ _ _ _ h1 h2 hn
        | some l =>
          rw [el] at h1 h2
          dsimp only at h1 h2
          by_cases hs : (!(sm.1 ==. l.2.2)) = true
          · rw [if_pos hs] at h1 h2; exact ih _ _ _ _ h1 h2 hn
          · rw [if_neg hs] at h1 h2
            cases ed : vwDelete area line (s.1.eraseIdx (pick fuel s.1), linkRemove s.2 sm.2) l.1 l.2.1 with
            | error x => rw [ed] at h1; cases h1
            | ok t =>
              rw [ed] at h1 h2
              exact ih t (m + 1) l1 l2 h1 h2 (vwDelete_keys ed (Verif.Vw.nodup_remove s.2 sm.2 hn)).1

omit [Scalar α] in
theorem vwKeys_nested {l1 l2 : VwLinks α} (n2 : (VwLinked l2).Nodup) (h : ∀ x ∈ VwLinked l2, x ∈ VwLinked l1) :
    (vwKeys l2).Sublist (vwKeys l1) := by
  unfold vwKeys
  apply List.sublist_of_subperm_of_pairwise (r := (· ≤ ·))
  · have : (VwLinked l2).Subperm (VwLinked l1) := List.Nodup.subperm n2 (fun x hx => h x hx)
    exact ((List.perm_insertionSort _ _).subperm_right.2 ((List.perm_insertionSort _ _).subperm_left.2 this))
  · exact List.pairwise_insertionSort _ _
  · exact List.pairwise_insertionSort _ _

/-- linking a new node keeps the nodes different -/
theorem vwLink_nodup {heap : VwHeap α} {links : VwLinks α} {i j k : Nat} {a : α} {s : VwHeap α × VwLinks α}
    (h : vwLink heap links i j k a = .ok s) (hn : (VwLinked links).Nodup) : (VwLinked s.2).Nodup := by
  unfold vwLink at h
  cases e : heapPush heap a j with
  | error x => rw [e] at h; cases h
  | ok hp =>
    rw [e] at h
    have h' : (Except.ok (hp, linkInsert links j (i, k, a)) : Except Err _) = .ok s := h
    cases h'
    exact Verif.Vw.nodup_insert links j _ hn

theorem vwInit_nodup {area : P → P → P → α} {line : List P} {s : VwHeap α × VwLinks α}
    (h : vwInit area line = .ok s) : (VwLinked s.2).Nodup := by
  have gen : ∀ (l : List Nat) (s0 s : VwHeap α × VwLinks α), (VwLinked s0.2).Nodup →
      l.foldlM (vwInitStep area line) s0 = .ok s → (VwLinked s.2).Nodup := by
    intro l
    induction l with
    | nil => intro s0 s h0 h; cases h; exact h0
    | cons t l ih =>
      intro s0 s h0 h
      rw [List.foldlM_cons] at h
      cases e : vwInitStep area line s0 t with
      | error x => rw [e] at h; cases h
      | ok s1 =>
        rw [e] at h
        refine ih s1 s ?_ h
        unfold vwInitStep at e
        cases e1 : idx line t with
        | error x => rw [e1] at e; cases e
        | ok pa =>
          cases e2 : idx line (t + 1) with
          | error x => rw [e1, e2] at e; cases e
          | ok pb =>
            cases e3 : idx line (t + 2) with
            | error x => rw [e1, e2, e3] at e; cases e
            | ok pc =>
              rw [e1, e2, e3] at e
              exact vwLink_nodup e h0
  exact gen _ ([], []) _ List.nodup_nil h

theorem vwConnect_nodup {area : P → P → P → α} {line : List P} {s s' : VwHeap α × VwLinks α}
    (h : vwConnect area line s = .ok s') (hn : (VwLinked s.2).Nodup) : (VwLinked s'.2).Nodup := by
  unfold vwConnect at h
  cases e1 : idx line (line.length - 2) with
  | error x => rw [e1] at h; cases h
  | ok pa =>
    cases e2 : idx line (line.length - 1) with
    | error x => rw [e1, e2] at h; cases h
    | ok pb =>
      cases e3 : idx line 0 with
      | error x => rw [e1, e2, e3] at h; cases h
      | ok pc =>
        rw [e1, e2, e3] at h
        exact vwLink_nodup h hn

theorem mapM_sublist {A B : Type} (f : A → Except Err B) {l1 l2 : List A} (h : l2.Sublist l1) :
    ∀ {o1 o2 : List B}, l1.mapM f = .ok o1 → l2.mapM f = .ok o2 → o2.Sublist o1 := by
  have step : ∀ (a : A) (l : List A) (o : List B), (a :: l).mapM f = .ok o →
      ∃ b r, f a = .ok b ∧ l.mapM f = .ok r ∧ o = b :: r := by
    intro a l o h
    rw [List.mapM_cons] at h
    cases e : f a with
    | error x => rw [e] at h; cases h
    | ok b =>
      rw [e] at h
      cases e' : l.mapM f with
      | error x => rw [e'] at h; cases h
      | ok r => rw [e'] at h; cases h; exact ⟨b, r, rfl, rfl, rfl⟩
  induction h with
  | slnil => intro o1 o2 h1 h2; cases h1; cases h2; exact .slnil
  | cons a h ih =>
    intro o1 o2 h1 h2
    obtain ⟨b, r, -, hr, rfl⟩ := step _ _ _ h1
    exact (ih hr h2).cons _
  | cons_cons a h ih =>
    intro o1 o2 h1 h2
    obtain ⟨b, r, e1, hr, rfl⟩ := step _ _ _ h1
    obtain ⟨b', r', e2, hr', rfl⟩ := step _ _ _ h2
    rw [e1] at e2; cases e2
    exact (ih hr hr').cons_cons _

/-- C90, `simplify_vw`: deleting more points keeps a subsequence of what is kept when fewer are deleted — for any
arithmetic (NaN included) and any behaviour of the priority queue. -/
theorem C90_vw2_nested (pick : Nat → VwHeap α → Nat) (fuel : Nat) (line o1 o2 : List (V2 α)) (k1 k2 : Nat)
    (hk : k1 ≤ k2) (h1 : simplifyVw2 pick fuel line k1 = .ok o1) (h2 : simplifyVw2 pick fuel line k2 = .ok o2) :
    o2.Sublist o1 := by
  unfold simplifyVw2 at h1 h2
  by_cases hl : line.length ≤ 2
  · rw [if_pos hl] at h1 h2; cases h1; cases h2; exact List.Sublist.refl _
  · rw [if_neg hl] at h1 h2
    cases ei : vwInit triangleArea2 line with
    | error x => rw [ei] at h1; cases h1
    | ok s =>
      rw [ei] at h1 h2
      have hn := vwInit_nodup ei
      by_cases hc : isConnected2 line = true
      · simp only [hc, if_true, Bool.not_true] at h1 h2
        change (Except.bind (vwConnect triangleArea2 line s) _) = _ at h1
        change (Except.bind (vwConnect triangleArea2 line s) _) = _ at h2
        cases ec : vwConnect triangleArea2 line s with
        | error x => rw [ec] at h1; cases h1
        | ok t =>
          have hn := vwConnect_nodup ec hn
          rw [ec] at h1 h2
          change (Except.bind (vwLoop triangleArea2 line pick true k1 fuel t 0) _) = _ at h1
          change (Except.bind (vwLoop triangleArea2 line pick true k2 fuel t 0) _) = _ at h2
          cases e1 : vwLoop triangleArea2 line pick true k1 fuel t 0 with
          | error x => rw [e1] at h1; cases h1
          | ok l1 =>
            cases e2 : vwLoop triangleArea2 line pick true k2 fuel t 0 with
            | error x => rw [e2] at h2; cases h2
            | ok l2 =>
              rw [e1] at h1
              rw [e2] at h2
              have hs := vwKeys_nested (vwLoop_keys _ _ _ _ e2 hn).1 (vwLoop_nested hk _ _ _ _ _ e1 e2 hn)
              exact mapM_sublist (idx line) (hs.cons_cons 0) h1 h2
      · simp only [hc, if_true, Bool.not_false] at h1 h2
        change (Except.bind (vwLoop triangleArea2 line pick true k1 fuel s 0) _) = _ at h1
        change (Except.bind (vwLoop triangleArea2 line pick true k2 fuel s 0) _) = _ at h2
        cases e1 : vwLoop triangleArea2 line pick true k1 fuel s 0 with
        | error x => rw [e1] at h1; cases h1
        | ok l1 =>
          cases e2 : vwLoop triangleArea2 line pick true k2 fuel s 0 with
          | error x => rw [e2] at h2; cases h2
          | ok l2 =>
            rw [e1] at h1
            rw [e2] at h2
            have hs := vwKeys_nested (vwLoop_keys _ _ _ _ e2 hn).1 (vwLoop_nested hk _ _ _ _ _ e1 e2 hn)
            exact mapM_sublist (idx line) ((hs.append (List.Sublist.refl _)).cons_cons 0) h1 h2

/-- C90, `simplify_vw` in 3D. -/
theorem C90_vw3_nested (pick : Nat → VwHeap α → Nat) (fuel : Nat) (line o1 o2 : List (V3 α)) (k1 k2 : Nat)
    (hk : k1 ≤ k2) (h1 : simplifyVw3 pick fuel line k1 = .ok o1) (h2 : simplifyVw3 pick fuel line k2 = .ok o2) :
    o2.Sublist o1 := by
  unfold simplifyVw3 at h1 h2
  by_cases hl : line.length ≤ 2
  · rw [if_pos hl] at h1 h2; cases h1; cases h2; exact List.Sublist.refl _
  · rw [if_neg hl] at h1 h2
    cases ei : vwInit triangleArea3 line with
    | error x => rw [ei] at h1; cases h1
    | ok s =>
      rw [ei] at h1 h2
      have hn := vwInit_nodup ei
      change (Except.bind (vwLoop triangleArea3 line pick false k1 fuel s 0) _) = _ at h1
      change (Except.bind (vwLoop triangleArea3 line pick false k2 fuel s 0) _) = _ at h2
      cases e1 : vwLoop triangleArea3 line pick false k1 fuel s 0 with
      | error x => rw [e1] at h1; cases h1
      | ok l1 =>
        cases e2 : vwLoop triangleArea3 line pick false k2 fuel s 0 with
        | error x => rw [e2] at h2; cases h2
        | ok l2 =>
          rw [e1] at h1
          rw [e2] at h2
          have hs := vwKeys_nested (vwLoop_keys _ _ _ _ e2 hn).1 (vwLoop_nested hk _ _ _ _ _ e1 e2 hn)
          exact mapM_sublist (idx line) (hs.cons_cons 0) h1 h2

end vw

/-! ## The entry points -/

/-- `rdpRec` on indices is `rdpRec` on the points they designate -/
theorem rdpRec_indexed {α : Type} [Scalar α] {P : Type} (dist : P → P → P → α) (vertices : List P) (v0 : P) (t : α)
    (indices : List Nat) (hv : ∀ i ∈ indices, i < vertices.length) :
    rdpRec (indexedDist dist vertices) t indices =
      rdpRec (fun i j k => .ok (dist (vertices.getD i v0) (vertices.getD j v0) (vertices.getD k v0))) t indices := by
  have g : ∀ i ∈ indices, idx vertices i = .ok (vertices.getD i v0) := by
    intro i hi
    unfold idx
    rw [List.getD_eq_getElem?_getD, List.getElem?_eq_getElem (hv i hi)]; rfl
  have h := rdpRec_map (P := Nat) (Q := Nat) id (indexedDist dist vertices)
    (fun i j k => .ok (dist (vertices.getD i v0) (vertices.getD j v0) (vertices.getD k v0))) t indices (by
      intro a ha b hb c hc
      simp only [indexedDist, id, g a ha, g b hb, g c hc]; rfl)
  rw [List.map_id] at h
  rw [h]
  cases rdpRec (fun i j k => Except.ok (dist (vertices.getD i v0) (vertices.getD j v0) (vertices.getD k v0))) t indices with
  | error e => rfl
  | ok l => simp [Except.map]

theorem indexed_nested {α : Type} [Scalar α] {P : Type} (dist : P → P → P → α) (vertices : List P) (indices : List Nat)
    (d1 d2 : α) (hle : ∀ x : α, (x <=. (d1 *. d1)) = true → (x <=. (d2 *. d2)) = true)
    (hv : ∀ i ∈ indices, i < vertices.length) (o1 o2 : List Nat)
    (h1 : indexedRdpTop dist vertices indices d1 = .ok o1) (h2 : indexedRdpTop dist vertices indices d2 = .ok o2) :
    o2.Sublist o1 := by
  unfold indexedRdpTop at h1 h2
  by_cases hl : vertices.length ≤ 2
  · rw [if_pos hl] at h1 h2; cases h1; cases h2; exact List.Sublist.refl _
  · rw [if_neg hl] at h1 h2
    match indices with
    | [] => cases h1
    | i :: rest =>
      match vertices with
      | [] => simp at hl
      | v0 :: vs =>
        dsimp only at h1 h2
        rw [rdpRec_indexed dist (v0 :: vs) v0 _ _ hv] at h1 h2
        match e1 : rdpRec (fun i j k => Except.ok (dist ((v0 :: vs).getD i v0) ((v0 :: vs).getD j v0) ((v0 :: vs).getD k v0)))
            (d1 *. d1) (i :: rest),
          e2 : rdpRec (fun i j k => Except.ok (dist ((v0 :: vs).getD i v0) ((v0 :: vs).getD j v0) ((v0 :: vs).getD k v0)))
            (d2 *. d2) (i :: rest) with
        | .error x, _ => rw [e1] at h1; cases h1
        | .ok r1, .error x => rw [e2] at h2; cases h2
        | .ok r1, .ok r2 =>
          rw [e1] at h1
          rw [e2] at h2
          simp only [Except.map, Except.ok.injEq] at h1 h2
          subst h1 h2
          exact List.Sublist.cons_cons _ (rdpRec_nested _ _ _ _ (fun _ _ _ _ _ _ h => hle _ h) _ _ e1 e2)

section exact
variable {K : Type} [Scalar K] [Field K] [LinearOrder K] [ExactScalar K]

theorem below_exact {d1 d2 : K} (h : |d1| ≤ |d2|) (x : K) (hx : (x <=. (d1 *. d1)) = true) :
    (x <=. (d2 *. d2)) = true := by
  have := ExactScalar.toIsStrictOrderedRing (K := K)
  simp only [exact_simp] at hx ⊢
  have := mul_le_mul h h (abs_nonneg _) (abs_nonneg _)
  rw [abs_mul_abs_self, abs_mul_abs_self] at this
  exact hx.trans this

/-- C90, 2D: with a larger tolerance `simplify_rdp` keeps a subsequence of what it keeps with a smaller one, and it
does not matter whether the line was simplified with the smaller tolerance before.  (The sign of the tolerance is
ignored, because it is squared.) -/
theorem C90_rdp2_stages (points o1 o2 : List (V2 K)) (d1 d2 : K) (h : |d1| ≤ |d2|)
    (h1 : simplifyRdp2 points d1 = .ok o1) (h2 : simplifyRdp2 points d2 = .ok o2) :
    o2.Sublist o1 ∧ simplifyRdp2 o1 d2 = .ok o2 :=
  ⟨rdpTop_nested _ d1 d2 points (below_exact h) o1 o2 h1 h2,
    (rdpTop_staged _ d1 d2 (below_exact h) points o1 h1).trans h2⟩

/-- C90, 3D. -/
theorem C90_rdp3_stages (points o1 o2 : List (V3 K)) (d1 d2 : K) (h : |d1| ≤ |d2|)
    (h1 : simplifyRdp3 points d1 = .ok o1) (h2 : simplifyRdp3 points d2 = .ok o2) :
    o2.Sublist o1 ∧ simplifyRdp3 o1 d2 = .ok o2 :=
  ⟨rdpTop_nested _ d1 d2 points (below_exact h) o1 o2 h1 h2,
    (rdpTop_staged _ d1 d2 (below_exact h) points o1 h1).trans h2⟩

/-- C90, the indexed versions. -/
theorem C90_indexed_nested (d1 d2 : K) (h : |d1| ≤ |d2|) (indices o1 o2 : List Nat) :
    (∀ vertices : List (V2 K), (∀ i ∈ indices, i < vertices.length) →
      indexedSimplifyRdp2 vertices indices d1 = .ok o1 → indexedSimplifyRdp2 vertices indices d2 = .ok o2 →
      o2.Sublist o1) ∧
    (∀ vertices : List (V3 K), (∀ i ∈ indices, i < vertices.length) →
      indexedSimplifyRdp3 vertices indices d1 = .ok o1 → indexedSimplifyRdp3 vertices indices d2 = .ok o2 →
      o2.Sublist o1) :=
  ⟨fun v hv h1 h2 => indexed_nested _ v indices d1 d2 (below_exact h) hv o1 o2 h1 h2,
    fun v hv h1 h2 => indexed_nested _ v indices d1 d2 (below_exact h) hv o1 o2 h1 h2⟩

end exact

section entry
open Flt
variable {f : Fmt} [Libm f]

/-- C90 in floating point: the results are nested for all coordinates, NaN and infinities included. -/
theorem C90_rdp_nested_on_floats (d1 d2 : Flt f) (h : Scalar.le (Flt.abs d1) (Flt.abs d2) = true) :
    (∀ points o1 o2 : List (V2 (Flt f)), simplifyRdp2 points d1 = .ok o1 → simplifyRdp2 points d2 = .ok o2 →
      o2.Sublist o1) ∧
    (∀ points o1 o2 : List (V3 (Flt f)), simplifyRdp3 points d1 = .ok o1 → simplifyRdp3 points d2 = .ok o2 →
      o2.Sublist o1) :=
  ⟨fun p o1 o2 => rdpTop_nested _ d1 d2 p (below_square h) o1 o2,
    fun p o1 o2 => rdpTop_nested _ d1 d2 p (below_square h) o1 o2⟩

/-- C90 in floating point: stages, if no computed distance is NaN (so for every line without overflow). -/
theorem C90_rdp2_stages_on_floats (d1 d2 : Flt f) (h : Scalar.le (Flt.abs d1) (Flt.abs d2) = true)
    (points o1 : List (V2 (Flt f)))
    (hn : ∀ a ∈ points, ∀ b ∈ points, ∀ p ∈ points, distToLineSqSafe2 a b p ≠ .nan)
    (h1 : simplifyRdp2 points d1 = .ok o1) : simplifyRdp2 o1 d2 = simplifyRdp2 points d2 :=
  rdpTop_staged_float _ d1 d2 h points o1 hn h1

/-- C90 in floating point, 3D. -/
theorem C90_rdp3_stages_on_floats (d1 d2 : Flt f) (h : Scalar.le (Flt.abs d1) (Flt.abs d2) = true)
    (points o1 : List (V3 (Flt f)))
    (hn : ∀ a ∈ points, ∀ b ∈ points, ∀ p ∈ points, distToLineSqSafe3 a b p ≠ .nan)
    (h1 : simplifyRdp3 points d1 = .ok o1) : simplifyRdp3 o1 d2 = simplifyRdp3 points d2 :=
  rdpTop_staged_float _ d1 d2 h points o1 hn h1

/-- C90: a NaN tolerance removes nothing. -/
theorem C90_nan_tolerance :
    (∀ points : List (V2 (Flt f)), simplifyRdp2 points .nan = .ok points) ∧
    (∀ points : List (V3 (Flt f)), simplifyRdp3 points .nan = .ok points) := by
  have h : ∀ x : Flt f, (x <=. ((.nan : Flt f) *. .nan)) = false := by
    intro x
    have e : ((.nan : Flt f) *. .nan) = .nan := rfl
    rw [e]; cases x <;> rfl
  exact ⟨fun p => rdpTop_all _ _ p h, fun p => rdpTop_all _ _ p h⟩

/-- C90: a point with a NaN coordinate hides the points before it: the second point is five units off, the tolerance
is two, and it is dropped. -/
theorem C90_nan_point_hides_others : let _ : Libm b64 := noAtan b64
    simplifyRdp2 ([ipt b64 0 0, ipt b64 3 5, ⟨.nan, .zero false⟩, ipt b64 7 1, ipt b64 10 0] : List (V2 F64))
      (Flt.ofQ false 2) = .ok [ipt b64 0 0, ipt b64 10 0] ∧
    simplifyRdp2 ([ipt b64 0 0, ipt b64 3 5, ipt b64 7 1, ipt b64 10 0] : List (V2 F64))
      (Flt.ofQ false 2) = .ok [ipt b64 0 0, ipt b64 3 5, ipt b64 10 0] := by
  decide +kernel

end entry

/-! ## Examples -/

/-- the hypotheses are met, the results differ, and the smaller one is a subsequence of the larger one -/
def stageLine : List (V2 ℚ) := [⟨0, 0⟩, ⟨1, 1⟩, ⟨2, -3⟩, ⟨5, 9⟩, ⟨8, 8⟩, ⟨9, 0⟩]

example : simplifyRdp2 stageLine 2 = .ok [⟨0, 0⟩, ⟨2, -3⟩, ⟨5, 9⟩, ⟨8, 8⟩, ⟨9, 0⟩] ∧
    simplifyRdp2 stageLine (-3) = .ok [⟨0, 0⟩, ⟨2, -3⟩, ⟨5, 9⟩, ⟨9, 0⟩] ∧ |(2 : ℚ)| ≤ |-3| ∧
    indexedSimplifyRdp2 stageLine [0, 1, 2, 3, 4, 5] 2 = .ok [0, 2, 3, 4, 5] ∧
    indexedSimplifyRdp2 stageLine [0, 1, 2, 3, 4, 5] 3 = .ok [0, 2, 3, 5] := by
  decide +kernel

example : simplifyVw2 (fun _ heap => leastPos heap) 100 stageLine 1 = .ok [⟨0, 0⟩, ⟨2, -3⟩, ⟨5, 9⟩, ⟨8, 8⟩, ⟨9, 0⟩] ∧
    simplifyVw2 (fun _ heap => leastPos heap) 100 stageLine 2 = .ok [⟨0, 0⟩, ⟨2, -3⟩, ⟨5, 9⟩, ⟨9, 0⟩] := by
  decide +kernel

/-- on a grid no distance is NaN -/
example [Libm b64] : ∀ a ∈ rdpLine64, ∀ b ∈ rdpLine64, ∀ p ∈ rdpLine64, distToLineSqSafe2 a b p ≠ .nan := by
  intro a ha b hb p hp h
  obtain ⟨v, h1, -⟩ := Proofs.FloatSimplify.dist2_rel squareGrid64 (by norm_num) (rdpLine64_grid a ha)
    (rdpLine64_grid b hb) (rdpLine64_grid p hp)
  rw [h] at h1
  exact absurd h1.1 (by decide)

example : let _ : Libm b64 := noAtan b64
    Scalar.le (Flt.abs (Flt.ofQ false 1 : F64)) (Flt.abs (Flt.ofQ false (-3))) = true ∧
    simplifyRdp2 rdpLine64 (Flt.ofQ false 1) = .ok [ipt b64 0 3, ipt b64 4 1, ipt b64 0 0] ∧
    simplifyRdp2 rdpLine64 (Flt.ofQ false (-5)) = .ok [ipt b64 0 3, ipt b64 0 0] := by
  decide +kernel

end Verif.Props
