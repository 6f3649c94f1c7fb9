import Verif.Proofs.Rdp
import Verif.Props.Dist
import Verif.Spec.Geom
import Verif.Spec.Instances
/-!
# C07 – C11, C54: Ramer–Douglas–Peucker simplification
-/
namespace Verif.Props.Rdp
open Verif Verif.Model Verif.Spec Verif.Proofs.Rdp Scalar

section lawless
variable {α : Type} [Scalar α] {P : Type}

theorem rdpTop_keeps (dist : P → P → P → α) (d : α) (points : List P) :
    ∃ out, rdpTop (fun a b p => .ok (dist a b p)) d points = .ok out ∧ out.Sublist points ∧
      out.head? = points.head? ∧ out.getLast? = points.getLast? ∧
      (points.length ≤ 2 → out = points) := by
  match points with
  | [] => exact ⟨[], rfl, by simp⟩
  | p :: rest =>
    by_cases hl : (p :: rest).length ≤ 2
    · refine ⟨p :: rest, ?_, by simp⟩
      rw [rdpTop, if_pos hl]
    · obtain ⟨out, h1, h2⟩ := rdpRec_simplification (fun a b p => .ok (dist a b p)) dist (d *. d)
        (fun _ _ _ => True) (by intros; trivial) p rest (by rintro rfl; simp at hl) (by intros; rfl)
      refine ⟨p :: out, ?_, (Simplification.ends h2).1, (Simplification.ends h2).2.1,
        (Simplification.ends h2).2.2, fun h => absurd h hl⟩
      rw [rdpTop, if_neg hl, h1]; rfl

/-- C07, 2D: whatever the arithmetic does (NaN included), `simplify_rdp` returns a subsequence of
the input with the same first and last point; at most two points are returned unchanged. -/
theorem C07_rdp2_keeps_ends_and_order (points : List (V2 α)) (d : α) :
    ∃ out, simplifyRdp2 points d = .ok out ∧ out.Sublist points ∧
      out.head? = points.head? ∧ out.getLast? = points.getLast? ∧
      (points.length ≤ 2 → out = points) := rdpTop_keeps _ d points

/-- C07, 3D. -/
theorem C07_rdp3_keeps_ends_and_order (points : List (V3 α)) (d : α) :
    ∃ out, simplifyRdp3 points d = .ok out ∧ out.Sublist points ∧
      out.head? = points.head? ∧ out.getLast? = points.getLast? ∧
      (points.length ≤ 2 → out = points) := rdpTop_keeps _ d points

theorem indexed_eq_plain (dist : P → P → P → α) (vertices : List P) (indices : List Nat) (d : α)
    (line : List P) (hv : 2 < vertices.length) (hi : 2 ≤ indices.length)
    (hline : indices.map (vertices[·]?) = line.map some) :
    ∃ out simplified, indexedRdpTop dist vertices indices d = .ok out ∧
      rdpTop (fun a b p => .ok (dist a b p)) d line = .ok simplified ∧
      out.Sublist indices ∧ out.head? = indices.head? ∧ out.getLast? = indices.getLast? ∧
      out.map (vertices[·]?) = simplified.map some := by
  have hne : vertices ≠ [] := by rintro rfl; simp at hv
  obtain ⟨v0, hv0⟩ : ∃ v0, vertices[0]? = some v0 := by
    cases vertices with
    | nil => exact absurd rfl hne
    | cons a l => exact ⟨a, rfl⟩
  -- the designated point
  have hvalid : ∀ i ∈ indices, i < vertices.length := by
    intro i hi
    have : vertices[i]? ∈ indices.map (vertices[·]?) := List.mem_map_of_mem hi
    rw [hline, List.mem_map] at this
    obtain ⟨p, -, hp⟩ := this
    by_contra hc
    rw [List.getElem?_eq_none (by omega)] at hp
    cases hp
  obtain ⟨f, hf⟩ : ∃ f : Nat → P, ∀ i < vertices.length, vertices[i]? = some (f i) :=
    ⟨fun i => (vertices[i]?).getD v0, fun i hi => by simp [List.getElem?_eq_getElem hi]⟩
  have hmap : ∀ l : List Nat, (∀ i ∈ l, i < vertices.length) →
      l.map (vertices[·]?) = (l.map f).map some := by
    intro l hl
    rw [List.map_map]
    exact List.map_congr_left (fun i hi => hf i (hl i hi))
  have hlinef : line = indices.map f := by
    rw [hmap indices hvalid] at hline
    exact (List.map_injective_iff.2 (Option.some_injective _) hline).symm
  have hdist : ∀ a ∈ indices, ∀ b ∈ indices, ∀ p ∈ indices,
      indexedDist dist vertices a b p = .ok (dist (f a) (f b) (f p)) := by
    intro a ha b hb p hp
    simp only [indexedDist, idx, hf a (hvalid a ha), hf b (hvalid b hb), hf p (hvalid p hp)]
    rfl
  match indices, hi with
  | i :: rest, hi =>
    have hrest : rest ≠ [] := by rintro rfl; simp at hi
    obtain ⟨out, h1, h2⟩ := rdpRec_simplification (indexedDist dist vertices)
      (fun a b p => dist (f a) (f b) (f p)) (d *. d) (fun _ _ _ => True) (by intros; trivial) i rest
      hrest hdist
    have hends := Simplification.ends h2
    refine ⟨i :: out, (i :: out).map f, ?_, ?_, hends.1, hends.2.1, hends.2.2, ?_⟩
    · rw [indexedRdpTop, if_neg (by omega)]
      simp only [h1]; rfl
    · have hm := rdpRec_map f (fun a b p => .ok (dist a b p)) (indexedDist dist vertices) (d *. d)
        (i :: rest) (fun a ha b hb p hp => hdist a ha b hb p hp)
      rw [h1] at hm
      rw [hlinef]
      by_cases hl : (i :: rest).length ≤ 2
      · -- two points: both versions return them
        match rest, hrest, hl with
        | [j], _, _ =>
          have : out = [j] := by
            rw [rdpRec_short _ _ _ j rfl (by simp)] at h1
            cases h1; rfl
          subst this
          simp [rdpTop]
      · rw [List.map_cons, rdpTop, if_neg (by simpa using hl)]
        rw [List.map_cons] at hm
        rw [hm]; rfl
    · exact hmap _ (fun j hj => hvalid j (hends.1.subset hj))

/-- C11, 2D: for at least two valid indices `indexed_simplify_rdp_2d` returns a subsequence of the
indices with the same first and last index, and the designated points are what `simplify_rdp`
returns for the line of designated points. -/
theorem C11_indexed2_agrees (vertices : List (V2 α)) (indices : List Nat) (d : α)
    (line : List (V2 α)) (hv : 2 < vertices.length) (hi : 2 ≤ indices.length)
    (hline : indices.map (vertices[·]?) = line.map some) :
    ∃ out simplified, indexedSimplifyRdp2 vertices indices d = .ok out ∧
      simplifyRdp2 line d = .ok simplified ∧
      out.Sublist indices ∧ out.head? = indices.head? ∧ out.getLast? = indices.getLast? ∧
      out.map (vertices[·]?) = simplified.map some :=
  indexed_eq_plain _ vertices indices d line hv hi hline

/-- C11, 3D. -/
theorem C11_indexed3_agrees (vertices : List (V3 α)) (indices : List Nat) (d : α)
    (line : List (V3 α)) (hv : 2 < vertices.length) (hi : 2 ≤ indices.length)
    (hline : indices.map (vertices[·]?) = line.map some) :
    ∃ out simplified, indexedSimplifyRdp3 vertices indices d = .ok out ∧
      simplifyRdp3 line d = .ok simplified ∧
      out.Sublist indices ∧ out.head? = indices.head? ∧ out.getLast? = indices.getLast? ∧
      out.map (vertices[·]?) = simplified.map some :=
  indexed_eq_plain _ vertices indices d line hv hi hline

/-- C11: with at most two vertices in the table the index list is returned unchanged. -/
theorem C11_small_table (vertices : List (V2 α)) (indices : List Nat) (d : α)
    (hv : vertices.length ≤ 2) : indexedSimplifyRdp2 vertices indices d = .ok indices := by
  unfold indexedSimplifyRdp2 indexedRdpTop; rw [if_pos hv]

/-- C11, the excluded cases: an empty index list panics and a single index is *duplicated*
(as soon as the table has more than two vertices), unlike `simplify_rdp` on one point. -/
theorem C11_excluded_cases (vertices : List (V2 α)) (i : Nat) (d : α) (hv : 2 < vertices.length) :
    indexedSimplifyRdp2 vertices [] d = .error .panic ∧
    indexedSimplifyRdp2 vertices [i] d = .ok [i, i] := by
  constructor
  · rw [indexedSimplifyRdp2, indexedRdpTop, if_neg (by omega)]
  · rw [indexedSimplifyRdp2, indexedRdpTop, if_neg (by omega)]
    rw [rdpRec_short _ _ _ i rfl (by simp)]; rfl

/-- C11: the same for 3D tables. -/
theorem C11_small_table3 (vertices : List (V3 α)) (indices : List Nat) (d : α)
    (hv : vertices.length ≤ 2) : indexedSimplifyRdp3 vertices indices d = .ok indices := by
  unfold indexedSimplifyRdp3 indexedRdpTop; rw [if_pos hv]

/-- C11, the excluded cases in 3D. -/
theorem C11_excluded_cases3 (vertices : List (V3 α)) (i : Nat) (d : α) (hv : 2 < vertices.length) :
    indexedSimplifyRdp3 vertices [] d = .error .panic ∧
    indexedSimplifyRdp3 vertices [i] d = .ok [i, i] := by
  constructor
  · rw [indexedSimplifyRdp3, indexedRdpTop, if_neg (by omega)]
  · rw [indexedSimplifyRdp3, indexedRdpTop, if_neg (by omega)]
    rw [rdpRec_short _ _ _ i rfl (by simp)]; rfl

end lawless

section ordered
variable {α : Type} [Scalar α] [LinearOrder α] [OrderedScalar α] {P : Type}

theorem rdpTop_idem (dist : P → P → P → α) (d : α) (points out : List P)
    (h : rdpTop (fun a b p => .ok (dist a b p)) d points = .ok out) :
    rdpTop (fun a b p => .ok (dist a b p)) d out = .ok out := by
  match points with
  | [] => simp only [rdpTop, Except.ok.injEq] at h; subst h; rfl
  | p :: rest =>
    by_cases hl : (p :: rest).length ≤ 2
    · rw [rdpTop, if_pos hl, Except.ok.injEq] at h
      subst h
      rw [rdpTop, if_pos hl]
    · obtain ⟨o, h1, h2⟩ := rdpRec_idem dist (d *. d) (p :: rest) (by simp)
      have h2 := h2 (by omega) p rfl
      rw [rdpTop, if_neg hl, h1] at h
      simp only [Except.map, Except.ok.injEq] at h
      subst h
      by_cases ho : (p :: o).length ≤ 2
      · rw [rdpTop, if_pos ho]
      · rw [rdpTop, if_neg ho, h2.2.2]; rfl

/-- C10, 2D: simplifying again with the same predicate changes nothing. -/
theorem C10_rdp2_idempotent (points out : List (V2 α)) (d : α)
    (h : simplifyRdp2 points d = .ok out) : simplifyRdp2 out d = .ok out :=
  rdpTop_idem _ d points out h

/-- C10, 3D. -/
theorem C10_rdp3_idempotent (points out : List (V3 α)) (d : α)
    (h : simplifyRdp3 points d = .ok out) : simplifyRdp3 out d = .ok out :=
  rdpTop_idem _ d points out h

/-- the recursion follows the textbook algorithm -/
theorem rdpRec_textbook (dist : P → P → P → α) (thr : α) (s : P) (mid : List P) (e : P) :
    ∃ kept, rdpRec (fun a b p => .ok (dist a b p)) thr (s :: (mid ++ [e])) = .ok (kept ++ [e]) ∧
      RdpKeeps (fun a b p => thr < dist a b p) (fun a b x y => dist a b x ≤ dist a b y)
        (fun a b x y => dist a b x < dist a b y) s mid e kept := by
  have gen := rdpRec_induct (fun a b p => .ok (dist a b p)) dist thr
    (fun pts out => ∀ s mid e, pts = s :: (mid ++ [e]) → ∃ kept, out = kept ++ [e] ∧
      RdpKeeps (fun a b p => thr < dist a b p) (fun a b x y => dist a b x ≤ dist a b y)
        (fun a b x y => dist a b x < dist a b y) s mid e kept)
    (by intro a s mid e h; simp at h)
    (by
      intro a b s mid e h
      have : mid = [] := by
        have := congrArg List.length h
        simp only [List.length_cons, List.length_append, List.length_nil] at this
        exact List.length_eq_zero_iff.1 (by omega)
      subst this
      simp at h
      obtain ⟨rfl, rfl⟩ := h
      exact ⟨[], rfl, .near _ _ _ (by simp)⟩)
    (by
      intro points i h2 hi i0 i1 hmax hle s mid e he
      subst he
      have e1 : (s :: (mid ++ [e]))[(s :: (mid ++ [e])).length - 1] = e :=
        last_idx (s :: mid) e (by simp)
      have e0 : (s :: (mid ++ [e]))[0] = s := rfl
      rw [e0, e1] at hmax hle
      refine ⟨[], by rw [e1]; rfl, .near _ _ _ ?_⟩
      intro p hp
      rw [not_lt]
      obtain ⟨k, hk, rfl⟩ := List.getElem_of_mem hp
      have hm := mem_interior dist (s :: (mid ++ [e])) s e (k + 1) (by omega) (by simp; omega)
      have := maxByLast_max _ _ hmax _ hm
      have hle' := (OrderedScalar.le_iff _ _).1 hle
      have hg : (s :: (mid ++ [e]))[k + 1]'(by simp; omega) = mid[k] := by
        simp [hk]
      rw [hg] at this
      exact this.trans hle')
    (by
      intro points l r i h2 hi i0 i1 hmax hle ihl ihr s mid e he
      obtain ⟨s', m1, x, m2, e', he', hi2, ht, hdr⟩ := split_form points i i0 i1
      have hinj : s = s' ∧ mid = m1 ++ x :: m2 ∧ e = e' := by
        rw [he] at he'
        simp only [List.cons.injEq] at he'
        obtain ⟨h1, h2⟩ := he'
        obtain ⟨h3, h4⟩ := List.append_inj' h2 rfl
        exact ⟨h1, h3, by simpa using h4⟩
      obtain ⟨rfl, rfl, rfl⟩ := hinj
      obtain ⟨k1, rfl, hk1⟩ := ihl s m1 x ht
      obtain ⟨k2, rfl, hk2⟩ := ihr x m2 e hdr
      have hgi : points[i] = x := by subst he hi2; simp
      have hg0 : points[0] = s := by subst he; simp
      have hge : points[points.length - 1] = e := by
        subst he; exact last_idx (s :: (m1 ++ x :: m2)) e (by simp)
      rw [hgi, hg0, hge] at hmax hle
      rw [he, hi2, farthest_form] at hmax
      refine ⟨k1 ++ x :: k2, by simp, ?_⟩
      refine .split s m1 x m2 e k1 k2 ?_ hmax.1 hmax.2 hk1 hk2
      exact (le_false_iff _ _).1 hle)
    (s :: (mid ++ [e])) (by simp) (by intros; rfl)
  obtain ⟨out, h1, h2⟩ := gen
  obtain ⟨kept, rfl, hk⟩ := h2 s mid e rfl
  exact ⟨kept, h1, hk⟩

/-- the same for the entry point -/
theorem rdpTop_textbook (dist : P → P → P → α) (d : α) (s : P) (mid : List P) (e : P) :
    ∃ kept, rdpTop (fun a b p => .ok (dist a b p)) d (s :: (mid ++ [e])) =
        .ok (s :: (kept ++ [e])) ∧
      RdpKeeps (fun a b p => d *. d < dist a b p) (fun a b x y => dist a b x ≤ dist a b y)
        (fun a b x y => dist a b x < dist a b y) s mid e kept := by
  obtain ⟨kept, h1, hk⟩ := rdpRec_textbook dist (d *. d) s mid e
  refine ⟨kept, ?_, hk⟩
  by_cases hl : (s :: (mid ++ [e])).length ≤ 2
  · rw [rdpTop, if_pos hl]
    have : mid = [] := List.length_eq_zero_iff.1 (by
      simp only [List.length_cons, List.length_append, List.length_nil] at hl; omega)
    generalize hm : mid = mid' at hk
    cases hk with
    | near => subst hm this; rfl
    | split => subst this; simp at hm
  · rw [rdpTop, if_neg hl, h1]; rfl

end ordered

section exact
variable {K : Type} [Scalar K] [Field K] [LinearOrder K] [ExactScalar K]

theorem rdpTop_bound {P : Type} (dist : P → P → P → K) (d : K) (points : List P)
    (hne : points ≠ []) :
    ∃ out, rdpTop (fun a b p => .ok (dist a b p)) d points = .ok out ∧
      Simplification (fun a b p => dist a b p ≤ d ^ 2) points out := by
  match points with
  | [] => exact absurd rfl hne
  | p :: rest =>
    by_cases hl : (p :: rest).length ≤ 2
    · refine ⟨p :: rest, by rw [rdpTop, if_pos hl], ?_⟩
      match rest, hl with
      | [], _ => exact .single p
      | [q], _ => exact .step p q [] [] [] (by simp) (.single q)
    · obtain ⟨out, h1, h2⟩ := rdpRec_simplification (fun a b p => .ok (dist a b p)) dist (d *. d)
        (fun a b p => dist a b p ≤ d ^ 2) (by
          intro points i h2 hi i0 i1 hmax hle q hq
          obtain ⟨k, hk, rfl⟩ := List.getElem_of_mem hq
          simp only [List.length_take, List.length_drop] at hk
          have hm := mem_interior dist points points[0] points[points.length - 1] (k + 1) (by omega)
            (by omega)
          have := maxByLast_max _ _ hmax _ hm
          have hle' := (OrderedScalar.le_iff _ _).1 hle
          rw [ExactScalar.mul_eq, ← sq] at hle'
          simp only [List.getElem_take, List.getElem_drop, Nat.add_comm 1 k]
          exact this.trans hle') p rest (by rintro rfl; simp at hl) (by intros; rfl)
      exact ⟨p :: out, by rw [rdpTop, if_neg hl, h1]; rfl, h2⟩

/-- C08: every dropped point is within distance `|d|` of the segment between the two retained points
that surround it. -/
theorem C08_rdp2_error_bound (points : List (V2 K)) (d : K) (hne : points ≠ []) :
    ∃ out, simplifyRdp2 points d = .ok out ∧
      Simplification (fun a b p => ∃ q, OnSegment2 a b q ∧ sqDist2 p q ≤ d ^ 2) points out := by
  obtain ⟨out, h1, h2⟩ := rdpTop_bound distToLineSqSafe2 d points hne
  refine ⟨out, h1, Simplification.mono ?_ h2⟩
  intro a b p hp
  obtain ⟨⟨q, hq, he⟩, -⟩ := Props.Dist.C16_dist2_safe_is_min a b p
  exact ⟨q, hq, he ▸ hp⟩

/-- C09: in 3D the bound is for the infinite line. -/
theorem C09_rdp3_error_bound (points : List (V3 K)) (d : K) (hne : points ≠ []) :
    ∃ out, simplifyRdp3 points d = .ok out ∧
      Simplification (fun a b p => ∃ q, OnLine3 a b q ∧ sqDist3 p q ≤ d ^ 2) points out := by
  obtain ⟨out, h1, h2⟩ := rdpTop_bound distToLineSqSafe3 d points hne
  refine ⟨out, h1, Simplification.mono ?_ h2⟩
  intro a b p hp
  obtain ⟨⟨q, hq, he⟩, -⟩ := Props.Dist.C17_dist3_safe_is_min a b p
  exact ⟨q, hq, he ▸ hp⟩

/-- C09, what does *not* hold: in 3D a dropped point can be arbitrarily far from the segment.
Here (9,0,0) is dropped between (0,0,0) and (1,0,0) with `d = 1`. -/
theorem C09_3d_drops_spikes :
    simplifyRdp3 [(⟨0, 0, 0⟩ : V3 ℚ), ⟨9, 0, 0⟩, ⟨1, 0, 0⟩] 1 =
      .ok [⟨0, 0, 0⟩, ⟨1, 0, 0⟩] := by decide +kernel

/-- C54, 2D: the retained points are exactly those of the textbook algorithm: a point is kept only
if it is the (last) farthest from the line between two kept points and further than `|d|`. -/
theorem C54_rdp2_is_textbook (s : V2 K) (mid : List (V2 K)) (e : V2 K) (d : K) :
    ∃ kept, simplifyRdp2 (s :: (mid ++ [e])) d = .ok (s :: (kept ++ [e])) ∧
      RdpKeeps (fun a b p => ∀ q, OnSegment2 a b q → d ^ 2 < sqDist2 p q)
        (fun a b x y => ∀ q, OnSegment2 a b q → ∃ r, OnSegment2 a b r ∧ sqDist2 x r ≤ sqDist2 y q)
        (fun a b x y => ∃ r, OnSegment2 a b r ∧ ∀ q, OnSegment2 a b q → sqDist2 x r < sqDist2 y q)
        s mid e kept := by
  obtain ⟨kept, h1, h2⟩ := rdpTop_textbook distToLineSqSafe2 d s mid e
  refine ⟨kept, h1, ?_⟩
  clear h1
  have hm := fun a b p : V2 K => Props.Dist.C16_dist2_safe_is_min a b p
  have hd : d *. d = d ^ 2 := by rw [ExactScalar.mul_eq, sq]
  induction h2 with
  | near s mid e h =>
    refine .near _ _ _ (fun p hp hc => h p hp ?_)
    obtain ⟨⟨q, hq, he⟩, -⟩ := hm s e p
    rw [hd, he]; exact hc q hq
  | split s m1 x m2 e k1 k2 hfar h1 h2 l r ihl ihr =>
    refine .split _ _ _ _ _ _ _ ?_ ?_ ?_ ihl ihr
    · intro q hq
      rw [hd] at hfar
      exact hfar.trans_le ((hm s e x).2 q hq)
    · intro y hy q hq
      obtain ⟨⟨r, hr, he⟩, -⟩ := hm s e y
      exact ⟨r, hr, he ▸ (h1 y hy).trans ((hm s e x).2 q hq)⟩
    · intro y hy
      obtain ⟨⟨r, hr, he⟩, -⟩ := hm s e y
      exact ⟨r, hr, fun q hq => he ▸ (h2 y hy).trans_le ((hm s e x).2 q hq)⟩

/-- C54, 3D: the same with distances to the infinite line. -/
theorem C54_rdp3_is_textbook (s : V3 K) (mid : List (V3 K)) (e : V3 K) (d : K) :
    ∃ kept, simplifyRdp3 (s :: (mid ++ [e])) d = .ok (s :: (kept ++ [e])) ∧
      RdpKeeps (fun a b p => ∀ q, OnLine3 a b q → d ^ 2 < sqDist3 p q)
        (fun a b x y => ∀ q, OnLine3 a b q → ∃ r, OnLine3 a b r ∧ sqDist3 x r ≤ sqDist3 y q)
        (fun a b x y => ∃ r, OnLine3 a b r ∧ ∀ q, OnLine3 a b q → sqDist3 x r < sqDist3 y q)
        s mid e kept := by
  obtain ⟨kept, h1, h2⟩ := rdpTop_textbook distToLineSqSafe3 d s mid e
  refine ⟨kept, h1, ?_⟩
  clear h1
  have hm := fun a b p : V3 K => Props.Dist.C17_dist3_safe_is_min a b p
  have hd : d *. d = d ^ 2 := by rw [ExactScalar.mul_eq, sq]
  induction h2 with
  | near s mid e h =>
    refine .near _ _ _ (fun p hp hc => h p hp ?_)
    obtain ⟨⟨q, hq, he⟩, -⟩ := hm s e p
    rw [hd, he]; exact hc q hq
  | split s m1 x m2 e k1 k2 hfar h1 h2 l r ihl ihr =>
    refine .split _ _ _ _ _ _ _ ?_ ?_ ?_ ihl ihr
    · intro q hq
      rw [hd] at hfar
      exact hfar.trans_le ((hm s e x).2 q hq)
    · intro y hy q hq
      obtain ⟨⟨r, hr, he⟩, -⟩ := hm s e y
      exact ⟨r, hr, he ▸ (h1 y hy).trans ((hm s e x).2 q hq)⟩
    · intro y hy
      obtain ⟨⟨r, hr, he⟩, -⟩ := hm s e y
      exact ⟨r, hr, fun q hq => he ▸ (h2 y hy).trans_le ((hm s e x).2 q hq)⟩

end exact

/-- the example of the documentation of `indexed_simplify_rdp_2d` and `simplify_rdp`: three points
remain (`src/linestring_2d/simplify.rs` 100-119) -/
example : simplifyRdp2 [(⟨0, 3⟩ : V2 ℚ), ⟨1, 2⟩, ⟨4, 1⟩, ⟨0, 0⟩] 1 =
    .ok [⟨0, 3⟩, ⟨4, 1⟩, ⟨0, 0⟩] ∧
    indexedSimplifyRdp2 [(⟨0, 3⟩ : V2 ℚ), ⟨1, 2⟩, ⟨4, 1⟩, ⟨0, 0⟩] [0, 1, 2, 3] 1 = .ok [0, 2, 3] := by
  constructor <;> decide +kernel

/-- the hypotheses of C11 are met by that example -/
example : ∃ (v line : List (V2 ℚ)) (i : List Nat), 2 < v.length ∧ 2 ≤ i.length ∧
    i.map (v[·]?) = line.map some ∧ line.length = 4 :=
  ⟨[⟨0, 3⟩, ⟨1, 2⟩, ⟨4, 1⟩, ⟨0, 0⟩], [⟨0, 3⟩, ⟨1, 2⟩, ⟨4, 1⟩, ⟨0, 0⟩], [0, 1, 2, 3], by simp⟩

/-- NaN coordinates: `simplify_rdp` still returns, but idempotence (C10) needs the order laws. -/
example : (simplifyRdp2 [(⟨.fin 0, .fin 0⟩ : V2 FQ), ⟨.nan, .fin 1⟩, ⟨.fin 5, .fin 3⟩] (.fin 1)) =
    .ok [⟨.fin 0, .fin 0⟩, ⟨.nan, .fin 1⟩, ⟨.fin 5, .fin 3⟩] := by decide +kernel

end Verif.Props.Rdp
