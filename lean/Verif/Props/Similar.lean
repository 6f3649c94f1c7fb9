import Verif.Props.Rdp
import Verif.Props.Vw
import Verif.Props.Aabb
import Verif.Model.Misc
import Verif.Spec.Similar
import Mathlib.Tactic.LinearCombination
/-!
# C67: `apply`; simplification commutes with similarity maps
-/
namespace Verif.Props.Similar
open Verif Verif.Model Verif.Spec Verif.Proofs.Rdp Scalar
set_option linter.unusedSectionVars false
set_option linter.unusedSimpArgs false

/-- C67: `apply` replaces every point by its image. -/
theorem C67_apply {A : Type} (f : A → A) (l : List A) : applyLine f l = l.map f := by
  unfold applyLine
  have gen : ∀ n, n ≤ l.length → (List.range n).foldl (applyStep f) l = (l.take n).map f ++ l.drop n := by
    intro n
    induction n with
    | zero => intro _; simp
    | succ n ih =>
      intro h
      rw [List.range_succ, List.foldl_append, ih (by omega)]
      simp only [List.foldl_cons, List.foldl_nil]
      have hn : n < l.length := by omega
      have hlen : ((l.take n).map f).length = n := by simp; omega
      have e : ((l.take n).map f ++ l.drop n)[n]? = some l[n] := by
        rw [List.getElem?_append_right (by omega), hlen]
        simp [hn]
      unfold applyStep
      rw [e]
      simp only
      rw [List.set_append, if_neg (by omega), hlen, Nat.sub_self,
        List.drop_eq_getElem_cons hn, List.set_cons_zero, List.take_succ_eq_append_getElem hn,
        List.map_append, List.map_singleton]
      simp only [List.append_assoc, List.singleton_append]
  rw [gen l.length le_rfl]
  simp

section ordered
variable {K : Type} [Scalar K] [LinearOrder K] [OrderedScalar K] {P : Type}

theorem maxByLast_map (g : K → K) (hg : StrictMono g) (l : List (K × Nat)) :
    maxByLast (l.map (fun x => (g x.1, x.2))) = (maxByLast l).map (fun x => (g x.1, x.2)) := by
  have step : ∀ (l : List (K × Nat)) (a : K × Nat),
      (l.map (fun x => (g x.1, x.2))).foldl maxStep (g a.1, a.2) =
        (fun x : K × Nat => (g x.1, x.2)) (l.foldl maxStep a) := by
    intro l
    induction l with
    | nil => intro a; rfl
    | cons b l ih =>
      intro a
      simp only [List.map_cons, List.foldl_cons, maxStep_ordered, hg.lt_iff_lt]
      by_cases h : b.1 < a.1
      · rw [if_pos h, if_pos h]; exact ih a
      · rw [if_neg h, if_neg h]; exact ih b
  cases l with
  | nil => rfl
  | cons a l =>
    simp only [maxByLast, List.map_cons, Option.map_some]
    rw [step]

/-- the recursion only compares distances with each other and with the threshold -/
theorem rdpRec_rescale (d : P → P → P → K) (g : K → K) (hg : StrictMono g) (thr : K) (points : List P)
    (hne : points ≠ []) :
    rdpRec (fun a b p => .ok (g (d a b p))) (g thr) points = rdpRec (fun a b p => .ok (d a b p)) thr points := by
  induction hn : points.length using Nat.strong_induction_on generalizing points with
  | _ n ih =>
    subst hn
    by_cases hl : points.length ≤ 2
    · rw [rdpRec, rdpRec, dif_pos hl, dif_pos hl]
    · have h2 : 2 < points.length := by omega
      obtain ⟨i, hi, i0, i1, m1, e1⟩ := rdpRec_unfold (fun a b p => .ok (d a b p)) d thr points
        (fun _ _ _ _ _ _ => rfl) h2
      obtain ⟨j, hj, j0, j1, m2, e2⟩ := rdpRec_unfold (fun a b p => .ok (g (d a b p)))
        (fun a b p => g (d a b p)) (g thr) points (fun _ _ _ _ _ _ => rfl) h2
      have hint : Proofs.Rdp.interior (fun a b p => g (d a b p)) points points[0] points[points.length - 1] =
          (Proofs.Rdp.interior d points points[0] points[points.length - 1]).map (fun x => (g x.1, x.2)) := by
        unfold Proofs.Rdp.interior
        rw [List.map_map]
        rfl
      rw [hint, maxByLast_map g hg, m1] at m2
      simp only [Option.map_some, Option.some.injEq, Prod.mk.injEq] at m2
      obtain ⟨-, rfl⟩ := m2
      rw [e1, e2]
      have hc : (g (d points[0] points[points.length - 1] points[i]) <=. g thr) =
          (d points[0] points[points.length - 1] points[i] <=. thr) := by
        rw [le_decide, le_decide]; simp only [hg.le_iff_le]
      rw [hc, ih (points.take (i + 1)).length (by simp; omega) (points.take (i + 1))
        (by apply List.ne_nil_of_length_pos; simp; omega) rfl,
        ih (points.drop i).length (by simp; omega) (points.drop i)
        (by apply List.ne_nil_of_length_pos; simp; omega) rfl]

end ordered

section exact
variable {K : Type} [Scalar K] [Field K] [LinearOrder K] [ExactScalar K]

theorem rdpTop_similar {P : Type} (d : P → P → P → K) (f : P → P) (c : K) (hc : 0 < c)
    (hf : ∀ a b p, d (f a) (f b) (f p) = c ^ 2 * d a b p) (points : List P) (t : K) :
    rdpTop (fun a b p => .ok (d a b p)) (c * t) (points.map f) =
      (rdpTop (fun a b p => .ok (d a b p)) t points).map (List.map f) := by
  cases points with
  | nil => rfl
  | cons p ps =>
    unfold rdpTop
    simp only [List.map_cons, List.length_cons, List.length_map]
    by_cases h : ps.length + 1 ≤ 2
    · rw [if_pos h, if_pos h]; rfl
    · rw [if_neg h, if_neg h]
      have h1 := rdpRec_map f (fun a b p => .ok (d a b p)) (fun a b p => .ok (c ^ 2 * d a b p))
        (c * t *. (c * t)) (p :: ps) (fun a _ b _ q _ => by rw [hf])
      have h2 := rdpRec_rescale d (fun x => c ^ 2 * x) (fun a b h => mul_lt_mul_of_pos_left h (by positivity))
        (t *. t) (p :: ps) (by simp)
      have e : c * t *. (c * t) = c ^ 2 * (t *. t) := by simp only [exact_simp]; ring
      rw [e] at h1 ⊢
      rw [h2] at h1
      rw [List.map_cons] at h1
      rw [h1]
      cases rdpRec (fun a b p => .ok (d a b p)) (t *. t) (p :: ps) <;> rfl

/-- 2D distance in terms of the three pairwise squared distances -/
theorem dist2_pairwise (a b p : V2 K) : distToLineSqSafe2 a b p =
    if sqDist2 a b = 0 then sqDist2 a p
    else if (sqDist2 a p + sqDist2 a b - sqDist2 b p) / 2 / sqDist2 a b < 0 then sqDist2 a p
    else if 1 < (sqDist2 a p + sqDist2 a b - sqDist2 b p) / 2 / sqDist2 a b then sqDist2 b p
    else (sqDist2 a p * sqDist2 a b - ((sqDist2 a p + sqDist2 a b - sqDist2 b p) / 2) ^ 2) / sqDist2 a b := by
  have h0 : sqDist2 a b = 0 ↔ a.x = b.x ∧ a.y = b.y := by
    unfold sqDist2
    constructor
    · intro h
      have h1 : (a.x - b.x) ^ 2 = 0 := le_antisymm (by nlinarith [sq_nonneg (a.y - b.y)]) (sq_nonneg _)
      have h2 : (a.y - b.y) ^ 2 = 0 := by linarith
      exact ⟨sub_eq_zero.1 (pow_eq_zero_iff (two_ne_zero) |>.1 h1), sub_eq_zero.1 (pow_eq_zero_iff (two_ne_zero) |>.1 h2)⟩
    · rintro ⟨h1, h2⟩; rw [h1, h2]; ring
  have e1 : (sqDist2 a p + sqDist2 a b - sqDist2 b p) / 2 =
      (a.x - p.x) * (a.x - b.x) + (a.y - p.y) * (a.y - b.y) := by
    unfold sqDist2; ring
  have e2 : sqDist2 a p * sqDist2 a b - ((a.x - p.x) * (a.x - b.x) + (a.y - p.y) * (a.y - b.y)) ^ 2 =
      ((a.x - p.x) * (a.y - b.y) - (a.y - p.y) * (a.x - b.x)) ^ 2 := by
    unfold sqDist2; ring
  rw [e1, e2]
  unfold distToLineSqSafe2 distToLineSq2
  simp only [exact_simp, ExactScalar.ulps_iff, Bool.and_eq_true, decide_eq_true_eq]
  have e3 : (a.x - b.x) * (a.x - b.x) + (a.y - b.y) * (a.y - b.y) = sqDist2 a b := by unfold sqDist2; ring
  have e4 : (a.x - p.x) * (a.x - p.x) + (a.y - p.y) * (a.y - p.y) = sqDist2 a p := by unfold sqDist2; ring
  have e5 : (b.x - p.x) * (b.x - p.x) + (b.y - p.y) * (b.y - p.y) = sqDist2 b p := by unfold sqDist2; ring
  rw [e3, e4, e5]
  by_cases h : sqDist2 a b = 0
  · rw [if_pos h, if_pos (h0.1 h)]
  · rw [if_neg h, if_neg (fun hh => h (h0.2 hh))]
    congr 2
    ring

/-- 3D distance in terms of the three pairwise squared distances -/
theorem dist3_pairwise (a b p : V3 K) : distToLineSqSafe3 a b p =
    if sqDist3 a b = 0 then sqDist3 a p
    else (sqDist3 a p * sqDist3 a b - ((sqDist3 a p + sqDist3 a b - sqDist3 b p) / 2) ^ 2) / sqDist3 a b := by
  have h0 : sqDist3 a b = 0 ↔ (a.x = b.x ∧ a.y = b.y) ∧ a.z = b.z := by
    unfold sqDist3
    constructor
    · intro h
      have h1 : (a.x - b.x) ^ 2 = 0 :=
        le_antisymm (by nlinarith [sq_nonneg (a.y - b.y), sq_nonneg (a.z - b.z)]) (sq_nonneg _)
      have h2 : (a.y - b.y) ^ 2 = 0 :=
        le_antisymm (by nlinarith [sq_nonneg (a.x - b.x), sq_nonneg (a.z - b.z)]) (sq_nonneg _)
      have h3 : (a.z - b.z) ^ 2 = 0 := by linarith
      exact ⟨⟨sub_eq_zero.1 (pow_eq_zero_iff (two_ne_zero) |>.1 h1),
        sub_eq_zero.1 (pow_eq_zero_iff (two_ne_zero) |>.1 h2)⟩, sub_eq_zero.1 (pow_eq_zero_iff (two_ne_zero) |>.1 h3)⟩
    · rintro ⟨⟨h1, h2⟩, h3⟩; rw [h1, h2, h3]; ring
  have e1 : (sqDist3 a p + sqDist3 a b - sqDist3 b p) / 2 =
      (a.x - p.x) * (a.x - b.x) + (a.y - p.y) * (a.y - b.y) + (a.z - p.z) * (a.z - b.z) := by
    unfold sqDist3; ring
  rw [e1]
  unfold distToLineSqSafe3 distToLineSq3 crossAbsSq
  simp only [exact_simp, ExactScalar.ulps_iff, Bool.and_eq_true, decide_eq_true_eq]
  have e3 : (a.x - b.x) * (a.x - b.x) + (a.y - b.y) * (a.y - b.y) + (a.z - b.z) * (a.z - b.z) = sqDist3 a b := by
    unfold sqDist3; ring
  have e4 : (a.x - p.x) * (a.x - p.x) + (a.y - p.y) * (a.y - p.y) + (a.z - p.z) * (a.z - p.z) = sqDist3 a p := by
    unfold sqDist3; ring
  rw [e3, e4]
  by_cases h : sqDist3 a b = 0
  · rw [if_pos h, if_pos (h0.1 h)]
  · rw [if_neg h, if_neg (fun hh => h (h0.2 hh))]
    congr 1
    unfold sqDist3
    ring

theorem dist2_similar {c : K} {f : V2 K → V2 K} (hf : IsSimilarity2 c f) (a b p : V2 K) :
    distToLineSqSafe2 (f a) (f b) (f p) = c ^ 2 * distToLineSqSafe2 a b p := by
  obtain ⟨hc, hd⟩ := hf
  have hc2 : c ^ 2 ≠ 0 := by positivity
  rw [dist2_pairwise, dist2_pairwise, hd, hd, hd]
  generalize sqDist2 a b = u
  generalize sqDist2 a p = v
  generalize sqDist2 b p = w
  by_cases hu : u = 0
  · rw [if_pos (by rw [hu, mul_zero]), if_pos hu]
  · rw [if_neg (by exact mul_ne_zero hc2 hu), if_neg hu]
    have e : (c ^ 2 * v + c ^ 2 * u - c ^ 2 * w) / 2 / (c ^ 2 * u) = (v + u - w) / 2 / u := by
      field_simp
    rw [e]
    split_ifs
    · rfl
    · rfl
    · field_simp

theorem dist3_similar {c : K} {f : V3 K → V3 K} (hf : IsSimilarity3 c f) (a b p : V3 K) :
    distToLineSqSafe3 (f a) (f b) (f p) = c ^ 2 * distToLineSqSafe3 a b p := by
  obtain ⟨hc, hd⟩ := hf
  have hc2 : c ^ 2 ≠ 0 := by positivity
  rw [dist3_pairwise, dist3_pairwise, hd, hd, hd]
  generalize sqDist3 a b = u
  generalize sqDist3 a p = v
  generalize sqDist3 b p = w
  by_cases hu : u = 0
  · rw [if_pos (by rw [hu, mul_zero]), if_pos hu]
  · rw [if_neg (by exact mul_ne_zero hc2 hu), if_neg hu]
    field_simp

/-- C67 (2D): simplifying the image of a line under a similarity with the scaled tolerance gives the image
of the simplified line. -/
theorem C67_rdp2_commutes_with_similarities {c : K} {f : V2 K → V2 K} (hf : IsSimilarity2 c f)
    (line : List (V2 K)) (d : K) :
    simplifyRdp2 (applyLine f line) (c * d) = (simplifyRdp2 line d).map (applyLine f) := by
  rw [C67_apply, show (applyLine f) = List.map f from funext (C67_apply f)]
  exact rdpTop_similar distToLineSqSafe2 f c hf.1 (dist2_similar hf) line d

/-- C67 (3D) -/
theorem C67_rdp3_commutes_with_similarities {c : K} {f : V3 K → V3 K} (hf : IsSimilarity3 c f)
    (line : List (V3 K)) (d : K) :
    simplifyRdp3 (applyLine f line) (c * d) = (simplifyRdp3 line d).map (applyLine f) := by
  rw [C67_apply, show (applyLine f) = List.map f from funext (C67_apply f)]
  exact rdpTop_similar distToLineSqSafe3 f c hf.1 (dist3_similar hf) line d

/-- C67: the map of a `SimpleAffine` is a similarity (so the above applies to it). -/
theorem C67_affine_is_similarity (a b : Aabb2 K) (t : SimpleAffine K) (h : SimpleAffine.new a b = some t) :
    IsSimilarity2 t.scale.x (fun p => (t.transformAb p).getD p) := by
  obtain ⟨h1, h2⟩ := Verif.Props.Aabb.C35_scale_uniform a b t h
  refine ⟨h2, ?_⟩
  intro p q
  unfold SimpleAffine.transformAb sqDist2
  simp only [exact_simp, ExactScalar.finite, Bool.and_self, if_true, Option.getD_some]
  rw [← h1]
  ring

/-! ### Visvalingam–Whyatt -/

/-- heap entries with rescaled keys -/
def scaleHeap (g : K) (h : VwHeap K) : VwHeap K := h.map (fun e => (g * e.1, e.2))
/-- links with rescaled areas -/
def scaleLinks (g : K) (l : VwLinks K) : VwLinks K := l.map (fun e => (e.1, e.2.1, e.2.2.1, g * e.2.2.2))
/-- both -/
def scaleState (g : K) (s : VwHeap K × VwLinks K) : VwHeap K × VwLinks K := (scaleHeap g s.1, scaleLinks g s.2)

theorem scale_get (g : K) (l : VwLinks K) (i : Nat) :
    linkGet (scaleLinks g l) i = (linkGet l i).map (fun v => (v.1, v.2.1, g * v.2.2)) := by
  unfold linkGet scaleLinks
  induction l with
  | nil => rfl
  | cons e l ih =>
    obtain ⟨j, v⟩ := e
    simp only [List.map_cons, List.lookup_cons]
    cases i == j with
    | true => rfl
    | false => exact ih

theorem scale_remove (g : K) (l : VwLinks K) (i : Nat) :
    linkRemove (scaleLinks g l) i = scaleLinks g (linkRemove l i) := by
  unfold linkRemove scaleLinks
  rw [List.filter_map]
  rfl

theorem scale_push {g : K} (_hg : 0 < g) (h : VwHeap K) (key : K) (i : Nat) :
    heapPush (scaleHeap g h) (g * key) i = (heapPush h key i).map (scaleHeap g) := by
  unfold heapPush
  have : ∀ (h : VwHeap K) (k : K), h.any (fun e => (Scalar.pcmp k e.1).isNone) = false := by
    intro h k
    simp [pcmp_ordered]
  rw [this, this]
  rfl

theorem scale_link {g : K} (hg : 0 < g) (s : VwHeap K × VwLinks K) (i j k : Nat) (area : K) :
    vwLink (scaleHeap g s.1) (scaleLinks g s.2) i j k (g * area) =
      (vwLink s.1 s.2 i j k area).map (scaleState g) := by
  unfold vwLink
  rw [scale_push hg]
  cases heapPush s.1 area j with
  | error e => rfl
  | ok h =>
    simp only [Except.map, linkInsert, scale_remove]
    rfl

variable {P : Type} (area : P → P → P → K) (f : P → P) (g : K)

theorem idx_map (line : List P) (i : Nat) : idx (line.map f) i = (idx line i).map f := by
  unfold idx
  rw [List.getElem?_map]
  cases line[i]? <;> rfl

theorem scale_initStep (hg : 0 < g) (ha : ∀ a b c, area (f a) (f b) (f c) = g * area a b c) (line : List P)
    (s : VwHeap K × VwLinks K) (t : Nat) :
    vwInitStep area (line.map f) (scaleState g s) t = (vwInitStep area line s t).map (scaleState g) := by
  unfold vwInitStep
  simp only [idx_map]
  cases idx line t with
  | error e => rfl
  | ok a =>
    cases idx line (t + 1) with
    | error e => rfl
    | ok b =>
      cases idx line (t + 2) with
      | error e => rfl
      | ok c =>
        have := scale_link hg s t (t + 1) (t + 2) (area a b c)
        rw [← ha] at this
        exact this

theorem scale_init (hg : 0 < g) (ha : ∀ a b c, area (f a) (f b) (f c) = g * area a b c) (line : List P) :
    vwInit area (line.map f) = (vwInit area line).map (scaleState g) := by
  unfold vwInit
  rw [List.length_map]
  have gen : ∀ (l : List Nat) (s : VwHeap K × VwLinks K), l.foldlM (vwInitStep area (line.map f)) (scaleState g s) =
      (l.foldlM (vwInitStep area line) s).map (scaleState g) := by
    intro l
    induction l with
    | nil => intro s; rfl
    | cons t l ih =>
      intro s
      rw [List.foldlM_cons, List.foldlM_cons, scale_initStep area f g hg ha]
      cases vwInitStep area line s t with
      | error e => rfl
      | ok s' => exact ih s'
  exact gen _ ([], [])

theorem scale_connect (hg : 0 < g) (ha : ∀ a b c, area (f a) (f b) (f c) = g * area a b c) (line : List P)
    (s : VwHeap K × VwLinks K) :
    vwConnect area (line.map f) (scaleState g s) = (vwConnect area line s).map (scaleState g) := by
  unfold vwConnect
  simp only [idx_map, List.length_map]
  cases idx line (line.length - 2) with
  | error e => rfl
  | ok a =>
    cases idx line (line.length - 1) with
    | error e => rfl
    | ok b =>
      cases idx line 0 with
      | error e => rfl
      | ok c =>
        have := scale_link hg s (line.length - 2) (line.length - 1) line.length (area a b c)
        rw [← ha] at this
        exact this

theorem scale_fixNext (hg : 0 < g) (ha : ∀ a b c, area (f a) (f b) (f c) = g * area a b c) (line : List P)
    (s : VwHeap K × VwLinks K) (i j k : Nat) :
    vwFixNext area (line.map f) (scaleState g s) i j k = (vwFixNext area line s i j k).map (scaleState g) := by
  unfold vwFixNext
  simp only [idx_map, List.length_map]
  cases idx line i with
  | error e => rfl
  | ok a =>
    cases idx line (j % line.length) with
    | error e => rfl
    | ok b =>
      cases idx line (k % line.length) with
      | error e => rfl
      | ok c =>
        have := scale_link hg s i j k (area a b c)
        rw [← ha] at this
        exact this

theorem scale_fixPrev (hg : 0 < g) (ha : ∀ a b c, area (f a) (f b) (f c) = g * area a b c) (line : List P)
    (s : VwHeap K × VwLinks K) (i j k : Nat) :
    vwFixPrev area (line.map f) (scaleState g s) i j k = (vwFixPrev area line s i j k).map (scaleState g) := by
  unfold vwFixPrev
  simp only [idx_map, List.length_map]
  cases idx line i with
  | error e => rfl
  | ok a =>
    cases idx line j with
    | error e => rfl
    | ok b =>
      cases idx line (k % line.length) with
      | error e => rfl
      | ok c =>
        have := scale_link hg s i j k (area a b c)
        rw [← ha] at this
        exact this

theorem scale_delete (hg : 0 < g) (ha : ∀ a b c, area (f a) (f b) (f c) = g * area a b c) (line : List P)
    (s : VwHeap K × VwLinks K) (i j : Nat) :
    vwDelete area (line.map f) (scaleState g s) i j = (vwDelete area line s i j).map (scaleState g) := by
  unfold vwDelete
  have h1 : (linkGet (scaleState g s).2 i).map (fun l => l.1) = (linkGet s.2 i).map (fun l => l.1) := by
    rw [show (scaleState g s).2 = scaleLinks g s.2 from rfl, scale_get]
    cases linkGet s.2 i <;> rfl
  have h2 : (linkGet (scaleState g s).2 j).map (fun l => l.2.1) = (linkGet s.2 j).map (fun l => l.2.1) := by
    rw [show (scaleState g s).2 = scaleLinks g s.2 from rfl, scale_get]
    cases linkGet s.2 j <;> rfl
  rw [h1, h2]
  cases (linkGet s.2 j).map (fun l => l.2.1) with
  | none =>
    cases (linkGet s.2 i).map (fun l => l.1) with
    | none => rfl
    | some pp => exact scale_fixPrev area f g hg ha line s pp i j
  | some nn =>
    cases (linkGet s.2 i).map (fun l => l.1) with
    | none => exact scale_fixNext area f g hg ha line s i j nn
    | some pp =>
      simp only
      rw [scale_fixNext area f g hg ha]
      cases vwFixNext area line s i j nn with
      | error e => rfl
      | ok s' => exact scale_fixPrev area f g hg ha line s' pp i j

/-- the heap of the scaled run gives out the entries that the heap of the original run gives out -/
def scalePick (g : K) (pick : Nat → VwHeap K → Nat) : Nat → VwHeap K → Nat :=
  fun t h => pick t (scaleHeap g⁻¹ h)

theorem scaleHeap_inv (hg : 0 < g) (h : VwHeap K) : scaleHeap g⁻¹ (scaleHeap g h) = h := by
  unfold scaleHeap
  rw [List.map_map]
  conv_rhs => rw [← List.map_id h]
  apply List.map_congr_left
  rintro ⟨a, b⟩ _
  simp [inv_mul_cancel_left₀ hg.ne']

theorem scalePick_pops (hg : 0 < g) (pick : Nat → VwHeap K → Nat) (hp : PopsLeast (fun _ => True) pick) :
    PopsLeast (fun _ => True) (scalePick g pick) := by
  intro t heap hne _
  obtain ⟨e, h1, h2⟩ := hp t (scaleHeap g⁻¹ heap) (by simpa [scaleHeap] using hne) (fun _ _ => trivial)
  unfold scaleHeap at h1
  rw [List.getElem?_map] at h1
  obtain ⟨e', h3, h4⟩ := Option.map_eq_some_iff.1 h1
  refine ⟨e', h3, fun x hx => ?_⟩
  have := h2 (g⁻¹ * x.1, x.2) (List.mem_map.2 ⟨x, hx, rfl⟩)
  rw [← h4] at this
  rw [OrderedScalar.le_iff] at this ⊢
  exact le_of_mul_le_mul_left this (inv_pos.2 hg)

theorem scale_loop (hg : 0 < g) (ha : ∀ a b c, area (f a) (f b) (f c) = g * area a b c) (line : List P)
    (pick : Nat → VwHeap K → Nat) (guard2 : Bool) (k : Nat) (fuel : Nat) (s : VwHeap K × VwLinks K) (n : Nat) :
    vwLoop area (line.map f) (scalePick g pick) guard2 k fuel (scaleState g s) n =
      (vwLoop area line pick guard2 k fuel s n).map (scaleLinks g) := by
  induction fuel generalizing s n with
  | zero => rfl
  | succ fuel ih =>
    rw [vwLoop, vwLoop]
    have c1 : (scaleState g s).1.isEmpty = s.1.isEmpty := by
      simp [scaleState, scaleHeap]
    have c2 : (scaleState g s).2.length = s.2.length := by
      simp [scaleState, scaleLinks]
    rw [c1, c2]
    by_cases hc : (s.1.isEmpty || (guard2 && s.2.length == 2) || decide (k ≤ n)) = true
    · rw [if_pos hc, if_pos hc]; rfl
    · rw [if_neg hc, if_neg hc]
      have e : scalePick g pick fuel (scaleState g s).1 = pick fuel s.1 := by
        unfold scalePick
        rw [show (scaleState g s).1 = scaleHeap g s.1 from rfl, scaleHeap_inv g hg]
      rw [e]
      have e2 : (scaleState g s).1[pick fuel s.1]? = (s.1[pick fuel s.1]?).map (fun e => (g * e.1, e.2)) := by
        rw [show (scaleState g s).1 = scaleHeap g s.1 from rfl, scaleHeap, List.getElem?_map]
      simp only [e2]
      cases s.1[pick fuel s.1]? with
      | none => rfl
      | some sm =>
        simp only [Option.map_some]
        have e3 : (scaleState g s).1.eraseIdx (pick fuel s.1) = scaleHeap g (s.1.eraseIdx (pick fuel s.1)) := by
          rw [show (scaleState g s).1 = scaleHeap g s.1 from rfl, scaleHeap, scaleHeap, List.eraseIdx_map]
        rw [e3, show (scaleState g s).2 = scaleLinks g s.2 from rfl, scale_get]
        cases linkGet s.2 sm.2 with
        | none => exact ih (s.1.eraseIdx (pick fuel s.1), s.2) n
        | some v =>
          simp only [Option.map_some]
          have e4 : (g * sm.1 ==. g * v.2.2) = (sm.1 ==. v.2.2) := by
            rw [beq_decide, beq_decide]
            simp [mul_right_inj' hg.ne']
          rw [e4]
          by_cases hb : (!(sm.1 ==. v.2.2)) = true
          · rw [if_pos hb, if_pos hb]
            exact ih (s.1.eraseIdx (pick fuel s.1), s.2) n
          · rw [if_neg hb, if_neg hb, scale_remove]
            have := scale_delete area f g hg ha line (s.1.eraseIdx (pick fuel s.1), linkRemove s.2 sm.2) v.1 v.2.1
            rw [show scaleState g (s.1.eraseIdx (pick fuel s.1), linkRemove s.2 sm.2) =
              (scaleHeap g (s.1.eraseIdx (pick fuel s.1)), scaleLinks g (linkRemove s.2 sm.2)) from rfl] at this
            rw [this]
            cases vwDelete area line (s.1.eraseIdx (pick fuel s.1), linkRemove s.2 sm.2) v.1 v.2.1 with
            | error e => rfl
            | ok s' => exact ih s' (n + 1)

theorem mapM_idx (line : List P) (l : List Nat) :
    l.mapM (idx (line.map f)) = (l.mapM (idx line)).map (List.map f) := by
  induction l with
  | nil => rfl
  | cons i l ih =>
    rw [List.mapM_cons, List.mapM_cons, idx_map, ih]
    cases idx line i with
    | error e => rfl
    | ok p => cases l.mapM (idx line) <;> rfl

theorem keys_scale (l : VwLinks K) : vwKeys (scaleLinks g l) = vwKeys l := by
  unfold vwKeys scaleLinks
  rw [List.map_map]
  rfl

theorem similar_injective {c : K} {f : V2 K → V2 K} (hf : IsSimilarity2 c f) (p q : V2 K) :
    (f p).beq (f q) = p.beq q := by
  have key : ∀ p q : V2 K, p.beq q = true ↔ sqDist2 p q = 0 := by
    intro p q
    simp only [V2.beq, beq_decide, Bool.and_eq_true, decide_eq_true_eq, sqDist2]
    constructor
    · rintro ⟨h1, h2⟩; rw [h1, h2]; ring
    · intro h
      have h1 : (p.x - q.x) ^ 2 = 0 := le_antisymm (by nlinarith [sq_nonneg (p.y - q.y)]) (sq_nonneg _)
      have h2 : (p.y - q.y) ^ 2 = 0 := by linarith
      exact ⟨sub_eq_zero.1 (pow_eq_zero_iff (two_ne_zero) |>.1 h1), sub_eq_zero.1 (pow_eq_zero_iff (two_ne_zero) |>.1 h2)⟩
  rw [Bool.eq_iff_iff, key, key, hf.2, mul_eq_zero, or_iff_right (pow_ne_zero 2 hf.1.ne')]

/-- Heron: the compared area in terms of the sides -/
theorem area2_pairwise (a b c : V2 K) : triangleArea2 a b c =
    sqDist2 a b * sqDist2 b c - ((sqDist2 a b + sqDist2 b c - sqDist2 a c) / 2) ^ 2 := by
  unfold triangleArea2 sqDist2
  simp only [exact_simp]
  ring

theorem area3_pairwise (a b c : V3 K) : triangleArea3 a b c =
    sqDist3 a b * sqDist3 b c - ((sqDist3 a b + sqDist3 b c - sqDist3 a c) / 2) ^ 2 := by
  unfold triangleArea3 sqDist3
  simp only [exact_simp]
  ring

/-- C67 (2D): whatever the order in which the heap of `simplify_vw` gives out entries with equal areas for the
original line, there is an order for the image of the line under a similarity such that the result is the
image of the result (and `f⁻¹` gives the converse). -/
theorem C67_vw2_commutes_with_similarities {c : K} {f : V2 K → V2 K} (hf : IsSimilarity2 c f)
    (pick : Nat → List (K × Nat) → Nat) (hpick : PopsLeast (fun _ => True) pick) :
    ∃ pick', PopsLeast (fun _ => True) pick' ∧ ∀ (line : List (V2 K)) (k fuel : Nat),
      simplifyVw2 pick' fuel (applyLine f line) k = (simplifyVw2 pick fuel line k).map (applyLine f) := by
  have hg : 0 < c ^ 4 := pow_pos hf.1 4
  have ha : ∀ a b d, triangleArea2 (f a) (f b) (f d) = c ^ 4 * triangleArea2 a b d := by
    intro a b d
    rw [area2_pairwise, area2_pairwise, hf.2, hf.2, hf.2]
    ring
  refine ⟨scalePick (c ^ 4) pick, scalePick_pops (c ^ 4) hg pick hpick, fun line k fuel => ?_⟩
  rw [C67_apply, show (applyLine f) = List.map f from funext (C67_apply f)]
  have hconn : isConnected2 (line.map f) = isConnected2 line := by
    unfold isConnected2
    rw [List.head?_map, List.getLast?_map]
    cases line.head? with
    | none => rfl
    | some a =>
      cases line.getLast? with
      | none => rfl
      | some b => exact similar_injective hf a b
  unfold simplifyVw2
  rw [List.length_map, hconn]
  by_cases hl : line.length ≤ 2
  · rw [if_pos hl, if_pos hl]; rfl
  · rw [if_neg hl, if_neg hl, scale_init triangleArea2 f (c ^ 4) hg ha]
    cases vwInit triangleArea2 line with
    | error e => rfl
    | ok s =>
      cases hc : isConnected2 line with
      | true =>
        simp only [Except.map, Except.bind, bind, pure, if_true, Bool.not_true, Bool.false_eq_true, if_false]
        rw [scale_connect triangleArea2 f (c ^ 4) hg ha]
        cases vwConnect triangleArea2 line s with
        | error e => rfl
        | ok s' =>
          simp only [Except.map]
          rw [scale_loop triangleArea2 f (c ^ 4) hg ha]
          cases vwLoop triangleArea2 line pick true k fuel s' 0 with
          | error e => rfl
          | ok links =>
            simp only [Except.map, keys_scale]
            exact mapM_idx f line _
      | false =>
        simp only [Except.map, Except.bind, bind, pure, if_true, Bool.not_false, Bool.false_eq_true, if_false]
        rw [scale_loop triangleArea2 f (c ^ 4) hg ha]
        cases vwLoop triangleArea2 line pick true k fuel s 0 with
        | error e => rfl
        | ok links =>
          simp only [Except.map, keys_scale]
          exact mapM_idx f line _

/-- C67 (3D) -/
theorem C67_vw3_commutes_with_similarities {c : K} {f : V3 K → V3 K} (hf : IsSimilarity3 c f)
    (pick : Nat → List (K × Nat) → Nat) (hpick : PopsLeast (fun _ => True) pick) :
    ∃ pick', PopsLeast (fun _ => True) pick' ∧ ∀ (line : List (V3 K)) (k fuel : Nat),
      simplifyVw3 pick' fuel (applyLine f line) k = (simplifyVw3 pick fuel line k).map (applyLine f) := by
  have hg : 0 < c ^ 4 := pow_pos hf.1 4
  have ha : ∀ a b d, triangleArea3 (f a) (f b) (f d) = c ^ 4 * triangleArea3 a b d := by
    intro a b d
    rw [area3_pairwise, area3_pairwise, hf.2, hf.2, hf.2]
    ring
  refine ⟨scalePick (c ^ 4) pick, scalePick_pops (c ^ 4) hg pick hpick, fun line k fuel => ?_⟩
  rw [C67_apply, show (applyLine f) = List.map f from funext (C67_apply f)]
  unfold simplifyVw3
  rw [List.length_map]
  by_cases hl : line.length ≤ 2
  · rw [if_pos hl, if_pos hl]; rfl
  · rw [if_neg hl, if_neg hl, scale_init triangleArea3 f (c ^ 4) hg ha]
    cases vwInit triangleArea3 line with
    | error e => rfl
    | ok s =>
      simp only [Except.map, Except.bind, bind, pure]
      rw [scale_loop triangleArea3 f (c ^ 4) hg ha]
      cases vwLoop triangleArea3 line pick false k fuel s 0 with
      | error e => rfl
      | ok links =>
        simp only [Except.map, keys_scale]
        exact mapM_idx f line _

end exact

/-- a turn by a right angle with a scaling by two and a translation is a similarity -/
theorem turn_similar : IsSimilarity2 (2 : ℚ) (fun p => ⟨-2 * p.y + 5, 2 * p.x - 1⟩) :=
  ⟨by norm_num, fun p q => by unfold sqDist2; ring⟩

example : simplifyRdp2 (applyLine (fun p => ⟨-2 * p.y + 5, 2 * p.x - 1⟩)
      ([⟨0, 0⟩, ⟨1, 0⟩, ⟨2, 3⟩, ⟨4, 0⟩] : List (V2 ℚ))) (2 * 1) =
    (simplifyRdp2 ([⟨0, 0⟩, ⟨1, 0⟩, ⟨2, 3⟩, ⟨4, 0⟩] : List (V2 ℚ)) 1).map
      (applyLine (fun p => ⟨-2 * p.y + 5, 2 * p.x - 1⟩)) :=
  C67_rdp2_commutes_with_similarities turn_similar _ _

/-- a turn about the z axis with a scaling -/
example : IsSimilarity3 (3 : ℚ) (fun p => ⟨-3 * p.y, 3 * p.x, 3 * p.z + 1⟩) :=
  ⟨by norm_num, fun p q => by unfold sqDist3; ring⟩

/-- a tie break for the heap exists -/
example : ∃ pick', PopsLeast (α := ℚ) (fun _ => True) pick' ∧ ∀ (line : List (V2 ℚ)) (k fuel : Nat),
    simplifyVw2 pick' fuel (applyLine (fun p => ⟨-2 * p.y + 5, 2 * p.x - 1⟩) line) k =
      (simplifyVw2 (fun _ heap => Verif.Props.leastPos heap) fuel line k).map
        (applyLine (fun p => ⟨-2 * p.y + 5, 2 * p.x - 1⟩)) :=
  C67_vw2_commutes_with_similarities turn_similar _ (Verif.Props.leastPos_pops Verif.Props.exact_total)

end Verif.Props.Similar
