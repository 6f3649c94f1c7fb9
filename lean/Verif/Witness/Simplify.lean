import Verif.Props.Vw
import Verif.Props.Rdp
import Verif.Props.Similar
import Verif.Props.Nested
import Verif.Props.ReverseMore
import Verif.Props.IndexedRdp
/-!
# The hypotheses of the theorems about simplification are met

Every theorem is applied to concrete lines.
-/
namespace Verif.Witness
open Verif Verif.Spec Verif.Model Verif.Vw Verif.Props

/-- the queue that pops the first least entry, and the one that pops the last of the least entries -/
abbrev firstLeast : Nat → List (ℚ × Nat) → Nat := fun _ heap => leastPos heap
theorem firstLeast_pops : PopsLeast (fun _ => True) firstLeast := leastPos_pops exact_total
theorem vwOpen_open : ∀ a b, vwOpen.head? = some a → vwOpen.getLast? = some b → V2.beq a b = false := by
  intro a b h1 h2; simp [vwOpen] at h1 h2; subst h1 h2; decide +kernel
theorem vwClosed_closed : ∃ a b, vwClosed.head? = some a ∧ vwClosed.getLast? = some b ∧ V2.beq a b = true :=
  ⟨⟨0, 0⟩, ⟨0, 0⟩, rfl, rfl, by decide +kernel⟩
/-- a line in space -/
def space : List (V3 ℚ) := [⟨0, 0, 0⟩, ⟨1, 0, 0⟩, ⟨2, 0, 5⟩, ⟨3, 3, 3⟩, ⟨4, 3, 3⟩]

example := C12_vw2_subsequence exact_total firstLeast firstLeast_pops vwOpen 2 100 (fun _ _ _ _ _ _ => trivial) (by decide)
example := C12_vw2_subsequence exact_total firstLeast firstLeast_pops vwClosed 3 100 (fun _ _ _ _ _ _ => trivial) (by decide)
example := C12_vw2_open_keeps_last exact_total firstLeast firstLeast_pops vwOpen 2 100 vwOpen_open (fun _ _ _ _ _ _ => trivial) (by decide)
example := C12_vw2_short firstLeast (vwOpen.take 2) 1 100 (by decide)
example := C13_vw2_open_length exact_total firstLeast firstLeast_pops vwOpen (by decide) 2 100 vwOpen_open (fun _ _ _ _ _ _ => trivial) (by decide)
example := C13_vw2_closed_length exact_total firstLeast firstLeast_pops vwClosed (by decide) 2 100 vwClosed_closed (fun _ _ _ _ _ _ => trivial) (by decide)
example := C14_vw2_open_greedy exact_total firstLeast firstLeast_pops vwOpen (by decide) 2 100 vwOpen_open (fun _ _ _ _ _ _ => trivial) (by decide)
example := C14_vw2_closed_greedy exact_total firstLeast firstLeast_pops vwClosed (by decide) 2 100 vwClosed_closed (fun _ _ _ _ _ _ => trivial) (by decide)
example := C14_vw3_greedy exact_total firstLeast firstLeast_pops space (by decide) 2 100 (fun _ _ _ _ _ _ => trivial) (by decide)
example := C15_vw3 exact_total firstLeast firstLeast_pops space (by decide) 2 100 (fun _ _ _ _ _ _ => trivial) (by decide)
example := C15_vw3_short firstLeast (space.take 2) 1 100 (by decide)

section rdp
open Verif.Props.Rdp
example := C08_rdp2_error_bound stageLine 2 (by simp [stageLine])
example := C09_rdp3_error_bound space 2 (by simp [space])
example := C10_rdp2_idempotent stageLine [⟨0, 0⟩, ⟨2, -3⟩, ⟨5, 9⟩, ⟨8, 8⟩, ⟨9, 0⟩] 2 (by decide +kernel)
example := C10_rdp3_idempotent space [⟨0, 0, 0⟩, ⟨2, 0, 5⟩, ⟨4, 3, 3⟩] 3 (by decide +kernel)
example := C11_indexed2_agrees stageLine [5, 3, 1, 1, 0] 1 [⟨9, 0⟩, ⟨5, 9⟩, ⟨1, 1⟩, ⟨1, 1⟩, ⟨0, 0⟩] (by decide) (by decide) (by simp [stageLine])
example := C11_indexed3_agrees space [4, 2, 1, 0] 1 [⟨4, 3, 3⟩, ⟨2, 0, 5⟩, ⟨1, 0, 0⟩, ⟨0, 0, 0⟩] (by decide) (by decide) (by simp [space])
example := C11_small_table (stageLine.take 2) [0, 1, 0, 1] 5 (by decide)
example := C11_small_table3 (space.take 2) [0, 1, 0, 1] 5 (by decide)
example := C11_excluded_cases stageLine 3 1 (by decide)
example := C11_excluded_cases3 space 3 1 (by decide)
end rdp

section similar
open Verif.Props.Similar
theorem turn3 : IsSimilarity3 (3 : ℚ) (fun p => ⟨-3 * p.y, 3 * p.x, 3 * p.z + 1⟩) :=
  ⟨by norm_num, fun p q => by unfold sqDist3; ring⟩
example := C67_rdp2_commutes_with_similarities turn_similar stageLine 2
example := C67_rdp3_commutes_with_similarities turn3 space 2
example := C67_vw3_commutes_with_similarities turn3 firstLeast firstLeast_pops
example := C67_affine_is_similarity (⟨some (⟨0, 0⟩, ⟨1, 2⟩)⟩ : Aabb2 ℚ) ⟨some (⟨10, 10⟩, ⟨12, 14⟩)⟩
  ⟨⟨-1 / 2, -1⟩, ⟨1, 1⟩, ⟨11, 12⟩⟩ (by decide +kernel)
end similar

example := C90_vw2_nested firstLeast 100 stageLine [⟨0, 0⟩, ⟨2, -3⟩, ⟨5, 9⟩, ⟨8, 8⟩, ⟨9, 0⟩] [⟨0, 0⟩, ⟨2, -3⟩, ⟨5, 9⟩, ⟨9, 0⟩] 1 2
  (by decide) (by decide +kernel) (by decide +kernel)
example := C90_rdp2_stages stageLine [⟨0, 0⟩, ⟨2, -3⟩, ⟨5, 9⟩, ⟨8, 8⟩, ⟨9, 0⟩] [⟨0, 0⟩, ⟨2, -3⟩, ⟨5, 9⟩, ⟨9, 0⟩] 2 (-3)
  (by norm_num) (by decide +kernel) (by decide +kernel)
example := (C90_indexed_nested (2 : ℚ) 3 (by norm_num) [0, 1, 2, 3, 4, 5] [0, 2, 3, 4, 5] [0, 2, 3, 5]).1 stageLine
  (by decide) (by decide +kernel) (by decide +kernel)

section reverse
open Verif.Props.Reverse
example := C97_rdp2_reverse [⟨0, 0⟩, ⟨1, 1⟩, ⟨2, 3⟩, ⟨3, 0⟩] (1 / 10) C97_rdp_example
theorem vwR_ties : NoEqualAreas triangleArea2 (fun a b : ℚ => Scalar.le a b = true) [⟨0, 0⟩, ⟨1, 5⟩, ⟨2, 3⟩, ⟨7, 4⟩, ⟨20, 1⟩] := by
  refine ⟨C97_vw_example.1, fun a b c a' b' c' h1 h2 l1 l2 => C97_vw_example.2 a b c a' b' c' h1 h2 ?_ ?_⟩
  · have := (OrderedScalar.le_iff _ _).1 l1
    rw [C14_area2, C14_area2] at this
    exact sq_le_sq.1 (by nlinarith)
  · have := (OrderedScalar.le_iff _ _).1 l2
    rw [C14_area2, C14_area2] at this
    exact sq_le_sq.1 (by nlinarith)
theorem vwR_open : ∀ a b, [(⟨0, 0⟩ : V2 ℚ), ⟨1, 5⟩, ⟨2, 3⟩, ⟨7, 4⟩, ⟨20, 1⟩].head? = some a →
    [(⟨0, 0⟩ : V2 ℚ), ⟨1, 5⟩, ⟨2, 3⟩, ⟨7, 4⟩, ⟨20, 1⟩].getLast? = some b → a ≠ b := by
  intro a b h1 h2; simp at h1 h2; subst h1 h2; decide +kernel
example := C97_vw2_any_queue exact_total firstLeast firstLeast firstLeast_pops firstLeast_pops _ 1 21 100
  (fun a b h1 h2 => by simp at h1 h2; subst h1 h2; decide +kernel) (fun _ _ _ _ _ _ => trivial) (by decide) (by decide) vwR_ties
example := C97_vw2_reverse firstLeast firstLeast firstLeast_pops firstLeast_pops _ 1 100 100 vwR_open (by decide) (by decide) C97_vw_example
theorem vwR_ties3 : NoEqualAreas triangleArea3 (fun a b : ℚ => Scalar.le a b = true) [(⟨0, 0, 0⟩ : V3 ℚ), ⟨1, 1, 0⟩, ⟨2, 3, 1⟩, ⟨3, 0, 5⟩] :=
  ⟨C97_vw3_example.1, fun a b c a' b' c' h1 h2 l1 l2 => C97_vw3_example.2 a b c a' b' c' h1 h2
    ((OrderedScalar.le_iff _ _).1 l1) ((OrderedScalar.le_iff _ _).1 l2)⟩
example := C97_vw3_any_queue exact_total firstLeast firstLeast firstLeast_pops firstLeast_pops _ 1 21 100
  (fun _ _ _ _ _ _ => trivial) (by decide) (by decide) vwR_ties3
example := C97_vw3_reverse firstLeast firstLeast firstLeast_pops firstLeast_pops _ (by decide) 1 100 100 (by decide) (by decide) C97_vw3_example
/-- without ties in space -/
theorem tie3 : ∀ a x y b v, [a, x, y, b].Sublist [(⟨0, 0, 0⟩ : V3 ℚ), ⟨1, 1, 0⟩, ⟨2, 3, 1⟩, ⟨3, 0, 5⟩] →
    IsMinSqDist sqDist3 x (OnLine3 a b) v → IsMinSqDist sqDist3 y (OnLine3 a b) v → v ≤ (1 / 10) ^ 2 := by
  intro a x y b v hs h1 h2
  have he := hs.eq_of_length (by rfl)
  simp only [List.cons.injEq, and_true] at he
  obtain ⟨rfl, rfl, rfl, rfl⟩ := he
  have e1 := min_unique h1 (Dist.C17_dist3_safe_is_min _ _ _)
  have e2 := min_unique h2 (Dist.C17_dist3_safe_is_min _ _ _)
  rw [e1] at e2
  exact absurd e2 (by decide +kernel)
example := C97_rdp3_reverse [⟨0, 0, 0⟩, ⟨1, 1, 0⟩, ⟨2, 3, 1⟩, ⟨3, 0, 5⟩] (1 / 10) tie3
/-- a table of four vertices and the indices of a line of three points -/
example := C97_indexed_rdp2_reverse [(⟨0, 0⟩ : V2 ℚ), ⟨1, 1⟩, ⟨2, 3⟩, ⟨3, 0⟩] [3, 1, 0] 1
  (fun i => ([⟨0, 0⟩, ⟨1, 1⟩, ⟨2, 3⟩, ⟨3, 0⟩] : List (V2 ℚ)).getD i ⟨0, 0⟩) (by decide +kernel) (by decide) (by decide)
  (fun a x y b v hs => absurd hs.length_le (by simp))
example := C97_indexed_rdp2_reverse [(⟨0, 0⟩ : V2 ℚ), ⟨1, 1⟩, ⟨2, 3⟩, ⟨3, 0⟩] [0, 1, 2, 3] (1 / 10)
  (fun i => ([⟨0, 0⟩, ⟨1, 1⟩, ⟨2, 3⟩, ⟨3, 0⟩] : List (V2 ℚ)).getD i ⟨0, 0⟩) (by decide +kernel) (by decide) (by decide)
  (fun a x y b v hs h1 h2 => C97_rdp_example _ _ _ _ v (hs.map (fun i => ([⟨0, 0⟩, ⟨1, 1⟩, ⟨2, 3⟩, ⟨3, 0⟩] : List (V2 ℚ)).getD i ⟨0, 0⟩)) h1 h2)
example := C97_indexed_rdp3_reverse [(⟨0, 0, 0⟩ : V3 ℚ), ⟨1, 1, 0⟩, ⟨2, 3, 1⟩, ⟨3, 0, 5⟩] [0, 1, 2, 3] (1 / 10)
  (fun i => ([⟨0, 0, 0⟩, ⟨1, 1, 0⟩, ⟨2, 3, 1⟩, ⟨3, 0, 5⟩] : List (V3 ℚ)).getD i ⟨0, 0, 0⟩) (by decide +kernel) (by decide) (by decide)
  (fun a x y b v hs h1 h2 => tie3 _ _ _ _ v (hs.map (fun i => ([⟨0, 0, 0⟩, ⟨1, 1, 0⟩, ⟨2, 3, 1⟩, ⟨3, 0, 5⟩] : List (V3 ℚ)).getD i ⟨0, 0, 0⟩)) h1 h2)
end reverse
section refine
open Verif.Props.Rdp Verif.Props.Reverse
example := C105_rdp2_inserted_points _ _ 2 C105_example.1
theorem fine3 : Simplification Inside3 [(⟨0, 0, 0⟩ : V3 ℚ), ⟨3, 3, 0⟩, ⟨1, 1, 0⟩, ⟨4, 4, 0⟩, ⟨0, 4, 5⟩] [⟨0, 0, 0⟩, ⟨4, 4, 0⟩, ⟨0, 4, 5⟩] := by
  refine Simplification.step (⟨0, 0, 0⟩ : V3 ℚ) ⟨4, 4, 0⟩ [⟨3, 3, 0⟩, ⟨1, 1, 0⟩] [⟨0, 4, 5⟩] [⟨0, 4, 5⟩] ?_
    (Simplification.step (⟨4, 4, 0⟩ : V3 ℚ) ⟨0, 4, 5⟩ [] [] [] (by simp) (.single _))
  intro p hp
  simp only [List.mem_cons, List.not_mem_nil, or_false] at hp
  rcases hp with rfl | rfl
  · exact ⟨3 / 4, by norm_num, by norm_num, by unfold lerp3; norm_num⟩
  · exact ⟨1 / 4, by norm_num, by norm_num, by unfold lerp3; norm_num⟩
example := C105_rdp3_inserted_points _ _ 2 fine3
def pick2 (i : Nat) : V2 ℚ := ([⟨0, 0⟩, ⟨3, 0⟩, ⟨1, 0⟩, ⟨4, 0⟩, ⟨0, 4⟩] : List (V2 ℚ)).getD i ⟨0, 0⟩
theorem fineI : Simplification (fun i j k => Inside2 (pick2 i) (pick2 j) (pick2 k)) [0, 1, 2, 3, 4] [0, 3, 4] := by
  refine Simplification.step 0 3 [1, 2] [4] [4] ?_ (Simplification.step 3 4 [] [] [] (by simp) (.single _))
  intro p hp
  simp only [List.mem_cons, List.not_mem_nil, or_false] at hp
  rcases hp with rfl | rfl
  · exact ⟨3 / 4, by norm_num, by norm_num, by unfold lerp2 pick2; norm_num⟩
  · exact ⟨1 / 4, by norm_num, by norm_num, by unfold lerp2 pick2; norm_num⟩
example := C105_indexed_rdp2_inserted_points [⟨0, 0⟩, ⟨3, 0⟩, ⟨1, 0⟩, ⟨4, 0⟩, ⟨0, 4⟩] [0, 1, 2, 3, 4] [0, 3, 4] 1 pick2 (by decide +kernel)
  (by decide) (by decide) fineI
def pick3 (i : Nat) : V3 ℚ := ([⟨0, 0, 0⟩, ⟨3, 3, 0⟩, ⟨1, 1, 0⟩, ⟨4, 4, 0⟩, ⟨0, 4, 5⟩] : List (V3 ℚ)).getD i ⟨0, 0, 0⟩
theorem fineI3 : Simplification (fun i j k => Inside3 (pick3 i) (pick3 j) (pick3 k)) [0, 1, 2, 3, 4] [0, 3, 4] := by
  refine Simplification.step 0 3 [1, 2] [4] [4] ?_ (Simplification.step 3 4 [] [] [] (by simp) (.single _))
  intro p hp
  simp only [List.mem_cons, List.not_mem_nil, or_false] at hp
  rcases hp with rfl | rfl
  · exact ⟨3 / 4, by norm_num, by norm_num, by unfold lerp3 pick3; norm_num⟩
  · exact ⟨1 / 4, by norm_num, by norm_num, by unfold lerp3 pick3; norm_num⟩
example := C105_indexed_rdp3_inserted_points [⟨0, 0, 0⟩, ⟨3, 3, 0⟩, ⟨1, 1, 0⟩, ⟨4, 4, 0⟩, ⟨0, 4, 5⟩] [0, 1, 2, 3, 4] [0, 3, 4] 1 pick3
  (by decide +kernel) (by decide) (by decide) fineI3
end refine

end Verif.Witness
