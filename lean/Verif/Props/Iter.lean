import Verif.Model.Iter
import Verif.Props.Intersect
/-!
# C25: the length reported by `window_iter`, and its adapters
-/
namespace Verif.Props
open Verif Verif.Model

/-- `window_iter().len()` is the number of segments the iterator yields, at every point of the iteration. -/
theorem C25_exact_len {A : Type} (rest : List A) : windowExactLen rest = (windows2 rest).length := by
  unfold windowExactLen windowLen
  rw [Intersect.windows2_length]
  split <;> omega

/-- `window_iter().take(n).len()` panics for every line string and every `n > 0`, because the iterator promises an exact
size but has no `size_hint`. -/
theorem C25_take_len_panics {A : Type} (line : List A) (n : Nat) (h : n ≠ 0) :
    providedLen (takeSizeHint n (windowSizeHint line)) = none := by
  unfold takeSizeHint windowSizeHint providedLen
  rw [if_neg h, if_neg]
  intro e
  simp only [Nat.zero_min] at e
  exact h (Option.some.inj e)

/-- The size hints themselves are sound: they bracket the number of segments that are yielded, with and without `take(n)`. -/
theorem C25_size_hints_are_sound {A : Type} (line : List A) (n : Nat) :
    (windowSizeHint line).1 ≤ (windows2 line).length ∧ (∀ u, (windowSizeHint line).2 = some u → (windows2 line).length ≤ u) ∧
    (∀ h : Nat × Option Nat, h.1 ≤ (windows2 line).length → (∀ u, h.2 = some u → (windows2 line).length ≤ u) →
      (takeSizeHint n h).1 ≤ ((windows2 line).take n).length ∧
      ∀ u, (takeSizeHint n h).2 = some u → ((windows2 line).take n).length ≤ u) := by
  refine ⟨Nat.zero_le _, by simp [windowSizeHint], ?_⟩
  intro h h1 h2
  rw [List.length_take]
  unfold takeSizeHint
  by_cases hn : n = 0
  · rw [if_pos hn]
    subst hn
    simp
  · rw [if_neg hn]
    refine ⟨?_, ?_⟩
    · change min h.1 n ≤ _
      omega
    · intro u hu
      cases e : h.2 with
      | none =>
        rw [e] at hu
        cases hu
        omega
      | some x =>
        rw [e] at hu
        have := h2 x e
        by_cases hx : x < n
        · simp only [if_pos hx, Option.some.injEq] at hu
          omega
        · simp only [if_neg hx, Option.some.injEq] at hu
          omega

end Verif.Props
