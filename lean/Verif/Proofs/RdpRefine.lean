import Verif.Proofs.SimplifyCurve
import Verif.Props.Rdp
/-!
# Points inserted into the segments of a line do not matter to Ramer–Douglas–Peucker
-/
namespace Verif.Proofs.RdpRefine
open Verif Verif.Spec Verif.Model

section unique
variable {P α : Type} [LinearOrder α]

/-- the textbook algorithm has one result only -/
theorem keeps_unique {dist : P → P → P → α} {thr : α} {s e : P} {mid k : List P}
    (h : RdpKeeps (fun a b p => thr < dist a b p) (fun a b x y => dist a b x ≤ dist a b y) (fun a b x y => dist a b x < dist a b y) s mid e k) :
    ∀ {k' : List P}, RdpKeeps (fun a b p => thr < dist a b p) (fun a b x y => dist a b x ≤ dist a b y)
      (fun a b x y => dist a b x < dist a b y) s mid e k' → k = k' := by
  induction h with
  | near s mid e h =>
    intro k' h'
    cases h' with
    | near => rfl
    | split _ m1 x m2 _ k1 k2 hfar => exact absurd hfar (h x (by simp))
  | split s m1 x m2 e k1 k2 hfar h1 h2 l r ihl ihr =>
    intro k' h'
    obtain ⟨mid, hm⟩ : ∃ mid, mid = m1 ++ x :: m2 := ⟨_, rfl⟩
    rw [← hm] at h'
    cases h' with
    | near _ _ _ h => exact absurd hfar (h x (by simp [hm]))
    | split _ m1' x' m2' _ k1' k2' hfar' h1' h2' l' r' =>
      have key : m1' = m1 ∧ x' = x ∧ m2' = m2 := by
        rcases List.append_eq_append_iff.1 hm with ⟨as, ha, hb⟩ | ⟨bs, ha, hb⟩
        · cases as with
          | nil => simp_all
          | cons y as =>
            simp only [List.cons_append, List.cons.injEq] at hb
            obtain ⟨rfl, hb⟩ := hb
            have c1 := h1 x' (by simp [ha])
            have c2 := h2' x (by simp [hb])
            exact absurd c2 (not_lt.2 c1)
        · cases bs with
          | nil => simp_all
          | cons y bs =>
            simp only [List.cons_append, List.cons.injEq] at hb
            obtain ⟨rfl, hb⟩ := hb
            have c1 := h1' x (by simp [ha])
            have c2 := h2 x' (by simp [hb])
            exact absurd c2 (not_lt.2 c1)
      obtain ⟨rfl, rfl, rfl⟩ := key
      rw [ihl l', ihr r']

end unique

section lists
variable {P : Type}

/-- a stretch of the coarse line is a stretch of the fine one -/
theorem simp_split {ok : P → P → P → Prop} {x e : P} {m2 : List P} : ∀ (m1 : List P) (s : P) (mid' : List P),
    Simplification ok (s :: (mid' ++ [e])) (s :: (m1 ++ x :: (m2 ++ [e]))) → ∃ m1' m2', mid' = m1' ++ x :: m2' ∧
      Simplification ok (s :: (m1' ++ [x])) (s :: (m1 ++ [x])) ∧ Simplification ok (x :: (m2' ++ [e])) (x :: (m2 ++ [e])) := by
  have rest_form : ∀ {dropped rest mid' : List P} {b : P}, dropped ++ b :: rest = mid' ++ [e] → rest ≠ [] →
      ∃ mid'', rest = mid'' ++ [e] ∧ mid' = dropped ++ b :: mid'' := by
    intro dropped rest mid' b h hne
    obtain ⟨l, z, rfl⟩ : ∃ l z, rest = l ++ [z] := ⟨rest.dropLast, rest.getLast hne, (List.dropLast_append_getLast hne).symm⟩
    have h' : (dropped ++ b :: l) ++ [z] = mid' ++ [e] := by simpa using h
    obtain ⟨h1, h2⟩ := List.append_inj' h' rfl
    cases h2
    exact ⟨l, rfl, h1.symm⟩
  have not_single : ∀ {b c : P} {rest out : List P}, Simplification ok (b :: rest) (b :: c :: out) → rest ≠ [] := by
    intro b c rest out h hr
    cases h with
    | step _ _ dropped rest' _ _ _ => simp at hr
  intro m1
  induction m1 with
  | nil =>
    intro s mid' h
    obtain ⟨full, hfull⟩ : ∃ full, full = s :: (mid' ++ [e]) := ⟨_, rfl⟩
    rw [← hfull] at h
    cases h with
    | step _ _ dropped rest _ hok h =>
      obtain ⟨y, tl, hy⟩ : ∃ y tl, m2 ++ [e] = y :: tl := by cases m2 <;> simp
      simp only [List.cons.injEq, true_and] at hfull
      obtain ⟨mid'', rfl, rfl⟩ := rest_form hfull (by rw [hy] at h; exact not_single h)
      exact ⟨dropped, mid'', rfl, .step s x dropped [] [] hok (.single x), h⟩
  | cons b m1 ih =>
    intro s mid' h
    obtain ⟨full, hfull⟩ : ∃ full, full = s :: (mid' ++ [e]) := ⟨_, rfl⟩
    rw [← hfull] at h
    cases h with
    | step _ _ dropped rest _ hok h =>
      obtain ⟨y, tl, hy⟩ : ∃ y tl, m1 ++ x :: (m2 ++ [e]) = y :: tl := by cases m1 <;> simp
      simp only [List.cons.injEq, true_and] at hfull
      obtain ⟨mid'', rfl, rfl⟩ := rest_form hfull (by
        change Simplification ok (b :: rest) (b :: (m1 ++ x :: (m2 ++ [e]))) at h
        rw [hy] at h
        exact not_single h)
      obtain ⟨m1', m2', rfl, k1, k2⟩ := ih b mid'' h
      refine ⟨dropped ++ b :: m1', m2', by simp, ?_, k2⟩
      have := Simplification.step s b dropped (m1' ++ [x]) (m1 ++ [x]) hok k1
      simpa using this

/-- what is true of the points of the coarse line is true of those of the fine line, if it is for inserted ones -/
theorem simp_all {ok : P → P → P → Prop} {Q : P → Prop} (hQ : ∀ a b p, ok a b p → Q a → Q b → Q p) {l o : List P}
    (h : Simplification ok l o) (ho : ∀ p ∈ o, Q p) : ∀ p ∈ l, Q p := by
  induction h with
  | single a => exact ho
  | step a b dropped rest out hok h ih =>
    have ha := ho a (by simp)
    have hb := ho b (by simp)
    have hr := ih (fun p hp => ho p (List.mem_cons_of_mem _ hp))
    intro p hp
    rcases List.mem_cons.1 hp with rfl | hp
    · exact ha
    rcases List.mem_append.1 hp with hp | hp
    · exact hQ a b p (hok p hp) ha hb
    · exact hr p hp

/-- the same for the points after the first one, if the property of the second point is enough -/
theorem simp_after {ok : P → P → P → Prop} {Q R : P → Prop} (hQ : ∀ a b p, ok a b p → R a → Q b → Q p) (hRQ : ∀ a, Q a → R a) {a : P} {l o : List P}
    (h : Simplification ok (a :: l) (a :: o)) (ha : R a) (ho : ∀ p ∈ o, Q p) : ∀ p ∈ l, Q p := by
  obtain ⟨l', hl⟩ : ∃ l', l' = a :: l := ⟨_, rfl⟩
  obtain ⟨o', hoe⟩ : ∃ o', o' = a :: o := ⟨_, rfl⟩
  rw [← hl, ← hoe] at h
  cases h with
  | single => cases hl; simp
  | step _ b dropped rest out hok h =>
    cases hl
    cases hoe
    have hb := ho b (by simp)
    have hr := simp_all (Q := Q) (fun x y p k h1 h2 => hQ x y p k (hRQ x h1) h2) h ho
    intro p hp
    rcases List.mem_append.1 hp with hp | hp
    · exact hQ _ b p (hok p hp) ha hb
    · exact hr p hp

end lists

section refine
variable {P α : Type} [LinearOrder α]

theorem keeps_fine {dist : P → P → P → α} {thr : α} {on : P → P → P → Prop}
    (hmax : ∀ s e a b p, on a b p → ∀ m, dist s e a ≤ m → dist s e b ≤ m → dist s e p ≤ m)
    (hlt : ∀ s e a b p, on a b p → ∀ m, dist s e a ≤ m → dist s e b < m → dist s e p < m)
    (hs : ∀ s e, dist s e s ≤ thr) (he : ∀ s e, dist s e e ≤ thr) {s e : P} {mid k : List P}
    (h : RdpKeeps (fun a b p => thr < dist a b p) (fun a b x y => dist a b x ≤ dist a b y) (fun a b x y => dist a b x < dist a b y) s mid e k) :
    ∀ mid', Simplification on (s :: (mid' ++ [e])) (s :: (mid ++ [e])) →
      RdpKeeps (fun a b p => thr < dist a b p) (fun a b x y => dist a b x ≤ dist a b y) (fun a b x y => dist a b x < dist a b y) s mid' e k := by
  induction h with
  | near s mid e h =>
    intro mid' hf
    have := simp_all (Q := fun p => dist s e p ≤ thr) (fun a b p k h1 h2 => hmax s e a b p k thr h1 h2) hf (by
      intro p hp
      rcases List.mem_cons.1 hp with rfl | hp
      · exact hs _ _
      rcases List.mem_append.1 hp with hp | hp
      · exact not_lt.1 (h p hp)
      · rw [List.mem_singleton.1 hp]
        exact he _ _)
    exact .near _ _ _ (fun p hp => not_lt.2 (this p (by simp [hp])))
  | split s m1 x m2 e k1 k2 hfar h1 h2 l r ihl ihr =>
    intro mid' hf
    rw [show (m1 ++ x :: m2) ++ [e] = m1 ++ x :: (m2 ++ [e]) by simp] at hf
    obtain ⟨m1', m2', rfl, f1, f2⟩ := simp_split m1 s mid' hf
    refine .split s m1' x m2' e k1 k2 hfar ?_ ?_ (ihl m1' f1) (ihr m2' f2)
    · have := simp_all (Q := fun p => dist s e p ≤ dist s e x) (fun a b p k h1 h2 => hmax s e a b p k _ h1 h2) f1 (by
        intro p hp
        rcases List.mem_cons.1 hp with rfl | hp
        · exact (hs _ _).trans hfar.le
        rcases List.mem_append.1 hp with hp | hp
        · exact h1 p hp
        · rw [List.mem_singleton.1 hp])
      exact fun y hy => this y (by simp [hy])
    · have := simp_after (Q := fun p => dist s e p < dist s e x) (R := fun p => dist s e p ≤ dist s e x)
        (fun a b p k h1 h2 => hlt s e a b p k _ h1 h2) (fun _ h => h.le) f2 (le_refl _) (by
        intro p hp
        rcases List.mem_append.1 hp with hp | hp
        · exact h2 p hp
        · rw [List.mem_singleton.1 hp]
          exact (he _ _).trans_lt hfar)
      exact fun y hy => this y (by simp [hy])

end refine
end Verif.Proofs.RdpRefine
