import Verif.Props.HullUnique
/-!
# Merging two convex loops (`combine_indexed_convex_hull`) in general position
-/
set_option linter.unusedSectionVars false
set_option linter.unusedVariables false
set_option linter.unusedSimpArgs false
namespace Verif.Hull
open Verif Verif.Spec Verif.Model Verif.Props

section
variable {K : Type} [Field K] [LinearOrder K] [IsStrictOrderedRing K]

/-- A vertex of a convex loop whose two neighbours are on or left of a ray through it has the whole
loop on or left of the ray. -/
theorem cone_left {p u v w x : V2 K} (hturn : 0 < orient u v w) (h1 : 0 ≤ orient u v x) (h2 : 0 ≤ orient v w x)
    (hu : 0 ≤ orient p v u) (hw : 0 ≤ orient p v w) : 0 ≤ orient p v x := by
  have e : orient u v w * orient p v x = orient u v x * orient p v w + orient v w x * orient p v u := by
    simp only [orient]; ring
  refine nonneg_of_mul_nonneg_right (a := orient u v w) ?_ hturn
  rw [e]
  positivity

theorem Exposed.trans {P : List (V2 K)} {p a b c : V2 K} (hp : Exposed P p) (ha : a ∈ P) (hap : a ≠ p)
    (hb : b ∈ P) (hbp : b ≠ p) (hc : c ∈ P) (hcp : c ≠ p) (h1 : 0 ≤ orient p a b) (h2 : 0 ≤ orient p b c) :
    0 ≤ orient p a c := by
  obtain ⟨d, hd, hdir⟩ := hp
  have t := ang_trans (hdir a ha hap) (hdir b hb hbp) (hdir c hc hcp) (by rw [turn_orient]; positivity)
    (by rw [turn_orient]; positivity)
  rw [turn_orient, turn_orient, turn_orient] at t
  exact nonneg_of_mul_nonneg_right t.1 hd

/-- `g` is the convex loop, without its closing index, around the points `S` of which no three are on a
line -/
structure Ring (pt : Nat → V2 K) (S g : List Nat) : Prop where
  ne : g ≠ []
  nodup : g.Nodup
  sub : ∀ x ∈ g, x ∈ S
  left : ∀ (k i j : Nat), g[k]? = some i → g[(k + 1) % g.length]? = some j → ∀ x ∈ S, x ≠ i → x ≠ j →
    0 < orient (pt i) (pt j) (pt x)

theorem Ring.get_inj {pt : Nat → V2 K} {S g : List Nat} (h : Ring pt S g) {k l i : Nat} (hk : g[k]? = some i)
    (hl : g[l]? = some i) : k = l := by
  obtain ⟨h1, e1⟩ := List.getElem?_eq_some_iff.1 hk
  obtain ⟨h2, e2⟩ := List.getElem?_eq_some_iff.1 hl
  exact (List.Nodup.getElem_inj_iff h.nodup).1 (e1.trans e2.symm)

theorem Ring.pos {pt : Nat → V2 K} {S g : List Nat} (h : Ring pt S g) : 0 < g.length :=
  List.length_pos_iff.2 h.ne

end

section
variable {K : Type} [Scalar K] [Field K] [LinearOrder K] [ExactScalar K]

/-- what the merge knows about a hull position: it is on the list it says it is -/
def Recorded (a b : List Nat) (e : VertexIndex) : Prop := (if e.fromA then a else b)[e.indexIndex]? = some e.index

/-- the search for the next vertex over the other hull ends at the next vertex `w`, also with the early
exit -/
theorem combineScan_best (vertices : List (V2 K)) (pt : Nat → V2 K) (a b : List Nat) (p : VertexIndex) (w : Nat)
    (own other : List Nat) (hown : own = if p.fromA then a else b) (hother : other = if p.fromA then b else a)
    (So : List Nat) (hring : Ring pt So other)
    (hget : ∀ i ∈ a ++ b, idx vertices i = .ok (pt i))
    (hinj : ∀ i ∈ a ++ b, ∀ j ∈ a ++ b, pt i = pt j → i = j)
    (hgp : ∀ i ∈ a ++ b, ∀ j ∈ a ++ b, ∀ k ∈ a ++ b, i ≠ j → i ≠ k → j ≠ k → orient (pt i) (pt j) (pt k) ≠ 0)
    (hp : p.index ∈ a ++ b) (hexp : Exposed ((a ++ b).map pt) (pt p.index))
    (hw : w ∈ a ++ b) (hbest : Best ((a ++ b).map pt) (pt p.index) (pt w)) :
    ∀ (rest : List Nat) (jj : Nat) (e : VertexIndex) (found : Bool), other.drop jj = rest → Recorded a b e →
      e.index ≠ p.index → (e.index = w ∨ w ∈ rest) →
      (jj = 0 → found = false ∧ (2 ≤ other.length → ∀ o, other[0]? = some o →
        0 ≤ orient (pt p.index) (pt e.index) (pt o))) →
      (∀ (m o : Nat), jj = m + 1 → other[m]? = some o → 0 ≤ orient (pt p.index) (pt e.index) (pt o)) →
      (found = true → other.length = 1 ∨ ∃ (m o : Nat), jj = m + 2 ∧ other[m]? = some o ∧
        other[m + 1]? = some e.index ∧ 0 ≤ orient (pt p.index) (pt e.index) (pt o)) →
      ∃ e', combineScan vertices p rest jj e found = .ok e' ∧ e'.index = w ∧ Recorded a b e' := by
  have hsub : ∀ x ∈ other, x ∈ a ++ b := by
    intro x hx
    rw [hother] at hx
    split at hx
    · exact List.mem_append_right _ hx
    · exact List.mem_append_left _ hx
  have hrec : ∀ e : VertexIndex, Recorded a b e → e.index ∈ a ++ b := by
    intro e he
    have := List.mem_of_getElem? he
    split at this
    · exact List.mem_append_left _ this
    · exact List.mem_append_right _ this
  have npt : ∀ {i j : Nat}, i ∈ a ++ b → j ∈ a ++ b → i ≠ j → pt i ≠ pt j := fun hi hj hne e => hne (hinj _ hi _ hj e)
  have hP : ∀ {i : Nat}, i ∈ a ++ b → pt i ∈ (a ++ b).map pt := fun hi => List.mem_map_of_mem hi
  have hwp : w ≠ p.index := fun e => hbest.ne (by rw [e])
  intro rest
  induction rest with
  | nil =>
    intro jj e found hdrop he hep hwr _ _ _
    rcases hwr with h | h
    · exact ⟨e, rfl, h, he⟩
    · cases h
  | cons j rest ih =>
    intro jj e found hdrop he hep hwr hzero hprev hfound
    have hjj : other[jj]? = some j := by
      have := congrArg List.head? hdrop
      rw [List.head?_drop] at this
      simpa using this
    have hjlt : jj < other.length := (List.getElem?_eq_some_iff.1 hjj).1
    have hdrop' : other.drop (jj + 1) = rest := by
      have := congrArg List.tail hdrop
      simpa using this
    have hjo : j ∈ other := List.mem_of_getElem? hjj
    have hj : j ∈ a ++ b := hsub j hjo
    have heI := hrec e he
    unfold combineScan
    by_cases hskip : (j == p.index || j == e.index) = true
    · rw [if_pos hskip]
      simp only [Bool.or_eq_true, beq_iff_eq] at hskip
      refine ih (jj + 1) e found hdrop' he hep ?_ (by omega) ?_ ?_
      · rcases hwr with h | h
        · exact Or.inl h
        · rcases List.mem_cons.1 h with rfl | h
          · rcases hskip with h | h
            · exact absurd h hwp
            · exact Or.inl h.symm
          · exact Or.inr h
      · intro m o hm ho
        have hm : m = jj := by omega
        subst hm
        rw [hjj] at ho
        simp only [Option.some_inj] at ho
        subst ho
        rcases hskip with h | h
        · rw [h]; exact (orient_self _ _).1.ge
        · rw [h]; exact (orient_self _ _).2.1.ge
      · intro hf
        rcases hfound hf with h | ⟨m, o, h1, h2, h3, h4⟩
        · exact Or.inl h
        · exfalso
          rcases hskip with h | h
          · -- the entry before `p` is the last one to be found
            subst h1
            have l2 : (m + 1 + 1) % other.length = m + 2 := Nat.mod_eq_of_lt (by omega)
            have hoe : o ≠ e.index := by
              rintro rfl
              have := hring.get_inj h2 h3
              omega
            have hoj : o ≠ j := by
              rintro rfl
              have := hring.get_inj h2 hjj
              omega
            have := hring.left (m + 1) e.index j h3 (by rw [l2]; exact hjj) o (hring.sub o (List.mem_of_getElem? h2)) hoe hoj
            rw [h, orient_rot, orient_swap] at this
            linarith
          · rw [h] at hjj
            have := hring.get_inj hjj h3
            omega
    · rw [if_neg hskip]
      simp only [Bool.or_eq_true, beq_iff_eq, not_or] at hskip
      obtain ⟨hjp, hje⟩ := hskip
      rw [hget _ hp, hget _ heI, hget _ hj]
      simp only [bind, Except.bind, pointOrientation_eq]
      have hne0 := hgp p.index hp e.index heI j hj (Ne.symm hep) (Ne.symm hjp) (Ne.symm hje)
      rcases lt_or_gt_of_ne hne0 with h | h
      · -- a better one
        rw [if_neg (not_lt.2 h.le), if_neg h.ne]
        have hswap : 0 ≤ orient (pt p.index) (pt j) (pt e.index) := by rw [orient_swap]; linarith
        have hprev' : ∀ (m o : Nat), jj = m + 1 → other[m]? = some o → 0 ≤ orient (pt p.index) (pt j) (pt o) := by
          intro m o hm ho
          have hoI : o ∈ a ++ b := hsub o (List.mem_of_getElem? ho)
          by_cases hop : o = p.index
          · rw [hop]; exact (orient_self _ _).1.ge
          · exact hexp.trans (hP hj) (npt hj hp hjp) (hP heI) (npt heI hp hep) (hP hoI) (npt hoI hp hop) hswap
              (hprev m o hm ho)
        refine ih (jj + 1) ⟨!p.fromA, j, jj⟩ true hdrop' ?_ hjp ?_ (by omega) ?_ ?_
        · simp only [Recorded]
          rw [hother] at hjj
          cases hpf : p.fromA <;> simpa [hpf] using hjj
        · rcases hwr with h' | h'
          · exfalso
            rw [h'] at h
            exact absurd (hbest.left (pt j) (hP hj)) (not_le.2 h)
          · rcases List.mem_cons.1 h' with rfl | h'
            · exact Or.inl rfl
            · exact Or.inr h'
        · intro m o hm ho
          have hm : m = jj := by omega
          subst hm
          rw [hjj] at ho
          simp only [Option.some_inj] at ho
          subst ho
          exact (orient_self _ _).2.1.ge
        · intro _
          by_cases h1 : other.length = 1
          · exact Or.inl h1
          · right
            rcases jj with _ | m
            · exfalso
              have := (hzero rfl).2 (by omega) j hjj
              exact absurd this (not_le.2 h)
            · obtain ⟨o, ho⟩ : ∃ o, other[m]? = some o := ⟨_, List.getElem?_eq_getElem (by omega)⟩
              exact ⟨m, o, rfl, ho, hjj, hprev' m o rfl ho⟩
      · -- left
        rw [if_pos h]
        have hjw : j ≠ w := by
          rintro rfl
          have h1 := hbest.left (pt e.index) (hP heI)
          rw [orient_swap] at h1
          linarith
        simp only
        cases hf : found with
        | false =>
          simp only [Bool.false_eq_true, if_false]
          refine ih (jj + 1) e false hdrop' he hep ?_ (by omega) ?_ (by simp)
          · rcases hwr with h' | h'
            · exact Or.inl h'
            · rcases List.mem_cons.1 h' with h' | h'
              · exact absurd h'.symm hjw
              · exact Or.inr h'
          · intro m o hm ho
            have hm : m = jj := by omega
            subst hm
            rw [hjj] at ho
            simp only [Option.some_inj] at ho
            subst ho
            exact h.le
        | true =>
          simp only [if_true]
          refine ⟨e, rfl, ?_, he⟩
          rcases hwr with h' | h'
          · exact h'
          by_contra hew
          rcases hfound hf with h1 | ⟨m, o, h1, h2, h3, h4⟩
          · -- the other hull is a single point: nothing has been found before
            rcases jj with _ | m
            · have := (hzero rfl).1
              rw [hf] at this; cases this
            · omega
          · have hwo : w ∈ other := by
              have : w ∈ other.drop jj := by rw [hdrop]; exact h'
              exact List.mem_of_mem_drop this
            have hoO : o ∈ other := List.mem_of_getElem? h2
            have heO : e.index ∈ other := List.mem_of_getElem? h3
            subst h1
            have l1 : (m + 1) % other.length = m + 1 := Nat.mod_eq_of_lt (by omega)
            have l2 : (m + 1 + 1) % other.length = m + 2 := Nat.mod_eq_of_lt (by omega)
            have left1 := hring.left m o e.index h2 (by rw [l1]; exact h3)
            have left2 := hring.left (m + 1) e.index j h3 (by rw [l2]; exact hjj)
            have hjo' : j ≠ o := by
              rintro rfl
              have := hring.get_inj hjj h2
              omega
            have hk : 0 ≤ orient (pt p.index) (pt e.index) (pt w) := by
              refine cone_left (left1 j (hring.sub j hjo) hjo' hje) ?_ ?_ h4 h.le
              · by_cases e1 : w = o
                · rw [e1]; exact (orient_self _ _).1.ge
                · exact (left1 w (hring.sub w hwo) e1 (Ne.symm hew)).le
              · exact (left2 w (hring.sub w hwo) (Ne.symm hew) (Ne.symm hjw)).le
            have hb := hbest.left (pt e.index) (hP heI)
            rw [orient_swap] at hb
            exact hgp p.index hp e.index heI w hw (Ne.symm hep) (Ne.symm hwp) hew (le_antisymm (by linarith) hk)

/-- the two hulls that a merge is given: both start at the start point, or the
first is only the start point and the second one does not start with it -/
def Mergeable (a b : List Nat) (s : Nat) : Prop :=
  (a[0]? = some s ∧ b[0]? = some s ∧ 2 ≤ a.length ∧ 2 ≤ b.length) ∨
  (a = [s] ∧ ∃ o, b[0]? = some o ∧ o ≠ s)

theorem combineNext_best (vertices : List (V2 K)) (pt : Nat → V2 K) (Sa Sb a b : List Nat) (s : Nat)
    (p : VertexIndex) (w : Nat) (ha : Ring pt Sa a) (hb : Ring pt Sb b) (hm : Mergeable a b s)
    (hget : ∀ i ∈ a ++ b, idx vertices i = .ok (pt i))
    (hinj : ∀ i ∈ a ++ b, ∀ j ∈ a ++ b, pt i = pt j → i = j)
    (hgp : ∀ i ∈ a ++ b, ∀ j ∈ a ++ b, ∀ k ∈ a ++ b, i ≠ j → i ≠ k → j ≠ k → orient (pt i) (pt j) (pt k) ≠ 0)
    (hrec : Recorded a b p) (hexp : Exposed ((a ++ b).map pt) (pt p.index))
    (hw : w ∈ a ++ b) (hbest : Best ((a ++ b).map pt) (pt p.index) (pt w)) :
    ∃ e', combineNext vertices a b p = .ok e' ∧ e'.index = w ∧ Recorded a b e' := by
  obtain ⟨own, hown⟩ : ∃ own, own = if p.fromA then a else b := ⟨_, rfl⟩
  obtain ⟨other, hother⟩ : ∃ other, other = if p.fromA then b else a := ⟨_, rfl⟩
  obtain ⟨So, hro⟩ : ∃ So, Ring pt So own := by rw [hown]; split; exacts [⟨_, ha⟩, ⟨_, hb⟩]
  obtain ⟨St, hrt⟩ : ∃ St, Ring pt St other := by rw [hother]; split; exacts [⟨_, hb⟩, ⟨_, ha⟩]
  have hpo : own[p.indexIndex]? = some p.index := by rw [hown]; exact hrec
  have hsubo : ∀ x ∈ own, x ∈ a ++ b := by
    intro x hx
    rw [hown] at hx
    split at hx
    · exact List.mem_append_left _ hx
    · exact List.mem_append_right _ hx
  have hcov : ∀ x ∈ a ++ b, x ∈ own ∨ x ∈ other := by
    intro x hx
    rw [hown, hother]
    rcases List.mem_append.1 hx with h | h <;> split <;> simp [h]
  have hp : p.index ∈ a ++ b := hsubo _ (List.mem_of_getElem? hpo)
  have hwp : w ≠ p.index := fun e => hbest.ne (by rw [e])
  have hplt := (List.getElem?_eq_some_iff.1 hpo).1
  obtain ⟨e0, he0⟩ : ∃ e0, own[(p.indexIndex + 1) % own.length]? = some e0 :=
    ⟨_, List.getElem?_eq_getElem (Nat.mod_lt _ hro.pos)⟩
  unfold combineNext
  rw [← hown, ← hother]
  have hscan := combineScan_best vertices pt a b p w own other hown hother St hrt hget hinj hgp hp hexp hw hbest
    other 0
  by_cases hol : 2 ≤ own.length
  · have hne : e0 ≠ p.index := by
      rintro rfl
      have := hro.get_inj he0 hpo
      by_cases h : p.indexIndex + 1 = own.length
      · rw [h, Nat.mod_self] at this; omega
      · rw [Nat.mod_eq_of_lt (by omega)] at this; omega
    have hrec0 : Recorded a b ⟨p.fromA, e0, (p.indexIndex + 1) % own.length⟩ := by
      simp only [Recorded]
      rw [← hown]; exact he0
    have he0I : e0 ∈ a ++ b := hsubo _ (List.mem_of_getElem? he0)
    obtain ⟨e', g1, g2, g3⟩ := hscan ⟨p.fromA, e0, (p.indexIndex + 1) % own.length⟩ false (by simp) hrec0 hne (by
      rcases hcov w hw with h | h
      · left
        by_contra hc
        simp only at hc
        have h1 := hro.left _ _ _ hpo he0 w (hro.sub w h) hwp (Ne.symm hc)
        have h3 := hbest.left (pt e0) (List.mem_map_of_mem he0I)
        rw [orient_swap] at h3
        linarith
      · exact Or.inr h) (by
      intro _
      refine ⟨rfl, fun h2' o ho => ?_⟩
      simp only
      rcases hm with ⟨h1, h2, h3, h4⟩ | ⟨rfl, h2⟩
      · have hos : o = s := by
          rw [hother] at ho
          split at ho
          · rw [h2] at ho; simpa using ho.symm
          · rw [h1] at ho; simpa using ho.symm
        have hso : s ∈ own := by
          rw [hown]
          split
          · exact List.mem_of_getElem? h1
          · exact List.mem_of_getElem? h2
        rw [hos]
        by_cases e1 : s = p.index
        · rw [e1]; exact (orient_self _ _).1.ge
        · by_cases e2 : s = e0
          · rw [e2]; exact (orient_self _ _).2.1.ge
          · exact (hro.left _ _ _ hpo he0 s (hro.sub s hso) e1 e2).le
      · exfalso
        cases hf : p.fromA
        · rw [hother, hf] at h2'; simp at h2'
        · rw [hown, hf] at hol; simp at hol) (by intro m o h; omega) (by simp)
    refine ⟨e', ?_, g2, g3⟩
    have hidx : idx own ((p.indexIndex + 1) % own.length) = .ok e0 := by simp [idx, he0]
    simp only [combineFirst, bind, Except.bind, hidx]
    rw [if_pos (by simpa using hne)]
    exact g1
  · have h1 : own.length = 1 := by have := hro.pos; omega
    have hownp : own = [p.index] := by
      obtain ⟨x, hx⟩ := List.length_eq_one_iff.1 h1
      rw [hx] at hpo ⊢
      have : p.indexIndex = 0 := by rw [hx] at hplt; simpa using hplt
      rw [this] at hpo
      simpa using hpo
    obtain ⟨o, ho⟩ : ∃ o, other[0]? = some o := ⟨_, List.getElem?_eq_getElem hrt.pos⟩
    have hop : o ≠ p.index := by
      rintro rfl
      rcases hm with ⟨h1', h2', h3, h4⟩ | ⟨rfl, h2'⟩
      · rw [hown] at h1
        split at h1 <;> omega
      · obtain ⟨o', ho', hos⟩ := h2'
        cases hf : p.fromA
        · rw [hother, hf] at ho
          rw [hown, hf] at hownp
          simp at ho hownp
          rw [hownp] at ho'
          simp at ho'
          exact hos (ho'.symm.trans ho.symm)
        · rw [hother, hf] at ho
          rw [hown, hf] at hownp
          simp only [if_true] at ho hownp
          rw [ho] at ho'
          simp at ho' hownp
          exact hos (ho'.symm.trans hownp.symm)
    have hrec0 : Recorded a b ⟨!p.fromA, o, 0⟩ := by
      simp only [Recorded]
      rw [hother] at ho
      cases hf : p.fromA <;> simpa [hf] using ho
    obtain ⟨e', g1, g2, g3⟩ := hscan ⟨!p.fromA, o, 0⟩ false (by simp) hrec0 hop (by
      rcases hcov w hw with h | h
      · rw [hownp] at h
        exact absurd (by simpa using h) hwp
      · exact Or.inr h) (by
      intro _
      refine ⟨rfl, fun _ o' ho' => ?_⟩
      rw [ho] at ho'
      simp only [Option.some_inj] at ho'
      subst ho'
      exact (orient_self _ _).2.1.ge) (by intro m o h; omega) (by simp)
    refine ⟨e', ?_, g2, g3⟩
    have hidx : idx own ((p.indexIndex + 1) % own.length) = .ok p.index := by
      rw [h1, Nat.mod_one, hownp]; rfl
    have hidx2 : idx other 0 = .ok o := by simp [idx, ho]
    simp only [combineFirst, bind, Except.bind, hidx, hidx2]
    rw [if_neg (by simp)]
    exact g1

/-- the merge of two convex loops is the gift wrapping loop around all their vertices -/
theorem combineLoop_hull (vertices : List (V2 K)) (pt : Nat → V2 K) (Sa Sb a b : List Nat) (s : Nat)
    (ha : Ring pt Sa a) (hb : Ring pt Sb b) (hm : Mergeable a b s)
    (hget : ∀ i ∈ a ++ b, idx vertices i = .ok (pt i))
    (hinj : ∀ i ∈ a ++ b, ∀ j ∈ a ++ b, pt i = pt j → i = j)
    (hgp : ∀ i ∈ a ++ b, ∀ j ∈ a ++ b, ∀ k ∈ a ++ b, i ≠ j → i ≠ k → j ≠ k → orient (pt i) (pt j) (pt k) ≠ 0)
    (hlow : ∀ j ∈ a ++ b, pt j = pt s ∨ LexLt (pt s) (pt j)) :
    ∀ (d fuel : Nat) (p : VertexIndex) (st : List Nat), st.length + d = (a ++ b).length → d < fuel → Recorded a b p →
    (∀ x ∈ st, x ∈ a ++ b) →
    ((st = [] ∧ p.index = s) ∨ (∃ c rest, st = c :: rest ∧ Best ((a ++ b).map pt) (pt c) (pt p.index) ∧ p.index ≠ s ∧
      Chain (pt s) (((a ++ b).map pt).filter (fun x => decide (x ≠ pt s))) ((p.index :: st).map pt))) →
    ∃ r, combineLoop vertices a b s fuel p st = .ok r ∧
      IsHullLoop ((a ++ b).map pt) (r.map pt ++ [pt s]) ∧ r.head? = some s ∧ (∀ x ∈ r, x ∈ a ++ b) := by
  have hrecI : ∀ e : VertexIndex, Recorded a b e → e.index ∈ a ++ b := by
    intro e he
    have := List.mem_of_getElem? he
    split at this
    · exact List.mem_append_left _ this
    · exact List.mem_append_right _ this
  have hP : ∀ {i : Nat}, i ∈ a ++ b → pt i ∈ (a ++ b).map pt := fun hi => List.mem_map_of_mem hi
  have hsI : s ∈ a ++ b := by
    rcases hm with ⟨h1, -⟩ | ⟨rfl, -⟩
    · exact List.mem_append_left _ (List.mem_of_getElem? h1)
    · simp
  have hlowP : ∀ x ∈ (a ++ b).map pt, x ≠ pt s → LexLt (pt s) x := by
    intro x hx hne
    obtain ⟨j, hj, rfl⟩ := List.mem_map.1 hx
    exact (hlow j hj).resolve_left hne
  obtain ⟨xs, hxs'⟩ : ∃ xs, xs = ((a ++ b).map pt).filter (fun x => decide (x ≠ pt s)) := ⟨_, rfl⟩
  have hxs : ∀ x, x ∈ xs ↔ x ∈ (a ++ b).map pt ∧ x ≠ pt s := by
    intro x; rw [hxs', List.mem_filter]; simp
  have htwo : ∃ x ∈ a ++ b, x ≠ s := by
    rcases hm with ⟨h1, h2, h3, h4⟩ | ⟨rfl, h2⟩
    · refine ⟨a[1], List.mem_append_left _ (List.getElem_mem _), fun e => ?_⟩
      have : a[1]? = some s := by rw [List.getElem?_eq_getElem (by omega), e]
      have := ha.get_inj this h1
      omega
    · obtain ⟨y, hy, hys⟩ := h2
      exact ⟨y, List.mem_append_right _ (List.mem_of_getElem? hy), hys⟩
  have hother : ∀ p ∈ a ++ b, ∃ x ∈ (a ++ b).map pt, x ≠ pt p := by
    intro p hp
    obtain ⟨x, hx, hxs⟩ := htwo
    by_cases h : p = s
    · exact ⟨pt x, hP hx, fun e => hxs ((hinj x hx p hp e).trans h)⟩
    · exact ⟨pt s, hP hsI, fun e => h (hinj s hsI p hp e).symm⟩
  intro d
  induction d with
  | zero =>
    intro fuel p st hd hf hrec hst hinv
    exfalso
    rcases hinv with ⟨rfl, -⟩ | ⟨c, rest, rfl, hbst, hps, hch⟩
    · have h0 : (a ++ b).length = 0 := by simpa using hd.symm
      have hab : a ++ b = [] := List.length_eq_zero_iff.1 h0
      rw [hab] at hsI
      cases hsI
    · have hnd := List.Nodup.of_map _ hch.nodup
      have hle := (hnd.subperm (l₂ := a ++ b) (by
        intro x hx
        rcases List.mem_cons.1 hx with rfl | hx
        · exact hrecI p hrec
        · exact hst x hx)).length_le
      simp only [List.length_cons] at hle hd
      omega
  | succ d ih =>
    intro fuel p st hd hf hrec hst hinv
    obtain ⟨fuel, rfl⟩ : ∃ m, fuel = m + 1 := ⟨fuel - 1, by omega⟩
    have hp := hrecI p hrec
    have hexp : Exposed ((a ++ b).map pt) (pt p.index) := by
      rcases hinv with ⟨-, e⟩ | ⟨c, rest, -, hb, -⟩
      · rw [e]; exact exposed_lowest hlowP
      · exact hb.exposed
    obtain ⟨w', hbest⟩ := best_exists hexp (hother _ hp)
    obtain ⟨w, hw, rfl⟩ := List.mem_map.1 hbest.mem
    obtain ⟨e, g1, g2, g3⟩ := combineNext_best vertices pt Sa Sb a b s p w ha hb hm hget hinj hgp hrec hexp hw hbest
    rw [combineLoop_next vertices a b s fuel p e st g1]
    by_cases hws : w = s
    · subst hws
      rw [if_pos (by simp [g2])]
      rcases hinv with ⟨rfl, e1⟩ | ⟨c, rest, rfl, hbst, hps, hch⟩
      · exact absurd (by rw [e1]) hbest.ne
      · rw [← hxs'] at hch
        have hdone : ScanDone (pt w) xs (pt p.index) ((c :: rest).map pt) := by
          refine ⟨hch, fun x hx => ?_, fun e => by simp at e⟩
          rw [← orient_rot]
          exact hbest.left x ((hxs x).1 hx).1
        have := hdone.hull (pts := (a ++ b).map pt) (by simp) (hP hw)
          (fun x hx => hlowP x ((hxs x).1 hx).1 ((hxs x).1 hx).2) (by
            intro x
            rw [hxs]
            constructor
            · intro hx
              by_cases e : x = pt w
              · exact Or.inl e
              · exact Or.inr ⟨hx, e⟩
            · rintro (rfl | ⟨hx, -⟩)
              · exact hP hw
              · exact hx)
        have hsubr : ∀ x ∈ p.index :: c :: rest, x ∈ a ++ b := by
          intro x hx
          rcases List.mem_cons.1 hx with rfl | hx
          · exact hp
          · exact hst x hx
        refine ⟨_, rfl, by simpa using this, ?_, fun x hx => hsubr x (List.mem_reverse.1 hx)⟩
        obtain ⟨st', hlast⟩ := hch.last
        have hl : ((p.index :: c :: rest).map pt).getLast? = some (pt w) := by
          rw [hlast, List.getLast?_append]; simp
        rw [List.getLast?_map] at hl
        rw [List.head?_reverse]
        cases hg : (p.index :: c :: rest).getLast? with
        | none => rw [hg] at hl; simp at hl
        | some q =>
          rw [hg] at hl
          simp only [Option.map_some, Option.some_inj] at hl
          rw [hinj q (hsubr q (List.mem_of_getLast? hg)) w hw hl]
    · rw [if_neg (by simpa [g2] using hws)]
      have hws' : pt w ≠ pt s := fun e => hws (hinj _ hw _ hsI e)
      refine ih fuel e (p.index :: st) (by simp only [List.length_cons]; omega) (by omega) g3 ?_
        (Or.inr ⟨p.index, st, rfl, by rw [g2]; exact hbest, by rw [g2]; exact hws, ?_⟩)
      · intro x hx
        rcases List.mem_cons.1 hx with rfl | hx
        · exact hp
        · exact hst x hx
      · rw [g2]
        rcases hinv with ⟨rfl, e1⟩ | ⟨c, rest, rfl, hbst, hps, hch⟩
        · rw [← hxs', e1]
          rw [e1] at hbest
          exact chain_start hlowP hxs hbest
        · rw [← hxs'] at hch ⊢
          exact chain_step hlowP (hP hsI) hxs (a := pt p.index) (b := pt c) (rest := rest.map pt) hch hbst hbest hws'

/-! ## rings and hull loops -/

theorem Ring.single {pt : Nat → V2 K} {S : List Nat} {s : Nat} (h : Ring pt S [s]) : ∀ x ∈ S, x = s := by
  intro x hx
  by_contra hne
  have := h.left 0 s s rfl (by simp) x hx hne hne
  rw [(orient_self _ _).2.2] at this
  exact lt_irrefl _ this

theorem Ring.congr {pt : Nat → V2 K} {S S' g : List Nat} (h : Ring pt S g) (hm : ∀ x, x ∈ S ↔ x ∈ S') : Ring pt S' g :=
  ⟨h.ne, h.nodup, fun x hx => (hm x).1 (h.sub x hx), fun k i j h1 h2 x hx => h.left k i j h1 h2 x ((hm x).2 hx)⟩

/-- no three of the points are on a line, and they are different -/
structure General (pt : Nat → V2 K) (S : List Nat) : Prop where
  inj : ∀ i ∈ S, ∀ j ∈ S, pt i = pt j → i = j
  gp : ∀ i ∈ S, ∀ j ∈ S, ∀ k ∈ S, i ≠ j → i ≠ k → j ≠ k → orient (pt i) (pt j) (pt k) ≠ 0

theorem General.mono {pt : Nat → V2 K} {S S' : List Nat} (h : General pt S) (hs : ∀ x ∈ S', x ∈ S) : General pt S' :=
  ⟨fun i hi j hj => h.inj i (hs i hi) j (hs j hj),
    fun i hi j hj k hk => h.gp i (hs i hi) j (hs j hj) k (hs k hk)⟩

theorem closed_get {g : List Nat} {s : Nat} (hs : g[0]? = some s) (k : Nat) (hk : k < g.length) :
    (g ++ [s])[k]? = g[k]? ∧ (g ++ [s])[k + 1]? = g[(k + 1) % g.length]? := by
  refine ⟨List.getElem?_append_left hk, ?_⟩
  by_cases h : k + 1 = g.length
  · rw [h, Nat.mod_self, hs, List.getElem?_append_right (le_refl _)]
    simp
  · rw [Nat.mod_eq_of_lt (by omega), List.getElem?_append_left (by omega)]

theorem Ring.of_hull {pt : Nat → V2 K} {S g : List Nat} {s : Nat} (hgen : General pt S)
    (hh : IsHullLoop (S.map pt) ((g ++ [s]).map pt)) (hs : g[0]? = some s) (hl : 2 ≤ g.length)
    (hsub : ∀ x ∈ g, x ∈ S) : Ring pt S g := by
  have hnd : g.Nodup := by
    obtain ⟨t, rfl⟩ : ∃ t, g = s :: t := by
      cases g with
      | nil => simp at hl
      | cons a t => simp at hs; exact ⟨t, by rw [hs]⟩
    have h1 := hh.once
    have h2 : (t ++ [s]).Nodup := by
      have : ((s :: t ++ [s]).map pt).tail = (t ++ [s]).map pt := by simp
      rw [this] at h1
      exact List.Nodup.of_map _ h1
    rw [List.nodup_append] at h2
    rw [List.nodup_cons]
    exact ⟨fun hm => h2.2.2 s hm s (by simp) rfl, h2.1⟩
  refine ⟨by rintro rfl; simp at hl, hnd, hsub, ?_⟩
  intro k i j hi hj x hx hxi hxj
  have hk := (List.getElem?_eq_some_iff.1 hi).1
  obtain ⟨c1, c2⟩ := closed_get hs k hk
  have hij : i ≠ j := by
    rintro rfl
    obtain ⟨h1, e1⟩ := List.getElem?_eq_some_iff.1 hi
    obtain ⟨h2, e2⟩ := List.getElem?_eq_some_iff.1 hj
    have := (List.Nodup.getElem_inj_iff hnd).1 (e1.trans e2.symm)
    by_cases h : k + 1 = g.length
    · rw [h, Nat.mod_self] at this; omega
    · rw [Nat.mod_eq_of_lt (by omega)] at this; omega
  have h0 := hh.left k (pt i) (pt j) (by rw [List.getElem?_map, c1, hi]; rfl) (by rw [List.getElem?_map, c2, hj]; rfl)
    (pt x) (List.mem_map_of_mem hx)
  exact lt_of_le_of_ne h0 (Ne.symm (hgen.gp i (hsub i (List.mem_of_getElem? hi)) j (hsub j (List.mem_of_getElem? hj)) x hx hij
    (Ne.symm hxi) (Ne.symm hxj)))

theorem Ring.hull {pt : Nat → V2 K} {S g : List Nat} {s : Nat} (hgen : General pt S) (h : Ring pt S g)
    (hs : g[0]? = some s) (hl : 2 ≤ g.length) : IsHullLoop (S.map pt) ((g ++ [s]).map pt) := by
  have hlen : ((g ++ [s]).map pt).length = g.length + 1 := by simp
  have hsg : s ∈ g := List.mem_of_getElem? hs
  have get : ∀ (k : Nat) (a : V2 K), ((g ++ [s]).map pt)[k]? = some a → ∃ i, (g ++ [s])[k]? = some i ∧ pt i = a := by
    intro k a hk
    rw [List.getElem?_map] at hk
    exact Option.map_eq_some_iff.1 hk
  have edge : ∀ (k : Nat) (a b : V2 K), ((g ++ [s]).map pt)[k]? = some a → ((g ++ [s]).map pt)[k + 1]? = some b →
      ∃ i j, k < g.length ∧ g[k]? = some i ∧ g[(k + 1) % g.length]? = some j ∧ pt i = a ∧ pt j = b := by
    intro k a b hk hk1
    have hlt : k + 1 < g.length + 1 := by rw [← hlen]; exact (List.getElem?_eq_some_iff.1 hk1).1
    obtain ⟨i, hi, e1⟩ := get k a hk
    obtain ⟨j, hj, e2⟩ := get (k + 1) b hk1
    obtain ⟨c1, c2⟩ := closed_get hs k (by omega)
    rw [c1] at hi
    rw [c2] at hj
    exact ⟨i, j, by omega, hi, hj, e1, e2⟩
  refine ⟨by rw [hlen]; omega, ?_, ?_, ?_, ?_, ?_, ?_, ?_⟩
  · rw [List.map_append, List.getLast?_append]
    cases g with
    | nil => simp at hl
    | cons a t => simp at hs; simp [hs]
  · intro v hv
    obtain ⟨i, hi, rfl⟩ := List.mem_map.1 hv
    rcases List.mem_append.1 hi with h' | h'
    · exact List.mem_map_of_mem (h.sub i h')
    · simp at h'; rw [h']; exact List.mem_map_of_mem (h.sub s hsg)
  · cases g with
    | nil => simp at hl
    | cons a t =>
      simp only [List.length_cons, List.getElem?_cons_zero, Option.some_inj] at hs hl
      subst hs
      have hn := h.nodup
      rw [List.nodup_cons] at hn
      have : ((a :: t ++ [a]).map pt).tail = (t ++ [a]).map pt := by simp
      rw [this]
      have hts : ∀ x ∈ t ++ [a], x ∈ S := by
        intro x hx
        apply h.sub
        rcases List.mem_append.1 hx with h' | h'
        · exact List.mem_cons_of_mem _ h'
        · simp at h'; rw [h']; exact List.mem_cons_self
      refine (List.nodup_map_iff_inj_on ?_).2 (fun x hx y hy e => hgen.inj x (hts x hx) y (hts y hy) e)
      rw [List.nodup_append]
      exact ⟨hn.2, by simp, fun x hx y hy e => by simp at hy; rw [e, hy] at hx; exact hn.1 hx⟩
  · intro k a b hk hk1 p hp
    obtain ⟨x, hx, rfl⟩ := List.mem_map.1 hp
    obtain ⟨i, j, -, hi, hj, rfl, rfl⟩ := edge k a b hk hk1
    by_cases e1 : x = i
    · rw [e1]; exact (orient_self _ _).1.ge
    · by_cases e2 : x = j
      · rw [e2]; exact (orient_self _ _).2.1.ge
      · exact (h.left k i j hi hj x hx e1 e2).le
  · intro h3 k a b c hk hk1 hk2
    rw [hlen] at h3
    obtain ⟨i, j, hkl, hi, hj, rfl, rfl⟩ := edge k a b hk hk1
    obtain ⟨j', l, hkl', hj', hl', e, rfl⟩ := edge (k + 1) _ c hk1 hk2
    have hlS := h.sub l (List.mem_of_getElem? hl')
    refine h.left k i j hi hj l hlS ?_ ?_
    · rintro rfl
      have := h.get_inj hl' hi
      by_cases h' : k + 1 + 1 = g.length
      · rw [h', Nat.mod_self] at this; omega
      · rw [Nat.mod_eq_of_lt (by omega)] at this; omega
    · rintro rfl
      have := h.get_inj hl' hj
      rw [Nat.mod_eq_of_lt (show k + 1 < g.length by omega)] at this
      by_cases h' : k + 1 + 1 = g.length
      · rw [h', Nat.mod_self] at this; omega
      · rw [Nat.mod_eq_of_lt (by omega)] at this; omega
  · intro h3 a b c hk hk1 hk2
    rw [hlen] at h3 hk
    obtain ⟨i, hi, rfl⟩ := get _ a hk
    obtain ⟨j, hj, rfl⟩ := get 0 b hk1
    obtain ⟨l, hl', rfl⟩ := get 1 c hk2
    rw [List.getElem?_append_left (by omega)] at hi hj hl'
    refine h.left (g.length + 1 - 2) i j hi ?_ l (h.sub l (List.mem_of_getElem? hl')) ?_ ?_
    · rw [show g.length + 1 - 2 + 1 = g.length by omega, Nat.mod_self]; exact hj
    · rintro rfl
      have := h.get_inj hl' hi
      omega
    · rintro rfl
      have := h.get_inj hl' hj
      omega
  · intro a b c e p hp
    have hlg : g.length = 2 := by
      have := congrArg List.length e
      rw [hlen] at this
      simpa using this
    obtain ⟨u, v, rfl⟩ := List.length_eq_two.1 hlg
    simp at e
    obtain ⟨rfl, rfl, -⟩ := e
    obtain ⟨x, hx, rfl⟩ := List.mem_map.1 hp
    have h1 := h.left 0 u v rfl rfl x hx
    have h2 := h.left 1 v u rfl (by simp) x hx
    have : x = u ∨ x = v := by
      by_contra hc
      push Not at hc
      have h1 := h1 hc.1 hc.2
      have h2 := h2 hc.2 hc.1
      have e : orient (pt v) (pt u) (pt x) = - orient (pt u) (pt v) (pt x) := by simp only [orient]; ring
      linarith
    rcases this with rfl | rfl
    · exact ⟨0, le_refl _, zero_le_one, by simp [lerp2]⟩
    · exact ⟨1, zero_le_one, le_refl _, by simp [lerp2]⟩

/-- what is left of the vertices is left of everything around which they are -/
theorem Ring.half {pt : Nat → V2 K} {S g : List Nat} (hgen : General pt S) (h : Ring pt S g) {P Q : V2 K}
    (hleft : ∀ x ∈ g, 0 ≤ orient P Q (pt x)) : ∀ x ∈ S, 0 ≤ orient P Q (pt x) := by
  intro x hx
  obtain ⟨s, hs⟩ : ∃ s, g[0]? = some s := ⟨_, List.getElem?_eq_getElem h.pos⟩
  by_cases hl : 2 ≤ g.length
  · have hh := h.hull hgen hs hl
    have hg : ∀ v ∈ (g ++ [s]).map pt, 0 ≤ orient P Q v := by
      intro v hv
      obtain ⟨i, hi, rfl⟩ := List.mem_map.1 hv
      rcases List.mem_append.1 hi with h' | h'
      · exact hleft i h'
      · simp at h'; rw [h']; exact hleft s (List.mem_of_getElem? hs)
    obtain ⟨a, ha, b, hb, c, hc, u, v, w, hu, hv, hw, hsum, ex, ey⟩ :=
      C63_points_are_combinations_of_the_vertices hh (pt x) (List.mem_map_of_mem hx)
    have key : orient P Q (pt x) = u * orient P Q a + v * orient P Q b + w * orient P Q c := by
      simp only [orient]
      rw [ex, ey]
      have : w = 1 - u - v := by linarith
      subst this
      ring
    rw [key]
    have := mul_nonneg hu (hg a ha)
    have := mul_nonneg hv (hg b hb)
    have := mul_nonneg hw (hg c hc)
    linarith
  · have h1 : g.length = 1 := by have := h.pos; omega
    obtain ⟨y, rfl⟩ := List.length_eq_one_iff.1 h1
    rw [h.single x hx]
    exact hleft y (by simp)

/-- **the merge**: the result is the convex loop around both sets of points -/
theorem merge_ring (vertices : List (V2 K)) (pt : Nat → V2 K) (Sa Sb a b : List Nat) (s : Nat)
    (ha : Ring pt Sa a) (hb : Ring pt Sb b) (hm : Mergeable a b s)
    (hget : ∀ i ∈ Sa ++ Sb, idx vertices i = .ok (pt i)) (hgen : General pt (Sa ++ Sb))
    (hlow : ∀ j ∈ Sa ++ Sb, pt j = pt s ∨ LexLt (pt s) (pt j)) (fuel : Nat) (hf : a.length + b.length < fuel) :
    ∃ r, combineHulls fuel vertices (.ok a) (.ok b) = .ok r ∧ Ring pt (Sa ++ Sb) r ∧ r[0]? = some s := by
  have hsub : ∀ x ∈ a ++ b, x ∈ Sa ++ Sb := by
    intro x hx
    rcases List.mem_append.1 hx with h | h
    · exact List.mem_append_left _ (ha.sub x h)
    · exact List.mem_append_right _ (hb.sub x h)
  have ha0 : a[0]? = some s := by
    rcases hm with ⟨h1, -⟩ | ⟨rfl, -⟩
    · exact h1
    · rfl
  have hgen' := hgen.mono hsub
  obtain ⟨r, h1, h2, h3, h4⟩ := combineLoop_hull vertices pt Sa Sb a b s ha hb hm (fun i hi => hget i (hsub i hi))
    hgen'.inj hgen'.gp (fun j hj => hlow j (hsub j hj)) (a ++ b).length fuel ⟨true, s, 0⟩ [] (by simp)
    (by simpa using hf) (by simpa [Recorded] using ha0) (by simp) (Or.inl ⟨rfl, rfl⟩)
  have hr0 : r[0]? = some s := by rw [← List.head?_eq_getElem?]; exact h3
  have hrl : 2 ≤ r.length := by
    have := h2.len
    simp only [List.length_append, List.length_map, List.length_cons, List.length_nil] at this
    omega
  have hring : Ring pt (a ++ b) r := Ring.of_hull (s := s) hgen' (by simpa using h2) hr0 hrl h4
  refine ⟨r, ?_, ⟨hring.ne, hring.nodup, fun x hx => hsub x (h4 x hx), ?_⟩, hr0⟩
  · obtain ⟨t, rfl⟩ : ∃ t, a = s :: t := by
      cases a with
      | nil => simp at ha0
      | cons x t => simp at ha0; exact ⟨t, by rw [ha0]⟩
    simp only [combineHulls, bind, Except.bind]
    cases b with
    | nil => exact absurd rfl hb.ne
    | cons y b => exact h1
  · intro k i j hi hj x hx hxi hxj
    have hiM := h4 i (List.mem_of_getElem? hi)
    have hjM := h4 j (List.mem_of_getElem? hj)
    have hij : i ≠ j := by
      rintro rfl
      have hk := (List.getElem?_eq_some_iff.1 hi).1
      have := hring.get_inj hi hj
      by_cases h : k + 1 = r.length
      · rw [h, Nat.mod_self] at this; omega
      · rw [Nat.mod_eq_of_lt (by omega)] at this; omega
    have hv : ∀ y ∈ a ++ b, 0 ≤ orient (pt i) (pt j) (pt y) := by
      intro y hy
      by_cases e1 : y = i
      · rw [e1]; exact (orient_self _ _).1.ge
      · by_cases e2 : y = j
        · rw [e2]; exact (orient_self _ _).2.1.ge
        · exact (hring.left k i j hi hj y hy e1 e2).le
    have h0 : 0 ≤ orient (pt i) (pt j) (pt x) := by
      rcases List.mem_append.1 hx with h | h
      · exact ha.half (hgen.mono (fun y hy => List.mem_append_left _ hy)) (fun y hy => hv y (List.mem_append_left _ hy)) x h
      · exact hb.half (hgen.mono (fun y hy => List.mem_append_right _ hy)) (fun y hy => hv y (List.mem_append_right _ hy)) x h
    exact lt_of_le_of_ne h0 (Ne.symm (hgen.gp i (hsub i hiM) j (hsub j hjM) x hx hij (Ne.symm hxi) (Ne.symm hxj)))

end
end Verif.Hull
