import Verif.Model.Obj
import Verif.Spec.Instances
import Mathlib.Data.List.Sort
/-!
# C52: `save_to_obj_file`
-/
set_option linter.unusedSectionVars false
set_option linter.unusedVariables false
namespace Verif.Props
open Verif Verif.Model
variable {α : Type}

/-! ## Specification -/

/-- a well formed obj file for the segments `segs`: the name, then one vertex record per distinct text
of an end point, numbered from 1, then one line record per segment, in order, naming the vertices
with the texts of its end points -/
def ObjFileFor (fmt : V3 α → String) (name : String) (segs : List (Line3 α)) (file : List ObjRec) : Prop :=
  ∃ (texts : List String) (refs : List (Nat × Nat)),
    file = [.obj name] ++ (texts.zipIdx 1).map (fun e => .vert e.1 e.2) ++ refs.map (fun r => .line r.1 r.2) ∧
    texts.Nodup ∧
    (∀ t, t ∈ texts ↔ ∃ g ∈ segs, t = fmt g.start ∨ t = fmt g.end) ∧
    List.Forall₂ (fun (r : Nat × Nat) (g : Line3 α) =>
      1 ≤ r.1 ∧ 1 ≤ r.2 ∧ texts[r.1 - 1]? = some (fmt g.start) ∧ texts[r.2 - 1]? = some (fmt g.end)) refs segs

/-- `sorted` is a possible result of sorting the entries of the map by their value -/
def SortOf (m sorted : ObjMap) : Prop := sorted.Perm m ∧ sorted.Pairwise (fun a b => a.2 ≤ b.2)

/-! ## Proofs -/

/-- texts in the order of their first occurrence -/
def internText (ts : List String) (k : String) : List String := if k ∈ ts then ts else ts ++ [k]

theorem get_zipIdx (ts : List String) (k : String) (n : Nat) :
    ObjMap.get (ts.zipIdx n) k = if k ∈ ts then some (ts.idxOf k + n) else none := by
  induction ts generalizing n with
  | nil => rfl
  | cons t ts ih =>
    simp only [ObjMap.get, List.zipIdx_cons, List.find?_cons] at *
    by_cases h : t = k
    · subst h; simp
    · have h' : (t == k) = false := by simpa using h
      rw [h']
      simp only
      rw [ih]
      simp only [List.mem_cons, Ne.symm h, false_or, List.idxOf_cons, h', cond_false]
      split_ifs
      · congr 1; omega
      · rfl

theorem intern_zipIdx (ts : List String) (k : String) :
    ObjMap.intern (ts.zipIdx) k = (internText ts k).zipIdx := by
  unfold ObjMap.intern internText
  rw [get_zipIdx]
  split_ifs
  · rfl
  · simp [List.zipIdx_append]

/-- the texts after a list of segments -/
def textsOf (fmt : V3 α → String) (ts : List String) (segs : List (Line3 α)) : List String :=
  segs.foldl (fun ts g => internText (internText ts (fmt g.start)) (fmt g.end)) ts

theorem pointSet_inner (fmt : V3 α → String) : ∀ (segs : List (Line3 α)) (ts : List String),
    segs.foldl (fun m j => ObjMap.addLine fmt m j) ts.zipIdx = (textsOf fmt ts segs).zipIdx := by
  intro segs
  induction segs with
  | nil => intro ts; rfl
  | cons g segs ih =>
    intro ts
    simp only [List.foldl_cons, textsOf, ObjMap.addLine, intern_zipIdx]
    exact ih _

theorem pointSet_outer (fmt : V3 α → String) : ∀ (lines : List (List (Line3 α))) (ts : List String),
    lines.foldl (fun m i => i.foldl (fun m j => ObjMap.addLine fmt m j) m) ts.zipIdx =
      (textsOf fmt ts lines.flatten).zipIdx := by
  intro lines
  induction lines with
  | nil => intro ts; rfl
  | cons i lines ih =>
    intro ts
    simp only [List.foldl_cons, List.flatten_cons]
    rw [pointSet_inner, ih]
    simp [textsOf]

theorem objPointSet_eq (fmt : V3 α → String) (lines : List (List (Line3 α))) :
    objPointSet fmt lines = (textsOf fmt [] lines.flatten).zipIdx := pointSet_outer fmt lines []

theorem mem_internText (ts : List String) (k t : String) : t ∈ internText ts k ↔ t ∈ ts ∨ t = k := by
  unfold internText
  split_ifs with h
  · constructor
    · exact Or.inl
    · rintro (h' | rfl)
      · exact h'
      · exact h
  · simp

theorem nodup_internText (ts : List String) (k : String) (h : ts.Nodup) : (internText ts k).Nodup := by
  unfold internText
  split_ifs with h'
  · exact h
  · exact List.nodup_append.2 ⟨h, by simp, by rintro a ha b hb rfl; simp at hb; exact h' (hb ▸ ha)⟩

theorem textsOf_spec (fmt : V3 α → String) : ∀ (segs : List (Line3 α)) (ts : List String), ts.Nodup →
    (textsOf fmt ts segs).Nodup ∧ ∀ t, t ∈ textsOf fmt ts segs ↔
      t ∈ ts ∨ ∃ g ∈ segs, t = fmt g.start ∨ t = fmt g.end := by
  intro segs
  induction segs with
  | nil => intro ts h; exact ⟨h, by simp [textsOf]⟩
  | cons g segs ih =>
    intro ts h
    have := ih _ (nodup_internText (internText ts (fmt g.start)) (fmt g.end) (nodup_internText _ _ h))
    refine ⟨this.1, fun t => ?_⟩
    rw [show textsOf fmt ts (g :: segs) = textsOf fmt (internText (internText ts (fmt g.start)) (fmt g.end)) segs from rfl,
      this.2, mem_internText, mem_internText]
    simp only [List.mem_cons, exists_eq_or_imp, or_assoc]

theorem sorted_unique (ts : List String) (sorted : ObjMap) (h : SortOf ts.zipIdx sorted) :
    sorted = ts.zipIdx := by
  have hnd : ∀ (n : Nat) (ts : List String), (ts.zipIdx n).Pairwise (fun a b => a.2 < b.2) := by
    intro n ts
    induction ts generalizing n with
    | nil => simp
    | cons t ts ih =>
      rw [List.zipIdx_cons, List.pairwise_cons]
      refine ⟨fun a ha => ?_, ih _⟩
      have := List.le_snd_of_mem_zipIdx ha
      show n < a.2
      omega
  have hd := hnd 0 ts
  refine h.1.eq_of_pairwise (le := fun a b => a.2 ≤ b.2) ?_ h.2 (hd.imp Nat.le_of_lt)
  intro a b ha hb h1 h2
  have e : a.2 = b.2 := Nat.le_antisymm h1 h2
  have ha' := h.1.subset ha
  have hg := List.mk_mem_zipIdx_iff_getElem?.1 (show (a.1, a.2) ∈ ts.zipIdx from ha')
  have hg' := List.mk_mem_zipIdx_iff_getElem?.1 (show (b.1, b.2) ∈ ts.zipIdx from hb)
  rw [e, hg'] at hg
  exact Prod.ext (Option.some.inj hg).symm e

/-- writing a list of records -/
def writeAll (limit : Option Nat) (rs : List ObjRec) (s : ObjState) : ObjState :=
  rs.foldl (fun s r => s.write limit r) s

theorem vert_fold (limit : Option Nat) (l : ObjMap) (s : ObjState) :
    l.foldl (fun s kv => s.write limit (.vert kv.1 (kv.2 + 1))) s =
      writeAll limit (l.map (fun kv => .vert kv.1 (kv.2 + 1))) s := by
  rw [writeAll, List.foldl_map]

/-- the record written for a segment -/
def lineRec (fmt : V3 α → String) (ts : List String) (g : Line3 α) : ObjRec :=
  .line (ts.idxOf (fmt g.start) + 1) (ts.idxOf (fmt g.end) + 1)

theorem line_fold (fmt : V3 α → String) (ts : List String) (limit : Option Nat) :
    ∀ (segs : List (Line3 α)) (s : ObjState), (∀ g ∈ segs, fmt g.start ∈ ts ∧ fmt g.end ∈ ts) →
    segs.foldl (fun s j => s.writeLine fmt ts.zipIdx limit j) s =
      writeAll limit (segs.map (lineRec fmt ts)) s := by
  intro segs
  induction segs with
  | nil => intros; rfl
  | cons g segs ih =>
    intro s h
    simp only [List.foldl_cons, List.map_cons, writeAll]
    rw [ih _ (fun x hx => h x (List.mem_cons_of_mem _ hx))]
    have : s.writeLine fmt ts.zipIdx limit g = s.write limit (lineRec fmt ts g) := by
      unfold ObjState.writeLine
      rw [get_zipIdx, get_zipIdx, if_pos (h g List.mem_cons_self).1, if_pos (h g List.mem_cons_self).2]
      unfold ObjState.write
      cases s.err <;> rfl
    rw [this]; rfl

theorem fold_flatten {σ : Type} (f : σ → Line3 α → σ) : ∀ (lines : List (List (Line3 α))) (s : σ),
    lines.foldl (fun s i => i.foldl f s) s = lines.flatten.foldl f s := by
  intro lines
  induction lines with
  | nil => intro s; rfl
  | cons i lines ih => intro s; simp [ih]

theorem saveToObj_eq (fmt : V3 α → String) (name : String) (lines : List (List (Line3 α)))
    (sorted : ObjMap) (limit : Option Nat) (h : SortOf (objPointSet fmt lines) sorted) :
    saveToObj fmt name lines sorted limit = writeAll limit ([.obj name] ++
      ((textsOf fmt [] lines.flatten).zipIdx 1).map (fun e => .vert e.1 e.2) ++
      lines.flatten.map (lineRec fmt (textsOf fmt [] lines.flatten))) ⟨[], none⟩ := by
  rw [objPointSet_eq] at h
  have e := sorted_unique _ _ h
  unfold saveToObj
  simp only [objPointSet_eq]
  rw [fold_flatten, vert_fold, line_fold, e]
  · simp only [writeAll, List.foldl_append]
    congr 1
    · congr 1
      rw [List.zipIdx_succ, List.map_map]
      rfl
  · intro g hg
    have := (textsOf_spec fmt lines.flatten [] List.nodup_nil).2
    exact ⟨(this _).2 (Or.inr ⟨g, hg, Or.inl rfl⟩), (this _).2 (Or.inr ⟨g, hg, Or.inr rfl⟩)⟩

theorem complete_ok (fmt : V3 α → String) (name : String) (segs : List (Line3 α)) :
    ObjFileFor fmt name segs ([.obj name] ++
      ((textsOf fmt [] segs).zipIdx 1).map (fun e => .vert e.1 e.2) ++
      segs.map (lineRec fmt (textsOf fmt [] segs))) := by
  obtain ⟨hn, hm⟩ := textsOf_spec fmt segs [] List.nodup_nil
  refine ⟨textsOf fmt [] segs, segs.map (fun g => ((textsOf fmt [] segs).idxOf (fmt g.start) + 1,
    (textsOf fmt [] segs).idxOf (fmt g.end) + 1)), ?_, hn, fun t => by simpa using hm t, ?_⟩
  · rw [List.map_map]; rfl
  · rw [List.forall₂_map_left_iff, List.forall₂_same]
    intro g hg
    have h1 : fmt g.start ∈ textsOf fmt [] segs := (hm _).2 (Or.inr ⟨g, hg, Or.inl rfl⟩)
    have h2 : fmt g.end ∈ textsOf fmt [] segs := (hm _).2 (Or.inr ⟨g, hg, Or.inr rfl⟩)
    refine ⟨by simp, by simp, ?_, ?_⟩
    · simp only [Nat.add_sub_cancel]; exact List.getElem?_idxOf h1
    · simp only [Nat.add_sub_cancel]; exact List.getElem?_idxOf h2

theorem writeAll_none : ∀ (rs : List ObjRec) (f : List ObjRec),
    writeAll none rs ⟨f, none⟩ = ⟨f ++ rs, none⟩ := by
  intro rs
  induction rs with
  | nil => intro f; simp [writeAll]
  | cons r rs ih =>
    intro f
    rw [show writeAll none (r :: rs) ⟨f, none⟩ = writeAll none rs ⟨f ++ [r], none⟩ from rfl, ih]
    simp

theorem writeAll_err (limit : Option Nat) (e : ObjErr) : ∀ (rs : List ObjRec) (f : List ObjRec),
    writeAll limit rs ⟨f, some e⟩ = ⟨f, some e⟩ := by
  intro rs
  induction rs with
  | nil => intro f; rfl
  | cons r rs ih => intro f; exact ih f

theorem writeAll_some (n : Nat) : ∀ (rs : List ObjRec) (f : List ObjRec), f.length ≤ n →
    writeAll (some n) rs ⟨f, none⟩ = if f.length + rs.length ≤ n then ⟨f ++ rs, none⟩
      else ⟨(f ++ rs).take n, some .io⟩ := by
  intro rs
  induction rs with
  | nil => intro f hf; simp [writeAll, hf]
  | cons r rs ih =>
    intro f hf
    by_cases h : f.length < n
    · rw [show writeAll (some n) (r :: rs) ⟨f, none⟩ =
        writeAll (some n) rs (if f.length < n then ⟨f ++ [r], none⟩ else ⟨f, some .io⟩) from rfl,
        if_pos h, ih _ (by simp; omega)]
      simp only [List.length_append, List.length_cons, List.length_nil, List.append_assoc, List.cons_append,
        List.nil_append]
      have : (f.length + (0 + 1) + rs.length ≤ n) ↔ (f.length + (rs.length + 1) ≤ n) := by omega
      simp only [this]
    · rw [show writeAll (some n) (r :: rs) ⟨f, none⟩ =
        writeAll (some n) rs (if f.length < n then ⟨f ++ [r], none⟩ else ⟨f, some .io⟩) from rfl,
        if_neg h, writeAll_err, if_neg (by simp; omega)]
      have : f.length = n := by omega
      subst this
      simp

/-! ## The property -/

/-- **C52**.  Without I/O errors `save_to_obj_file` succeeds, whatever the iteration order of the
hash map and of the unstable sort, and writes a consistent file: each distinct vertex text once,
numbered from 1 in the order of the file, and for each segment, in order, one line record that names the
vertices with the texts of its two end points. -/
theorem C52_file (fmt : V3 α → String) (name : String) (lines : List (List (Line3 α))) (sorted : ObjMap)
    (h : SortOf (objPointSet fmt lines) sorted) :
    (saveToObj fmt name lines sorted none).err = none ∧
    ObjFileFor fmt name lines.flatten (saveToObj fmt name lines sorted none).file := by
  rw [saveToObj_eq fmt name lines sorted none h, writeAll_none, List.nil_append]
  exact ⟨rfl, complete_ok fmt name _⟩

/-- **C52** (failures).  If the writer fails at any record, the function reports the I/O error and the
file contains the first records of the consistent file; success is only reported for the complete
file; the internal error "HashMap can't find the key" never occurs. -/
theorem C52_fault (fmt : V3 α → String) (name : String) (lines : List (List (Line3 α))) (sorted : ObjMap)
    (limit : Option Nat) (h : SortOf (objPointSet fmt lines) sorted) :
    ∃ full, ObjFileFor fmt name lines.flatten full ∧
      (saveToObj fmt name lines sorted limit).file <+: full ∧
      (saveToObj fmt name lines sorted limit).err ≠ some .internal ∧
      ((saveToObj fmt name lines sorted limit).err = none →
        (saveToObj fmt name lines sorted limit).file = full) := by
  refine ⟨_, complete_ok fmt name _, ?_⟩
  rw [saveToObj_eq fmt name lines sorted limit h]
  generalize hf : ([.obj name] ++
      ((textsOf fmt [] lines.flatten).zipIdx 1).map (fun e => ObjRec.vert e.1 e.2) ++
      lines.flatten.map (lineRec fmt (textsOf fmt [] lines.flatten))) = full
  cases limit with
  | none => rw [writeAll_none]; simp
  | some n =>
    rw [writeAll_some n full [] (by simp)]
    split_ifs
    · simp
    · simpa using List.take_prefix n full

/-- the sort exists: the hypothesis of C52 can always be met -/
theorem SortOf_exists (fmt : V3 α → String) (lines : List (List (Line3 α))) :
    ∃ sorted, SortOf (objPointSet fmt lines) sorted :=
  ⟨(objPointSet fmt lines).mergeSort (fun a b => decide (a.2 ≤ b.2)), List.mergeSort_perm _ _, by
    have := List.pairwise_mergeSort (le := fun (a b : String × Nat) => decide (a.2 ≤ b.2))
      (by simp only [decide_eq_true_eq]; intro a b c; exact Nat.le_trans)
      (by simp only [Bool.or_eq_true, decide_eq_true_eq]; intro a b; exact Nat.le_total _ _)
      (objPointSet fmt lines)
    simpa using this⟩

/-- two connected segments sharing a vertex: three vertex records and two line records, for an
iteration order of the map that is not the order of insertion -/
example : ((saveToObj (α := ℚ) (fun v => toString v.x.num) "a"
      [[⟨⟨0, 0, 0⟩, ⟨1, 0, 0⟩⟩], [⟨⟨1, 0, 0⟩, ⟨2, 0, 0⟩⟩]]
      [("0", 0), ("1", 1), ("2", 2)] none).file) =
    [.obj "a", .vert "0" 1, .vert "1" 2, .vert "2" 3, .line 1 2, .line 2 3] := by decide +kernel

end Verif.Props
