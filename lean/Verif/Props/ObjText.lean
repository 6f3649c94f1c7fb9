import Verif.Props.Obj
import Std.Data.String.ToNat
/-!
# The text of the OBJ file can be read back

A small reader of OBJ text, and the proof that it recovers the records from the text `save_to_obj_file`
writes.
-/
namespace Verif.Props
open Verif Verif.Model

/-! ### a reader (specification) -/

/-- a decimal number -/
def readNat (s : List Char) : Option Nat :=
  if s ≠ [] ∧ s.all Char.isDigit then some (s.foldl (fun n c => 10 * n + (c.toNat - '0'.toNat)) 0) else none

/-- the part before the first `c` and the part after it -/
def cut (c : Char) : List Char → Option (List Char × List Char)
  | [] => none
  | d :: s => if d = c then some ([], s) else (cut c s).map (fun r => (d :: r.1, r.2))

/-- one line of an OBJ file: `o name`, `l n m`, or `v ... #n` -/
def readRec (s : List Char) : Option ObjRec :=
  match s with
  | 'o' :: ' ' :: name => some (.obj (String.ofList name))
  | 'l' :: ' ' :: rest => do
    let (a, b) ← cut ' ' rest
    let a ← readNat a
    let b ← readNat b
    some (.line a b)
  | 'v' :: ' ' :: rest => do
    let (t, n) ← cut '#' rest
    let n ← readNat n
    if t.getLast? = some ' ' then some (.vert (String.ofList ('v' :: ' ' :: t.dropLast)) n) else none
  | _ => none

/-- the lines of a text in which every line ends with a line feed -/
def splitLines : List Char → List (List Char)
  | [] => []
  | '\n' :: s => [] :: splitLines s
  | c :: s =>
    match splitLines s with
    | [] => [[c]]
    | l :: ls => (c :: l) :: ls

/-- the text of the file: every record is written with `writeln!` -/
def fileText (rs : List ObjRec) : List Char := rs.flatMap (fun r => r.render.toList ++ ['\n'])

/-- what is needed to read a record back: names without line feed; vertex texts that start with `v` and contain
neither line feed nor `#` (as `format!("v {:+e} {:+e} {:+e}", ..)` does) -/
def Readable : ObjRec → Prop
  | .obj name => '\n' ∉ name.toList
  | .vert text _ => (∃ t, text.toList = 'v' :: ' ' :: t) ∧ '\n' ∉ text.toList ∧ '#' ∉ text.toList
  | .line _ _ => True

/-! ### proofs -/

theorem cut_append (c : Char) (a b : List Char) (h : c ∉ a) : cut c (a ++ c :: b) = some (a, b) := by
  induction a with
  | nil => simp [cut]
  | cons d a ih =>
    have h1 : d ≠ c := fun e => h (e ▸ List.mem_cons_self)
    have h2 : c ∉ a := fun e => h (List.mem_cons_of_mem _ e)
    simp [cut, h1, ih h2]

theorem digit_ne {c : Char} {n : Nat} (h : c ∈ Nat.toDigits 10 n) : c.isDigit = true :=
  Nat.isDigit_of_mem_toDigits (by omega) (by omega) h

theorem readNat_toDigits (n : Nat) : readNat (Nat.toDigits 10 n) = some n := by
  unfold readNat
  rw [if_pos ⟨Nat.toDigits_ne_nil, by simp only [List.all_eq_true]; exact fun c hc => digit_ne hc⟩]
  have : Nat.ofDigitChars 10 (Nat.toDigits 10 n) 0 = n := Nat.ofDigitChars_ten_toDigits
  simpa [Nat.ofDigitChars] using this

theorem toList_toString (n : Nat) : (toString n).toList = Nat.toDigits 10 n := by
  show (Nat.repr n).toList = _
  exact Nat.toList_repr

theorem readRec_render (r : ObjRec) (h : Readable r) : readRec r.render.toList = some r := by
  cases r with
  | obj name => simp [ObjRec.render, readRec]
  | line a b =>
    have hs : ' ' ∉ Nat.toDigits 10 a := fun h => absurd (digit_ne h) (by decide)
    simp only [ObjRec.render, String.toList_append, toList_toString]
    have e : "l ".toList ++ Nat.toDigits 10 a ++ " ".toList ++ Nat.toDigits 10 b =
      'l' :: ' ' :: (Nat.toDigits 10 a ++ ' ' :: Nat.toDigits 10 b) := by simp
    rw [e]
    simp only [readRec, cut_append _ _ _ hs, readNat_toDigits, bind, Option.bind]
  | vert text n =>
    obtain ⟨⟨t, ht⟩, hn, hh⟩ := h
    simp only [ObjRec.render, String.toList_append, toList_toString, ht]
    have hh' : '#' ∉ t ++ [' '] := by
      rw [ht] at hh
      simp only [List.mem_cons, not_or] at hh
      simp [hh.2.2]
    have e : 'v' :: ' ' :: t ++ " #".toList ++ Nat.toDigits 10 n = 'v' :: ' ' :: ((t ++ [' ']) ++ '#' :: Nat.toDigits 10 n) := by simp
    rw [e]
    simp only [readRec, cut_append _ _ _ hh', readNat_toDigits, bind, Option.bind]
    rw [if_pos (by simp), List.dropLast_concat, ← ht, String.ofList_toList]

theorem splitLines_cons (c : Char) (s : List Char) (h : c ≠ '\n') : splitLines (c :: s) =
    match splitLines s with
    | [] => [[c]]
    | l :: ls => (c :: l) :: ls := by
  rw [splitLines]
  simpa using h

theorem splitLines_append (a s : List Char) (h : '\n' ∉ a) : splitLines (a ++ '\n' :: s) = a :: splitLines s := by
  induction a with
  | nil => rw [List.nil_append, splitLines]
  | cons c a ih =>
    have h1 : c ≠ '\n' := fun e => h (e ▸ List.mem_cons_self)
    rw [List.cons_append, splitLines_cons c _ h1, ih (fun e => h (List.mem_cons_of_mem _ e))]

theorem render_no_newline (r : ObjRec) (h : Readable r) : '\n' ∉ r.render.toList := by
  have nd : ∀ n, '\n' ∉ Nat.toDigits 10 n := fun n h => absurd (digit_ne h) (by decide)
  cases r with
  | obj name =>
    have h : '\n' ∉ name.toList := h
    simp [ObjRec.render, h]
  | line a b => simp [ObjRec.render, nd]
  | vert text n => simp [ObjRec.render, nd, h.2.1]

/-- **C52** (text).  The text of the file can be read back: it splits into the lines of the records, and every
line is read as the record it was written for. -/
theorem C52_text_can_be_read_back (rs : List ObjRec) (h : ∀ r ∈ rs, Readable r) :
    (splitLines (fileText rs)).map readRec = rs.map some := by
  induction rs with
  | nil => rfl
  | cons r rs ih =>
    have hr := h r List.mem_cons_self
    have e : fileText (r :: rs) = r.render.toList ++ '\n' :: fileText rs := by simp [fileText]
    rw [e, splitLines_append _ _ (render_no_newline r hr), List.map_cons, List.map_cons, readRec_render r hr,
      ih (fun r' hr' => h r' (List.mem_cons_of_mem _ hr'))]

/-- C52 (text): if the name has no line feed and the vertex texts look like `v ...`, the text `save_to_obj_file`
writes is read back as a well formed file for the segments. -/
theorem C52_saved_text_is_well_formed {α : Type} (fmt : V3 α → String) (name : String) (lines : List (List (Line3 α)))
    (sorted : ObjMap) (h : SortOf (objPointSet fmt lines) sorted) (hname : '\n' ∉ name.toList)
    (hfmt : ∀ v, (∃ t, (fmt v).toList = 'v' :: ' ' :: t) ∧ '\n' ∉ (fmt v).toList ∧ '#' ∉ (fmt v).toList) :
    ∃ rs, (splitLines (fileText (saveToObj fmt name lines sorted none).file)).map readRec = rs.map some ∧
      ObjFileFor fmt name lines.flatten rs := by
  obtain ⟨-, h2⟩ := C52_file fmt name lines sorted h
  refine ⟨_, C52_text_can_be_read_back _ ?_, h2⟩
  obtain ⟨texts, refs, e, -, ht, -⟩ := h2
  rw [e]
  intro r hr
  simp only [List.cons_append, List.nil_append, List.mem_cons, List.mem_append, List.mem_map] at hr
  rcases hr with rfl | ⟨t, htt, rfl⟩ | ⟨q, -, rfl⟩
  · exact hname
  · have hm : t.1 ∈ texts := by
      have := List.mem_zipIdx htt
      rw [this.2.2]
      exact List.getElem_mem _
    obtain ⟨g, -, hg | hg⟩ := (ht t.1).1 hm
    · show (∃ t', t.1.toList = 'v' :: ' ' :: t') ∧ _
      rw [hg]; exact hfmt _
    · show (∃ t', t.1.toList = 'v' :: ' ' :: t') ∧ _
      rw [hg]; exact hfmt _
  · exact trivial

/-- the hypotheses can be met, and the reader works -/
example : Readable (.vert "v +1e0 -2e0 +3e-1" 12) ∧ Readable (.obj "my object") ∧
    (splitLines (fileText [.obj "x y", .vert "v +1e0 -2e0 +3e-1" 12, .line 12 305])).map readRec =
      [some (.obj "x y"), some (.vert "v +1e0 -2e0 +3e-1" 12), some (.line 12 305)] := by
  have r1 : Readable (.vert "v +1e0 -2e0 +3e-1" 12) := ⟨⟨"+1e0 -2e0 +3e-1".toList, by decide⟩, by decide, by decide⟩
  have r2 : Readable (.obj "my object") := by show '\n' ∉ "my object".toList; decide
  have r3 : Readable (.obj "x y") := by show '\n' ∉ "x y".toList; decide
  refine ⟨r1, r2, C52_text_can_be_read_back _ ?_⟩
  intro r hr
  simp only [List.mem_cons, List.not_mem_nil, or_false] at hr
  rcases hr with rfl | rfl | rfl
  · exact r3
  · exact r1
  · exact trivial

end Verif.Props
