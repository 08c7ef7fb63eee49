import Verif.Spec.Cause

/-
Lemmas about the cause of a `ValidationError`.
-/

namespace PC.Cause
open PC.Report (locText locItemText)
open PC.Infer (Text)

theorem dropWhile_append_nl (s : Text) : IntParse.trim (s ++ ['\n']) = IntParse.trim s := by
  unfold IntParse.trim IntParse.trimEnd
  have nl : IntParse.isSpace '\n' = true := by decide
  have key : (s ++ ['\n']).dropWhile IntParse.isSpace =
      if s.dropWhile IntParse.isSpace = [] then [] else s.dropWhile IntParse.isSpace ++ ['\n'] := by
    induction s with
    | nil => rfl
    | cons c s ih =>
      rw [List.cons_append, List.dropWhile_cons, List.dropWhile_cons]
      cases h : IntParse.isSpace c with
      | true => simpa using ih
      | false => simp
  rw [key]
  split
  · rename_i h; rw [h]
  · rw [List.reverse_append]
    show (List.dropWhile IntParse.isSpace ('\n' :: _)).reverse = _
    rw [List.dropWhile_cons, if_pos nl]
    rfl

theorem noteText_eq (l : Location) : noteText l = noteFor (seen l) := by
  cases l with
  | empty => rfl
  | list items =>
    show '\n' :: ("Pydantic: cause of loc: ".toList ++ IntParse.trim (locText (.list items))) = _
    rw [show locText (.list items) = List.intercalate ['.'] (items.reverse.map locItemText) ++ ['\n'] from rfl,
      dropWhile_append_nl]
    rfl

theorem collect_eq (takes : Nat → Bool) : ∀ (ls : List Line) (notes : Notes),
    (collect takes ls notes).1 = (ls.filterMap Line.raised).filter takes ∧
    ∀ e, (collect takes ls notes).2 e = notes e ++
      (ls.filter (fun l => l.raised == some e && takes e)).map (fun l => noteText l.location)
  | [], notes => ⟨rfl, fun e => (List.append_nil _).symm⟩
  | ⟨loc, .other⟩ :: ls, notes => by
    have ih := collect_eq takes ls notes
    exact ⟨ih.1, ih.2⟩
  | ⟨loc, .assertion none⟩ :: ls, notes => by
    have ih := collect_eq takes ls notes
    exact ⟨ih.1, ih.2⟩
  | ⟨loc, .value none⟩ :: ls, notes => by
    have ih := collect_eq takes ls notes
    exact ⟨ih.1, ih.2⟩
  | ⟨loc, .assertion (some e)⟩ :: ls, notes => by
    by_cases ht : takes e = true
    · have ih := collect_eq takes ls (addNote notes e (noteText loc))
      simp only [collect, if_pos ht]
      refine ⟨by rw [ih.1]; simp [Line.raised, ht], fun e' => ?_⟩
      rw [ih.2 e']
      by_cases he : e' = e
      · subst he; simp [addNote, Line.raised, ht]
      · simp [addNote, Line.raised, he, Ne.symm he]
    · have ih := collect_eq takes ls notes
      simp only [collect, if_neg ht]
      refine ⟨by rw [ih.1]; simp [Line.raised, ht], fun e' => ?_⟩
      rw [ih.2 e']
      by_cases he : e' = e
      · subst he; simp [ht]
      · simp [Line.raised, Ne.symm he]
  | ⟨loc, .value (some e)⟩ :: ls, notes => by
    by_cases ht : takes e = true
    · have ih := collect_eq takes ls (addNote notes e (noteText loc))
      simp only [collect, if_pos ht]
      refine ⟨by rw [ih.1]; simp [Line.raised, ht], fun e' => ?_⟩
      rw [ih.2 e']
      by_cases he : e' = e
      · subst he; simp [addNote, Line.raised, ht]
      · simp [addNote, Line.raised, he, Ne.symm he]
    · have ih := collect_eq takes ls notes
      simp only [collect, if_neg ht]
      refine ⟨by rw [ih.1]; simp [Line.raised, ht], fun e' => ?_⟩
      rw [ih.2 e']
      by_cases he : e' = e
      · subst he; simp [ht]
      · simp [Line.raised, Ne.symm he]

theorem fromLines_true (takes outer ls notes) : fromLines takes true outer ls notes =
    let r := maybeAddCause takes (fromLines takes true outer ls notes).1.lines notes
    (⟨(fromLines takes true outer ls notes).1.lines, r.1⟩, r.2) := rfl

theorem maybeAddCause_notes (takes ls notes) : (maybeAddCause takes ls notes).2 = (collect takes ls notes).2 := by
  unfold maybeAddCause
  dsimp only
  split <;> rfl

end PC.Cause
