import Verif.Lemmas.Cause

/-
C104: the cause of a `ValidationError`.
-/

namespace PC.Cause
open PC.Infer (Text)

/-- **C104.** The cause of a `ValidationError` is the group of the exceptions its errors were made from, in the order
of the errors, but for those that refuse notes; without any there is no cause. -/
theorem cause_exact (takes : Nat → Bool) (outer : Option LocItem) (ls : List Line) (notes : Notes) :
    (fromLines takes true outer ls notes).1.cause =
      if (ls.filterMap Line.raised).filter takes = [] then none
      else some ((ls.filterMap Line.raised).filter takes) := by
  rw [fromLines_true]
  have hl : ((fromLines takes true outer ls notes).1.lines).filterMap Line.raised = ls.filterMap Line.raised := by
    cases outer with
    | none => rfl
    | some o =>
      show (ls.map _).filterMap Line.raised = _
      rw [List.filterMap_map]
      rfl
  show (maybeAddCause takes _ notes).1 = _
  unfold maybeAddCause
  dsimp only
  rw [(collect_eq takes _ notes).1, hl]
  by_cases h : (ls.filterMap Line.raised).filter takes = []
  · rw [if_pos h, h]; rfl
  · rw [if_neg h]
    have : ((ls.filterMap Line.raised).filter takes).isEmpty = false := by
      cases hx : (ls.filterMap Line.raised).filter takes with
      | nil => exact absurd hx h
      | cons _ _ => rfl
    rw [this]; rfl

example : (fromLines (fun e => e != 3) true none [⟨.empty, .other⟩, ⟨.newSome (.s "a"), .value (some 7)⟩,
    ⟨.newSome (.s "b"), .value (some 3)⟩, ⟨.newSome (.s "c"), .assertion (some 5)⟩] (fun _ => [])).1.cause =
    some [7, 5] := by decide

/-- **C104.** To each of these exceptions one note is added for each error made from it, in the order of the errors;
it names the location of that error. Other exceptions get no note. -/
theorem notes_exact (takes : Nat → Bool) (outer : Option LocItem) (ls : List Line) (notes : Notes) (e : Nat) :
    (fromLines takes true outer ls notes).2 e = notes e ++
      (((fromLines takes true outer ls notes).1.lines).filter (fun l => l.raised == some e && takes e)).map
        (fun l => noteFor (seen l.location)) := by
  rw [fromLines_true]
  show (maybeAddCause takes _ notes).2 e = _
  rw [maybeAddCause_notes, (collect_eq takes _ notes).2 e]
  congr 1
  exact List.map_congr_left (fun l _ => noteText_eq l.location)

example : (fromLines (fun _ => true) true (some (.s "m")) [⟨.newSome (.i 2), .value (some 7)⟩] (fun _ => [])).2 7 =
    ["\nPydantic: cause of loc: m.2".toList] := by decide

/-- **C104.** Nothing is done if the configuration does not ask for causes. -/
theorem cause_off (takes : Nat → Bool) (outer : Option LocItem) (ls : List Line) (notes : Notes) :
    (fromLines takes false outer ls notes).1.cause = none ∧ (fromLines takes false outer ls notes).2 = notes :=
  ⟨rfl, rfl⟩

example : (fromLines (fun _ => true) false none [⟨.empty, .value (some 7)⟩] (fun _ => [])).1.lines.length = 1 := rfl

/-- **C104 fails.** Behind a wrap function an exception gets two notes for one error, the first of which names a
location that is not that of the error. -/
theorem two_notes (f : LocItem) (loc : Location) (e : Nat) (notes : Notes) :
    ∃ v, wrapped (fun _ => true) true f [⟨loc, .value (some e)⟩] notes = v ∧
      v.1.lines = [⟨loc.withOuter f, .value (some e)⟩] ∧ v.1.cause = some [e] ∧
      v.2 e = notes e ++ [noteFor (seen loc), noteFor (seen (loc.withOuter f))] := by
  refine ⟨_, rfl, rfl, rfl, ?_⟩
  unfold wrapped
  dsimp only
  rw [notes_exact, notes_exact]
  simp [fromLines, maybeAddCause, collect, Line.raised]

/-- Validations that fail one after another with the same errors; they share the exceptions if the functions raise
the same objects again. -/
def again (takes : Nat → Bool) (ls : List Line) : Nat → Notes → Notes
  | 0, notes => notes
  | n + 1, notes => (fromLines takes true none ls (again takes ls n notes)).2

/-- **C104 fails.** An exception that a function raises again and again (one object, e.g. a constant of a module)
collects a note for each error: its notes are those of earlier validations too. -/
theorem notes_pile_up (loc : Location) (e n : Nat) :
    again (fun _ => true) [⟨loc, .value (some e)⟩] n (fun _ => []) e = List.replicate n (noteFor (seen loc)) := by
  induction n with
  | zero => rfl
  | succ n ih =>
    show (fromLines _ true none _ _).2 e = _
    rw [notes_exact, ih]
    simp [fromLines, maybeAddCause, collect, Line.raised, List.replicate_succ']

example : again (fun _ => true) [⟨.empty, .value (some 1)⟩] 2 (fun _ => []) 1 =
    ["\nPydantic: cause of loc: root".toList, "\nPydantic: cause of loc: root".toList] := by decide

end PC.Cause
