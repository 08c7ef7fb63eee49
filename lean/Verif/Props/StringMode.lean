import Verif.Lemmas.StringMode

/-
Property C89 (see /verif/properties.jsonl): `validate_strings` accepts text and reads it as
`validate_python` in lax mode does, and how it reports what is no text.
-/

namespace PC.StringMode

variable {V : Type}

/-- A toy environment: `"1"` is the int 1, `"d"` is the date 2 and `"m"` the datetime 3 (midnight of
date 2); a str is 0, every other text fails to parse. -/
def toy : Env Nat where
  conv k s := match k with
    | .str => .ok 0
    | .int => if s = "1" then .ok 1 else .error (.other "int_parsing")
    | .date => if s = "d" then .ok 2 else .error (.other "date_parsing")
    | .datetime => if s = "m" then .ok 3 else .error (.other "datetime_parsing")
    | _ => .error (.other "parsing")
  pyOther _ _ _ := .ok 7
  dateOfDatetime _ := .ok 2
  datetimeOfDate _ := 3
  keyRepr _ := .s "?"

/-- `{"a": int, "b": dict[str, date]}`, extra keys allowed. -/
def toySchema : Schema Nat :=
  .model .allow (.cons "a" Option.none (.scalar .int false)
    (.cons "b" Option.none (.dict (.scalar .str true) (.scalar .date false)) .nil))

/-- `{"a": "1", "b": {"k": "m"}, "c": "x"}`. -/
def toyInput : PyT :=
  .dict [(.str "a", .str "1"), (.str "b", .dict [(.str "k", .str "m")]), (.str "c", .str "x")]

theorem toyInput_stringy : Stringy toyInput := by
  have h1 : Stringy (.dict [(.str "k", .str "m")]) := by
    refine .dict _ ?_ ?_ <;> intro kv hm <;> simp only [List.mem_singleton] at hm <;> subst hm
    · exact ⟨_, rfl⟩
    · exact .str _
  refine .dict _ ?_ ?_ <;> intro kv hm <;> simp only [List.mem_cons, List.not_mem_nil, or_false] at hm <;>
    rcases hm with rfl | rfl | rfl
  · exact ⟨_, rfl⟩
  · exact ⟨_, rfl⟩
  · exact ⟨_, rfl⟩
  · exact .str _
  · exact h1
  · exact .str _

/-- **C89** For input made of texts and of dicts with text keys, `validate_strings` in lax mode
gives what `validate_python` in lax mode gives: the same value or the same errors, in the same order
and with the same locations. -/
theorem strings_as_lax_python (E : Env V) (s : Schema V) (x : PyT) (h : Stringy x) :
    validateStrings E s (some false) x = validatePython E s (some false) x := by
  obtain ⟨y, hy, hyx⟩ := newValue_stringy h
  subst hyx
  unfold validateStrings validatePython
  rw [hy]
  exact (run_eq E s y h).symm

example : validateStrings toy toySchema (some false) toyInput = validatePython toy toySchema (some false) toyInput :=
  strings_as_lax_python toy toySchema toyInput toyInput_stringy

example : validateStrings toy toySchema (some false) toyInput =
    .ok (.model [("a", .val 1), ("b", .dict [(.val 0, .val 2)])] [("c", .str "x")]) := rfl

/-- **C89** For a schema without dates and datetimes the strict flag, of the call or of the schema,
changes nothing: `validate_strings` always reads text as lax `validate_python` does. -/
theorem strict_ignored_without_dates (E : Env V) (s : Schema V) (hs : NoDates s) (st : Option Bool)
    (x : PyT) : validateStrings E s st x = validateStrings E s (some false) x := by
  unfold validateStrings
  cases newValue x with
  | error es => rfl
  | ok y => exact run_noDates E st s y hs

example : validateStrings toy (.dict (.scalar .str true) (.scalar .int true)) (some true)
      (.dict [(.str "k", .str "1")]) = .ok (.dict [(.val 0, .val 1)]) ∧
    NoDates (.dict (.scalar .str true) (.scalar .int true) : Schema Nat) ∧
    validatePython toy (.dict (.scalar .str true) (.scalar .int true)) Option.none
      (.dict [(.str "k", .str "1")]) =
        .error [LineError.newWithLoc (.other "int_type") (.str "1") (.s "k")] := by
  refine ⟨rfl, ?_, rfl⟩
  simp [NoDates]

/-- **C89** Whatever the schema, what strict mode accepts lax mode accepts with the same value. -/
theorem strict_accepts_less (E : Env V) (s : Schema V) (st : Option Bool) (x : PyT) (v : Out V)
    (h : validateStrings E s st x = .ok v) : validateStrings E s (some false) x = .ok v := by
  unfold validateStrings at *
  cases hx : newValue x with
  | error es => rw [hx] at h; cases h
  | ok y =>
    rw [hx] at h
    exact run_lax_ok E st s y v h

example : validateStrings toy (.scalar .date true) Option.none (.str "d") = .ok (.val 2) := rfl

/-- **C89** The converse fails for dates: a text that is a datetime and no date is refused by a
strict date schema and may be accepted by a lax one. -/
theorem strict_matters_for_dates (E : Env V) (text : String) (t : ErrType) (dt d : V)
    (h1 : E.conv .date text = .error t) (h2 : E.conv .datetime text = .ok dt)
    (h3 : E.dateOfDatetime dt = .ok d) :
    validateStrings E (.scalar .date false) (some true) (.str text) = .error [LineError.new t (.str text)] ∧
    validateStrings E (.scalar .date false) (some false) (.str text) = .ok (.val d) := by
  constructor <;>
    simp [validateStrings, newValue, run, runScalar, stringOps, h1, h2, h3, StringMapping.toPy]

example : toy.conv .date "m" = .error (.other "date_parsing") ∧ toy.conv .datetime "m" = .ok 3 ∧
    toy.dateOfDatetime 3 = .ok 2 := ⟨rfl, rfl, rfl⟩

/-- **C89** What `validate_strings` accepts is there as text wherever the schema looks. -/
theorem accepted_is_textual (E : Env V) (s : Schema V) (st : Option Bool) (x : PyT) (v : Out V)
    (h : validateStrings E s st x = .ok v) : Textual s x := by
  unfold validateStrings at h
  cases hx : newValue x with
  | error es => rw [hx] at h; cases h
  | ok y =>
    rw [hx] at h
    rw [← newValue_ok hx]
    exact run_textual E st s y v h

/-- **C89** No input at all is accepted by a list schema, not even a list; and `None` is accepted by
no schema, not even a nullable one.  (Lists accept lists and nullable schemas accept `None` in Python mode.) -/
theorem lists_and_none_refused (E : Env V) (s : Schema V) (st : Option Bool) (x : PyT) (v : Out V) :
    validateStrings E (.list s) st x ≠ .ok v ∧ validateStrings E s st .none ≠ .ok v ∧
    validatePython E (.list s) st (.list []) = .ok (.list []) ∧
    validatePython E (.nullable s) st .none = .ok .none := by
  refine ⟨fun h => ?_, fun h => ?_, rfl, rfl⟩
  · have := accepted_is_textual E (.list s) st x v h
    unfold Textual at this
    exact this
  · cases h

/-- **C89** An input that is neither a text nor a dict gives one error. -/
theorem other_input_refused (E : Env V) (s : Schema V) (st : Option Bool) (x : PyT) (hx : ¬ StrOrDict x) :
    validateStrings E s st x = .error [LineError.new (.other "string_type") x] := by
  unfold validateStrings
  rw [newValue_error hx]

example : ¬ StrOrDict (.other 3) := by
  rintro (⟨s, h⟩ | ⟨s, h⟩) <;> cases h

/-- **C89** The value of a field that is neither text nor dict is reported under the name of the
field (extra keys being ignored), and the model is refused. -/
theorem unreadable_field_is_located (E : Env V) (fields : Fields V) (st : Option Bool)
    (items : List (PyT × PyT)) (name : String) (y : PyT) (hf : HasField name fields)
    (hg : dictGet items name = some y) (hy : ¬ StrOrDict y) :
    ∃ es, validateStrings E (.model .ignore fields) st (.dict items) = .error es ∧
      LineError.newWithLoc (.other "string_type") y (.s name) ∈ es := by
  have hm := runFields_bad E st name y hy fields (.mapping items) items hf hg
  refine ⟨_, ?_, hm⟩
  have hd : ∀ b, (stringOps E).dict b (.mapping items) = .ok items := fun _ => rfl
  simp only [validateStrings, newValue, run, hd, if_true]
  rw [if_neg]
  intro he
  rw [List.isEmpty_iff.1 he] at hm
  cases hm

example : validateStrings toy (.model .ignore (.cons "a" Option.none (.scalar .int false)
      (.cons "b" Option.none (.scalar .int false) .nil))) Option.none
      (.dict [(.str "a", .other 3), (.str "b", .str "x")]) =
    .error [LineError.newWithLoc (.other "string_type") (.other 3) (.s "a"),
      LineError.newWithLoc (.other "int_parsing") (.str "x") (.s "b")] := rfl

/-- **C89** But in a dict the first item with a key that is no text, or with a value that is neither
text nor dict, hides every other error and is reported without its location: for no dict schema does
the report tell where the item is. -/
theorem unreadable_item_hides_everything (E : Env V) (key value : Schema V) (st : Option Bool)
    (pre post : List (PyT × PyT)) (a b : PyT)
    (hpre : ∀ kv ∈ pre, (∃ s, kv.1 = .str s) ∧ StrOrDict kv.2) :
    ((¬ ∃ s, a = .str s) → validateStrings E (.dict key value) st (.dict (pre ++ (a, b) :: post)) =
      .error [LineError.new (.other "string_type") a]) ∧
    ((∃ s, a = .str s) → ¬ StrOrDict b →
      validateStrings E (.dict key value) st (.dict (pre ++ (a, b) :: post)) =
        .error [LineError.new (.other "string_type") b]) := by
  have hp : ∀ p ∈ pre.map item, ∃ q, p = .ok q := by
    intro p hm
    obtain ⟨kv, hkv, rfl⟩ := List.mem_map.1 hm
    exact item_good (hpre kv hkv).1 (hpre kv hkv).2
  have main : ∀ es, item (a, b) = .error es →
      validateStrings E (.dict key value) st (.dict (pre ++ (a, b) :: post)) = .error es := by
    intro es he
    show dictLoop (stringOps E) _ _ ((pre ++ (a, b) :: post).map item) [] [] = _
    rw [List.map_append, List.map_cons, he]
    exact dictLoop_bad _ _ _ es _ _ _ _ hp
  constructor
  · intro ha
    exact main _ (item_bad_key ha)
  · rintro ⟨s, rfl⟩ hb
    exact main _ (item_bad_value hb)

example : validateStrings toy (.dict (.scalar .str false) (.scalar .int false)) Option.none
      (.dict [(.str "a", .str "x"), (.str "b", .other 3), (.str "c", .str "y")]) =
    .error [LineError.new (.other "string_type") (.other 3)] := rfl

/-- **C89** Likewise in a model that forbids or keeps extra keys: the first item that cannot be read,
a field or not, hides the errors of all fields. -/
theorem unreadable_extra_hides_everything (E : Env V) (extra : Extra) (hne : extra ≠ .ignore)
    (fields : Fields V) (st : Option Bool) (pre post : List (PyT × PyT)) (a b : PyT)
    (hpre : ∀ kv ∈ pre, (∃ s, kv.1 = .str s) ∧ StrOrDict kv.2) :
    ((¬ ∃ s, a = .str s) → validateStrings E (.model extra fields) st (.dict (pre ++ (a, b) :: post)) =
      .error [LineError.new (.other "string_type") a]) ∧
    ((∃ s, a = .str s) → ¬ StrOrDict b →
      validateStrings E (.model extra fields) st (.dict (pre ++ (a, b) :: post)) =
        .error [LineError.new (.other "string_type") b]) := by
  have hp : ∀ p ∈ pre.map item, ∃ q, p = .ok q := by
    intro p hm
    obtain ⟨kv, hkv, rfl⟩ := List.mem_map.1 hm
    exact item_good (hpre kv hkv).1 (hpre kv hkv).2
  have main : ∀ es, item (a, b) = .error es →
      validateStrings E (.model extra fields) st (.dict (pre ++ (a, b) :: post)) = .error es := by
    intro es he
    have hd : ∀ c d, (stringOps E).dict c (.mapping d) = .ok d := fun _ _ => rfl
    simp only [validateStrings, newValue, run, hd, if_neg hne, items_eq, List.map_append, List.map_cons, he]
    rw [extraLoop_bad _ _ _ es _ _ _ _ hp]
  constructor
  · intro ha
    exact main _ (item_bad_key ha)
  · rintro ⟨s, rfl⟩ hb
    exact main _ (item_bad_value hb)

example : validateStrings toy toySchema Option.none
      (.dict [(.str "a", .str "x"), (.str "c", .other 3)]) =
    .error [LineError.new (.other "string_type") (.other 3)] := rfl

/-- **C89**: a dict where a scalar is asked for is refused with the error of that scalar type, strict or
not. -/
theorem dict_for_scalar_refused (E : Env V) (k : Kind) (own : Bool) (st : Option Bool)
    (items : List (PyT × PyT)) (n : String) (h : WrongType k n) :
    validateStrings E (.scalar k own) st (.dict items) = .error [LineError.new (.other n) (.dict items)] := by
  cases h <;> unfold validateStrings newValue run <;> dsimp only <;>
    cases (st.getD own) <;> rfl

example : validateStrings toy (.scalar .bool true) (some true) (.dict []) =
    .error [LineError.new (.other "bool_type") (.dict [])] := dict_for_scalar_refused _ _ _ _ _ _ .bool

/-- **C89**: a text that reads neither as a date nor as a datetime gets the error of the second reading if
that is a parsing error, under its own name, else that of the first; in strict mode that of the first. -/
theorem unreadable_date (E : Env V) (own : Bool) (st : Option Bool) (s : String) (t t' : ErrType)
    (h : E.conv .date s = .error t) (h' : E.conv .datetime s = .error t') :
    (st.getD own = true → validateStrings E (.scalar .date own) st (.str s) = .error [LineError.new t (.str s)]) ∧
    (st.getD own = false → t' = .other "datetime_parsing" → validateStrings E (.scalar .date own) st (.str s)
      = .error [LineError.new (.other "date_from_datetime_parsing") (.str s)]) ∧
    (st.getD own = false → t' ≠ .other "datetime_parsing" → validateStrings E (.scalar .date own) st (.str s)
      = .error [LineError.new t (.str s)]) ∧
    (st.getD own = true → validateStrings E (.scalar .datetime own) st (.str s) = .error [LineError.new t' (.str s)]) ∧
    (st.getD own = false → t = .other "date_parsing" → validateStrings E (.scalar .datetime own) st (.str s)
      = .error [LineError.new (.other "datetime_from_date_parsing") (.str s)]) ∧
    (st.getD own = false → t ≠ .other "date_parsing" → validateStrings E (.scalar .datetime own) st (.str s)
      = .error [LineError.new t' (.str s)]) := by
  refine ⟨?_, ?_, ?_, ?_, ?_, ?_⟩ <;> intro hs <;> (try intro ht) <;>
    simp_all [validateStrings, newValue, run, runScalar, stringOps, StringMapping.toPy, fromOther]

example : let E : Env Nat := { toy with conv := fun k _ => .error (.other (if k = .date then "date_parsing" else "datetime_parsing")) }
    validateStrings E (.scalar .datetime false) Option.none (.str "x")
      = .error [LineError.new (.other "datetime_from_date_parsing") (.str "x")] :=
  (unreadable_date _ false Option.none "x" _ _ rfl rfl).2.2.2.2.1 rfl rfl

theorem listLoop_exact {I : Type} (f : I → Res V) (xs : List I) (i : Nat) (errors : Errs) (out : List (Out V)) :
    listLoop f xs i errors out =
      if (errors ++ itemErrors f i xs).isEmpty then .ok (.list (out ++ itemValues f xs))
      else .error (errors ++ itemErrors f i xs) := by
  induction xs generalizing i errors out with
  | nil => simp [listLoop, itemErrors, itemValues]
  | cons x rest ih =>
    unfold listLoop itemErrors itemValues
    rw [List.filterMap_cons]
    cases hx : f x with
    | ok v =>
      dsimp only
      have : (Except.ok v : Res V).toOption = some v := rfl
      rw [ih, this]
      simp [itemValues]
    | error es =>
      dsimp only
      have : (Except.error es : Res V).toOption = Option.none := rfl
      rw [ih, this]
      simp [itemValues]

/-- **C89**, the Python side: every item of a list is validated, and the errors carry the index of their
item. -/
theorem python_list_exact (E : Env V) (s : Schema V) (st : Option Bool) (xs : List PyT) :
    validatePython E (.list s) st (.list xs) =
      if (itemErrors (validatePython E s st) 0 xs).isEmpty then .ok (.list (itemValues (validatePython E s st) xs))
      else .error (itemErrors (validatePython E s st) 0 xs) := by
  have : validatePython E (.list s) st (.list xs) = listLoop (validatePython E s st) xs 0 [] [] := rfl
  rw [this, listLoop_exact]
  simp

example : validatePython toy (.list (.scalar .int false)) Option.none (.list [.dict [], .str "1", .dict []]) =
    .error [LineError.newWithLoc (.other "int_type") (.dict []) (.i 0), LineError.newWithLoc (.other "int_type") (.dict []) (.i 2)] := rfl

end PC.StringMode
