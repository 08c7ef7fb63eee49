import Verif.Lemmas.SerTyped
import Verif.Props.SerExact

/-
Serialisers of dates, times, durations, URLs, decimals, literals, enums and dataclasses, and of schemas that have no
serialiser of their own.
-/

namespace PC.Infer
open PC.Float (F64)
open PC.Filter (FVal Filt)

variable {α : Type}

/-! ### C90: typed scalars -/

/-- C90. A date, time, datetime or URL is written as its text by `to_json`, by `to_python(mode='json')` and as key of a
dict, the same text each time; `to_python` in mode `python` gives the very object. There are no warnings. If the text
cannot be made, each way to JSON raises that error. -/
theorem text_same_everywhere {E : Env α} {k : TextKind} {a : α} {t : Except SErr Text} (h : E.asText k a = some t)
    (bottom : Recs α) (n : Nat) (x : Extra α) (incl excl : Option FVal) (st : St) :
    toJson E bottom n (.leaf (.text k)) x a incl excl st = (t.map .str, st)
      ∧ (x.mode = .json →
          toPython E bottom n (.leaf (.text k)) x a incl excl st = (t.map fun t => .str (.utf8 t), st))
      ∧ (x.mode = .python → toPython E bottom n (.leaf (.text k)) x a incl excl st = (.ok (.same a), st))
      ∧ keyOf E (.leaf (.text k)) x a st = (t, st) := by
  refine ⟨?_, fun hm => ?_, fun hm => ?_, ?_⟩
  · cases t <;> simp [toJson, build, leafSer, textJson, h, Except.map]
  · cases t <;> simp [toPython, build, leafSer, textPy, h, hm, Except.map]
  · simp [toPython, build, leafSer, textPy, h, hm]
  · simp [keyOf, keyWith, leafKey, h]

/-- C90. A duration is written by `to_json` and by `to_python(mode='json')` as its ISO 8601 text or the number of its
seconds, as the configuration of the field says; as key of a dict as that text, or the number's. -/
theorem duration_same_everywhere {E : Env α} {a : α} {iso : Text} {seconds : F64}
    (h : E.asTimedelta a = some (.ok iso, .ok seconds)) (bottom : Recs α) (n : Nat) (x : Extra α)
    (incl excl : Option FVal) (st : St) :
    toJson E bottom n (.leaf (.timedelta .iso8601)) x a incl excl st = (.ok (.str iso), st)
      ∧ toJson E bottom n (.leaf (.timedelta .float)) x a incl excl st = (.ok (.float seconds), st)
      ∧ (x.mode = .json →
          toPython E bottom n (.leaf (.timedelta .iso8601)) x a incl excl st = (.ok (.str (.utf8 iso)), st)
            ∧ toPython E bottom n (.leaf (.timedelta .float)) x a incl excl st = (.ok (.float seconds), st))
      ∧ keyOf E (.leaf (.timedelta .iso8601)) x a st = (.ok iso, st)
      ∧ keyOf E (.leaf (.timedelta .float)) x a st = (.ok (E.world.showF64 seconds), st) := by
  refine ⟨?_, ?_, fun hm => ⟨?_, ?_⟩, ?_, ?_⟩
  · simp [toJson, build, leafSer, timedeltaSer, h, timedeltaJson]
  · simp [toJson, build, leafSer, timedeltaSer, h, timedeltaJson]
  · simp [toPython, build, leafSer, timedeltaSer, h, hm, timedeltaPy]
  · simp [toPython, build, leafSer, timedeltaSer, h, hm, timedeltaPy]
  · simp [keyOf, keyWith, leafKey, h, timedeltaKey]
  · simp [keyOf, keyWith, leafKey, h, timedeltaKey]

/-- C90. A member of an enum is written as its value is, by the serialiser of the values' type or by inference; in mode
`python` it stays what it is. -/
theorem enum_written_as_value {E : Env α} {cls : Nat} {a v : α} (h : E.isEnum cls a = true) (hv : E.enumValue a = .ok v)
    (bottom : Recs α) (n : Nat) (x : Extra α) (incl excl : Option FVal) :
    (toJson E bottom n (.leaf (.enum cls)) x a incl excl = toJson E bottom n .any x v incl excl
      ∧ (x.mode = .json →
          toPython E bottom n (.leaf (.enum cls)) x a incl excl = toPython E bottom n .any x v incl excl)
      ∧ (x.mode = .python → ∀ st, toPython E bottom n (.leaf (.enum cls)) x a incl excl st = (.ok (.same a), st))
      ∧ keyOf E (.leaf (.enum cls)) x a = keyOf E .any x v)
    ∧ ∀ sub,
      toJson E bottom n (.leaf (.enumOf cls sub)) x a incl excl = toJson E bottom n (.leaf sub) x v incl excl
      ∧ (x.mode = .json →
          toPython E bottom n (.leaf (.enumOf cls sub)) x a incl excl = toPython E bottom n (.leaf sub) x v incl excl)
      ∧ (x.mode = .python → ∀ st, toPython E bottom n (.leaf (.enumOf cls sub)) x a incl excl st = (.ok (.same a), st))
      ∧ keyOf E (.leaf (.enumOf cls sub)) x a = keyOf E (.leaf sub) x v := by
  refine ⟨⟨?_, fun hm => ?_, fun hm st => ?_, ?_⟩, fun sub => ⟨?_, fun hm => ?_, fun hm st => ?_, ?_⟩⟩
  · funext st; simp [toJson, build, leafSer, enumSer, h, hv, anySer]
  · funext st; simp [toPython, build, leafSer, enumSer, h, hv, hm, anySer]
  · simp [toPython, build, leafSer, enumSer, h, hm]
  · funext st; simp [keyOf, keyWith, leafKey, enumKey, h, hv]
  · funext st; simp [toJson, build, leafSer, enumSer, h, hv]
  · funext st; simp [toPython, build, leafSer, enumSer, h, hv, hm]
  · simp [toPython, build, leafSer, enumSer, h, hm]
  · funext st; simp [keyOf, keyWith, leafKey, enumKey, h, hv]

/-- C90. A value that is not of the type of its schema, and not `None`, is written as if the schema were `Any`, after one
warning with the name of the schema: by `to_json`, as key of a dict, and by `to_python`; there, for a duration, only in
mode `json`. -/
theorem wrong_type_warned {E : Env α} {l : Leaf} {name : Text} {a : α} (h : IsNot E l name a)
    (hn : E.world.shape a ≠ .none) (bottom : Recs α) (n : Nat) {x : Extra α} (hc : x.check = .none)
    (incl excl : Option FVal) (st : St) :
    toJson E bottom n (.leaf l) x a incl excl st = toJson E bottom n .any x a incl excl (st.warned name)
      ∧ keyOf E (.leaf l) x a st = keyOf E .any x a (st.warned name)
      ∧ ((x.mode = .json ∨ ∀ m, l ≠ .timedelta m) →
          toPython E bottom n (.leaf l) x a incl excl st = toPython E bottom n .any x a incl excl (st.warned name)) := by
  have hw := onFallback_warns hn hc name st
  refine ⟨?_, ?_, fun hm => ?_⟩
  · simp only [toJson, build, anySer, isNot_json h, fallbackJson, hw]
  · simp only [keyOf, keyWith, isNot_key h, fallbackKey, hw, keyM]
  · simp only [toPython, build, anySer, isNot_py h _ _ hm, fallbackPy, hw]

/-- C90, what is missing: in mode `python` a field of type `timedelta` takes anything without a warning. -/
theorem duration_never_warned_in_python_mode {E : Env α} (m : TimedeltaMode) (bottom : Recs α) (n : Nat) {x : Extra α}
    (hm : x.mode = .python) (a : α) (incl excl : Option FVal) :
    toPython E bottom n (.leaf (.timedelta m)) x a incl excl = toPython E bottom n .any x a incl excl := by
  funext st
  simp [toPython, build, leafSer, timedeltaSer, hm, anySer]

/-- C90. `None` is never warned about. -/
theorem none_never_warned {E : Env α} {l : Leaf} {name : Text} {a : α} (h : IsNot E l name a)
    (hn : E.world.shape a = .none) (bottom : Recs α) (n : Nat) (x : Extra α) (incl excl : Option FVal) :
    toJson E bottom n (.leaf l) x a incl excl = toJson E bottom n .any x a incl excl
      ∧ keyOf E (.leaf l) x a = keyOf E .any x a
      ∧ toPython E bottom n (.leaf l) x a incl excl = toPython E bottom n .any x a incl excl := by
  have hw : ∀ st, onFallback E.world name x a st = (.ok (), st) := fun st => by simp [onFallback, isNone_of hn]
  refine ⟨?_, ?_, ?_⟩
  · funext st
    simp only [toJson, build, anySer, isNot_json h, fallbackJson, hw]
  · funext st
    simp only [keyOf, keyWith, isNot_key h, fallbackKey, hw, keyM]
  · funext st
    by_cases hm : x.mode = .json ∨ ∀ m, l ≠ .timedelta m
    · simp only [toPython, build, anySer, isNot_py h _ _ hm, fallbackPy, hw]
    · obtain ⟨h1, h2⟩ := not_or.1 hm
      obtain ⟨m, hl⟩ := Classical.not_forall.1 h2
      have hl : l = .timedelta m := Classical.not_not.1 hl
      subst hl
      rw [duration_never_warned_in_python_mode m bottom n (by cases hx : x.mode <;> simp_all)]

/-- C90. While the choice of a union is looked for, such a value is refused. -/
theorem wrong_type_refused_in_union {E : Env α} {l : Leaf} {name : Text} {a : α} (h : IsNot E l name a)
    (hn : E.world.shape a ≠ .none) (bottom : Recs α) (n : Nat) {x : Extra α} (hc : x.check ≠ .none)
    (incl excl : Option FVal) (st : St) :
    toJson E bottom n (.leaf l) x a incl excl st = (.error .unexpected, st)
      ∧ keyOf E (.leaf l) x a st = (.error .unexpected, st)
      ∧ ((x.mode = .json ∨ ∀ m, l ≠ .timedelta m) →
          toPython E bottom n (.leaf l) x a incl excl st = (.error .unexpected, st)) := by
  have hw := onFallback_refuses hn hc name st
  refine ⟨?_, ?_, fun hm => ?_⟩
  · simp only [toJson, build, isNot_json h, fallbackJson, hw]
  · simp only [keyOf, keyWith, isNot_key h, fallbackKey, hw]
  · simp only [toPython, build, isNot_py h _ _ hm, fallbackPy, hw]

/-- C90. Outside unions a literal is written as `Any`: no value is warned about. -/
theorem literal_never_warned (E : Env α) (l : LiteralInfo) (bottom : Recs α) (n : Nat) {x : Extra α}
    (hc : x.check = .none) (a : α) (incl excl : Option FVal) :
    toJson E bottom n (.leaf (.literal l)) x a incl excl = toJson E bottom n .any x a incl excl
      ∧ toPython E bottom n (.leaf (.literal l)) x a incl excl = toPython E bottom n .any x a incl excl
      ∧ keyOf E (.leaf (.literal l)) x a = keyOf E .any x a := by
  have h : literalCheck E l x a = .ok .ok := by simp [literalCheck, hc]
  refine ⟨?_, ?_, ?_⟩ <;> funext st
  · simp [toJson, build, leafSer, literalSer, h, anySer]
  · simp [toPython, build, leafSer, literalSer, h, anySer]
  · simp [keyOf, keyWith, leafKey, h]

/-- C90. In a union a literal refuses what is not one of its values, except `None`; and an expected integer or string is
written as it is. Looking at the value may raise nothing: its text has a UTF-8 form, comparing it works. -/
theorem literal_in_union {E : Env α} {l : LiteralInfo} {a : α} (hn : E.world.shape a ≠ .none)
    (hs : ∀ q, E.asStr a ≠ some (.lone q)) (ha : ∀ n, ∃ b, E.among n a = .ok b) (bottom : Recs α) (n : Nat)
    {x : Extra α} (hc : x.check ≠ .none) (incl excl : Option FVal) (st : St) :
    (¬ Expected E l a → toJson E bottom n (.leaf (.literal l)) x a incl excl st = (.error .unexpected, st)
        ∧ toPython E bottom n (.leaf (.literal l)) x a incl excl st = (.error .unexpected, st)
        ∧ keyOf E (.leaf (.literal l)) x a st = (.error .unexpected, st))
      ∧ (Expected E l a →
          (∃ i, E.extractI64 a = some i ∧ toJson E bottom n (.leaf (.literal l)) x a incl excl st = (.ok (.int i), st))
          ∨ (∃ t, E.asStr a = some (.utf8 t)
              ∧ toJson E bottom n (.leaf (.literal l)) x a incl excl st = (.ok (.str t), st))
          ∨ toJson E bottom n (.leaf (.literal l)) x a incl excl st = toJson E bottom n .any x a incl excl st) := by
  have hrest : ∃ r, literalRest E l a = .ok r ∧ (∀ i, r ≠ .int i) ∧ ∀ t, r = .str t → E.asStr a = some (.utf8 t) := by
    have ho : ∃ r, literalOthers E l a = .ok r ∧ (∀ i, r ≠ .int i) ∧ ∀ t, r ≠ .str t := by
      unfold literalOthers
      cases l.others with
      | none => exact ⟨_, rfl, by simp, by simp⟩
      | some n =>
        obtain ⟨b, hb⟩ := ha n
        dsimp only
        rw [hb]
        cases b <;> exact ⟨_, rfl, by simp, by simp⟩
    obtain ⟨r, hr, h1, h2⟩ := ho
    unfold literalRest
    rw [hr]
    by_cases he : l.strs.isEmpty = true
    · rw [if_pos he]
      exact ⟨r, rfl, h1, fun t ht => absurd ht (h2 t)⟩
    · rw [if_neg he]
      cases hs' : E.asStr a with
      | none => exact ⟨r, rfl, h1, fun t ht => absurd ht (h2 t)⟩
      | some s =>
        cases s with
        | lone q => exact absurd hs' (hs q)
        | utf8 t =>
          dsimp only
          split
          · refine ⟨_, rfl, by simp, fun t' ht => ?_⟩
            cases ht
            rfl
          · exact ⟨r, rfl, h1, fun t ht => absurd ht (h2 t)⟩
  have hcheck : ∃ r, literalCheck E l x a = .ok r ∧ (∀ i, r = .int i → E.extractI64 a = some i)
      ∧ ∀ t, r = .str t → E.asStr a = some (.utf8 t) := by
    obtain ⟨r, hr, h1, h2⟩ := hrest
    have hd : ∃ r', (.ok r : Except SErr LiteralOut) = .ok r' ∧ (∀ i, r' = .int i → E.extractI64 a = some i)
        ∧ ∀ t, r' = .str t → E.asStr a = some (.utf8 t) := ⟨r, rfl, fun i hi => absurd hi (h1 i), h2⟩
    unfold literalCheck
    rw [if_pos hc, hr]
    split
    · cases hi : E.extractI64 a with
      | none => rw [hi] at hd; exact hd
      | some i =>
        rw [hi] at hd
        dsimp only
        split
        · refine ⟨_, rfl, fun i' h => ?_, by simp⟩
          cases h
          rfl
        · exact hd
    · exact hd
  obtain ⟨r, hr, h1, h2⟩ := hcheck
  have hfb := literalCheck_fallback hc hr
  have hw := onFallback_refuses hn hc l.name st
  refine ⟨fun hne => ?_, fun hex => ?_⟩
  · have : r = .fallback := hfb.2 hne
    subst this
    refine ⟨?_, ?_, ?_⟩
    · simp only [toJson, build, leafSer, literalSer, hr, fallbackJson, hw]
    · simp only [toPython, build, leafSer, literalSer, hr, fallbackPy, hw]
    · simp only [keyOf, keyWith, leafKey, hr, fallbackKey, hw]
  · cases r with
    | int i => exact .inl ⟨i, h1 i rfl, by simp only [toJson, build, leafSer, literalSer, hr]⟩
    | str t => exact .inr (.inl ⟨t, h2 t rfl, by simp only [toJson, build, leafSer, literalSer, hr]⟩)
    | ok => exact .inr (.inr (by simp only [toJson, build, leafSer, literalSer, hr, anySer]))
    | fallback => exact absurd hex (hfb.1 rfl)

/-- C90. A `json-or-python` schema serialises by its JSON schema in `to_json` and for keys, and by its Python schema in
`to_python`, whatever the mode. -/
theorem json_or_python_by_function (E : Env α) (bottom : Recs α) (n : Nat) (json python : Schema α) :
    toJson E bottom n (.jsonOrPython json python) = toJson E bottom n json
      ∧ toPython E bottom n (.jsonOrPython json python) = toPython E bottom n python
      ∧ keyOf E (.jsonOrPython json python) = keyOf E json := ⟨rfl, rfl, rfl⟩

/-- C90. A dataclass instance is written as the dict of its attributes by the serialiser of the fields; the state (and so
the warnings) is the one left by that. -/
theorem dataclass_written_as_fields {E : Env α} {cls : Nat} {names : List Text} {a b : α} {x : Extra α}
    (hd : x.duck ≠ .needsInference) (ha : E.dcAllow cls x.check a = .ok true) (hb : E.dcInner names a = .ok b)
    (name : Text) (s : Schema α) (bottom : Recs α) (n : Nat) (incl excl : Option FVal) :
    toJson E bottom n (.dataclass name cls names s) x a incl excl = toJson E bottom n s (x.forModel a) b incl excl
      ∧ toPython E bottom n (.dataclass name cls names s) x a incl excl
        = toPython E bottom n s (x.forModel a) b incl excl := by
  have h1 : (x.forModel a).duck ≠ .inferred := by
    simp only [Extra.forModel]
    cases hx : x.duck <;> simp_all [Duck.next]
  have h2 : (x.forModel a).check = x.check := rfl
  constructor <;> funext st
  · simp [toJson, build, dataclassSer, h1, h2, ha, hb]
  · simp [toPython, build, dataclassSer, h1, h2, ha, hb]

section
open Demo

/-- What is not JSON: 0 is a date, 1 a duration, 2 a member of an enum with value 3, 4 a dataclass instance whose dict of
attributes is 5. -/
def typedTable : List (Shape Nat) :=
  [.text (.ok "2020-01-01".toList), .timedelta (.ok "PT1S".toList) (.ok (.fin 1 0)), .enum (.ok 3), .int 9,
    .dataclass (.ok []), .dict [(6, 0), (7, 2)], .str (.utf8 "d".toList), .str (.utf8 "e".toList), .bytes [120],
    .dict [(2, 0), (0, 1)], .intSub (some 5)]

def typedEnv : Env Nat := { env (shapes typedTable) .any with
  asText := fun k a => if k = .date ∧ a = 0 then some (.ok "2020-01-01".toList) else Option.none
  asTimedelta := fun a => if a = 1 then some (.ok "PT1S".toList, .ok (.fin 1 0)) else Option.none
  isEnum := fun cls a => cls = 0 ∧ a = 2
  enumValue := fun _ => .ok 3
  extractI64 := fun a => match shapes typedTable a with
    | .int i => some i
    | _ => Option.none
  dcAllow := fun _ _ a => .ok (a = 4)
  dcInner := fun _ _ => .ok 5 }

/-- A dataclass with a date and an enum of integers. -/
def typedDc : Schema Nat :=
  .dataclass "Dc".toList 0 ["d".toList, "e".toList] (.fields .simpleDict
    (.cons (field "d" Option.none) (.leaf (.text .date)) (.cons (field "e" Option.none) (.leaf (.enumOf 0 .int)) .nil)))

theorem typed_writes : Writes typedEnv ⟨Option.none, false, false⟩ typedDc 4
    (.obj [("d".toList, .str "2020-01-01".toList), ("e".toList, .int 9)]) 0 :=
  .dataclass (b := 5) rfl rfl (.fields (main := [(6, 0), (7, 2)]) rfl
    (.field (t := "d".toList) (n := 0) (n' := 0) (info := field "d" Option.none) (.inl rfl) rfl rfl (.text rfl)
      (.field (t := "e".toList) (n := 0) (n' := 0) (info := field "e" Option.none) (.inl rfl) rfl rfl
        (.enumOf (v := 3) rfl rfl (.int rfl)) .nil)))

example : ∃ st, toJson typedEnv deadEnd 256 typedDc (extra .json .schemaBased) 4 Option.none Option.none freshSt
      = (.ok (.obj [("d".toList, .str "2020-01-01".toList), ("e".toList, .int 9)]), st) ∧ st.warnings = [] :=
  (to_json_exact (E := typedEnv) (.inl ⟨rfl, rfl⟩) (fun _ _ h => h) (by decide) (x := extra .json .schemaBased)
    ⟨rfl, rfl, rfl, rfl, rfl, rfl, rfl⟩ typed_writes deadEnd 256 (by decide)).1 (by decide)

example : typedEnv.asText .date 0 = some (.ok "2020-01-01".toList)
    ∧ typedEnv.asTimedelta 1 = some (.ok "PT1S".toList, .ok (.fin 1 0))
    ∧ typedEnv.isEnum 0 2 = true ∧ typedEnv.enumValue 2 = .ok 3
    ∧ typedEnv.dcAllow 0 .none 4 = .ok true ∧ typedEnv.dcInner ["d".toList] 4 = .ok 5
    ∧ (extra .json .schemaBased : Extra Nat).duck ≠ .needsInference := ⟨rfl, rfl, rfl, rfl, rfl, rfl, by decide⟩

/-- A datetime field that holds an integer: one warning. -/
example : IsNot typedEnv (.text .datetime) "datetime".toList 3 ∧ typedEnv.world.shape 3 ≠ .none
    ∧ toJson typedEnv deadEnd 256 (.leaf (.text .datetime)) (extra .json .schemaBased) 3 Option.none Option.none freshSt
      = (.ok (.int 9), freshSt.warned "datetime".toList) :=
  ⟨.datetime rfl, (fun h => by cases h), rfl⟩

/-- `None` in a date field: no warning. -/
example : IsNot typedEnv (.text .date) "date".toList 99 ∧ typedEnv.world.shape 99 = .none
    ∧ toJson typedEnv deadEnd 256 (.leaf (.text .date)) (extra .json .schemaBased) 99 Option.none Option.none freshSt
      = (.ok .null, freshSt) :=
  ⟨.date rfl, rfl, rfl⟩

/-- The literal `9` in a union, for `9` and for a date. -/
example : let l : LiteralInfo := ⟨"literal[9]".toList, [9], [], Option.none⟩
    let x := { extra .json .schemaBased with check := .strict }
    Expected typedEnv l 3 ∧ ¬ Expected typedEnv l 0
      ∧ (∀ a q, typedEnv.asStr a ≠ some (.lone q)) ∧ (∀ a n, ∃ b, typedEnv.among n a = .ok b)
      ∧ toJson typedEnv deadEnd 256 (.leaf (.literal l)) x 3 Option.none Option.none freshSt = (.ok (.int 9), freshSt)
      ∧ toJson typedEnv deadEnd 256 (.leaf (.literal l)) x 0 Option.none Option.none freshSt
        = (.error .unexpected, freshSt) := by
  refine ⟨.inl ⟨9, rfl, by decide, rfl⟩, ?_, ?_, fun a n => ⟨false, rfl⟩, rfl, rfl⟩
  · rintro (⟨i, hi, -⟩ | ⟨t, -, ht⟩ | ⟨n, hn, -⟩)
    · cases hi
    · cases ht
    · cases hn
  · intro a q h
    match a, h with
    | 0, h | 1, h | 2, h | 3, h | 4, h | 5, h | 6, h | 7, h | 8, h | 9, h | 10, h | _ + 11, h => cases h

/-- C74 and C90, what is missing: with a `json-or-python` schema `to_python(mode='json')` and `to_json` differ, though
the value is of both types: bytes written as hex in one and as UTF-8 in the other. -/
theorem json_ways_differ_on_json_or_python :
    let s : Schema Nat := .jsonOrPython (.leaf (.bytes .hex)) (.leaf (.bytes .utf8))
    let x := extra .json .schemaBased
    toPython typedEnv deadEnd 256 s x 8 Option.none Option.none freshSt = (.ok (.str (.utf8 "x".toList)), freshSt)
    ∧ toJson typedEnv deadEnd 256 s x 8 Option.none Option.none freshSt = (.ok (.str "78".toList), freshSt) :=
  ⟨rfl, rfl⟩

end

/-! ### C91: schemas without serialiser of their own -/

/-- C91, fails: building a serialiser may panic: a `chain` schema without steps (which `SchemaValidator` refuses with a
`SchemaError`). -/
theorem empty_chain_panics : (Src.chain [] : Src α).lower = .panic := rfl

/-- C91. Building panics for no other reason: only for a chain without steps, itself or where it is what serialises: the
last step of a chain, the schema of `custom-error` and `default`, the return schema of `call`, the strict schema of
`lax-or-strict`. -/
theorem build_panics_only_for_empty_chain_partial (s : Src α) : s.lower = .panic ↔ EmptyChain s :=
  ⟨lower_panic s, emptyChain_panics⟩

/-- C91. A chain is serialised as its last step, whatever comes before. -/
theorem chain_serialised_as_last (ss : List (Src α)) (s : Src α) : (Src.chain (ss ++ [s])).lower = s.lower := by
  rw [Src.lower, lowerLast_append]

/-- C91. `lax-or-strict` is serialised as its strict schema, `default` and `custom-error` as what is inside, a call as
what it returns. -/
theorem validation_schemas_serialised_as_inner (lax s : Src α) :
    (Src.laxOrStrict lax s).lower = s.lower ∧ (Src.withDefault s).lower = s.lower
      ∧ (Src.customError s).lower = s.lower ∧ (Src.call (some s)).lower = s.lower
      ∧ (Src.call Option.none : Src α).lower = .ok .any ∧ (Src.isInstance : Src α).lower = .ok .any
      ∧ (Src.isSubclass : Src α).lower = .ok .any ∧ (Src.callable : Src α).lower = .ok .any
      ∧ (Src.arguments : Src α).lower = .schemaError := by
  refine ⟨?_, ?_, ?_, ?_, ?_, ?_, ?_, ?_, ?_⟩ <;> simp [Src.lower]

example : EmptyChain (.laxOrStrict .isInstance (.chain [.callable, .withDefault (.chain [])]) : Src Nat)
    ∧ ¬ EmptyChain (.laxOrStrict (.chain []) (.chain [.chain [], .base (.leaf .int)]) : Src Nat) := by
  refine ⟨.strict (.last (ss := [.callable]) (.default .here)), fun h => ?_⟩
  have := (build_panics_only_for_empty_chain_partial _).2 h
  simp [Src.lower, Src.lowerLast] at this

end PC.Infer
