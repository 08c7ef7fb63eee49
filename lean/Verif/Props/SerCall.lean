import Verif.Props.SerTyped

/-
Serialisation by plain functions, and of tuples.
-/

namespace PC.Infer
open PC.Float (F64)
open PC.Filter (FVal Filt)
open PC.SerFunction (WhenUsed)

variable {α : Type}

/-- A function is used for a value in this call. -/
def Used (E : Env α) (w : WhenUsed) (x : Extra α) (a : α) : Prop :=
  ((w = .json ∨ w = .jsonUnlessNone) → x.mode = .json)
    ∧ ((w = .unlessNone ∨ w = .jsonUnlessNone) → E.world.shape a ≠ .none)

/-- What the function does when called: one for a field gets the model that is serialised as first argument, and one that
asks for it gets `include`, `exclude` and the arguments of the call. -/
inductive Calls (E : Env α) (fi : FuncInfo) (x : Extra α) (a : α) (incl excl : Option FVal) : Except FuncErr α → Prop
  | plain (hf : fi.isField = false) (hi : fi.infoArg = false) : Calls E fi x a incl excl (E.callFn fi.func Option.none a Option.none)
  | info (hf : fi.isField = false) (hi : fi.infoArg = true) :
    Calls E fi x a incl excl (E.callFn fi.func Option.none a (some (incl, excl, x)))
  | field {m : α} (hf : fi.isField = true) (hm : x.model = some m) (hi : fi.infoArg = false) :
    Calls E fi x a incl excl (E.callFn fi.func (some m) a Option.none)
  | fieldInfo {m : α} (hf : fi.isField = true) (hm : x.model = some m) (hi : fi.infoArg = true) :
    Calls E fi x a incl excl (E.callFn fi.func (some m) a (some (incl, excl, x)))

theorem Calls.eq {E : Env α} {fi : FuncInfo} {x : Extra α} {a : α} {incl excl : Option FVal} {r : Except FuncErr α}
    (h : Calls E fi x a incl excl r) : callFunction E fi x a incl excl = r := by
  cases h <;> simp [callFunction, *]

theorem used_iff {E : Env α} {w : WhenUsed} {x : Extra α} {a : α} : shouldUse E w x a = true ↔ Used E w x a := by
  by_cases h : E.world.shape a = .none
  · cases w <;> cases hm : x.mode <;> simp [shouldUse, Used, hm, isNone_of h, h]
  · cases w <;> cases hm : x.mode <;> simp [shouldUse, Used, hm, isNone_ne h, h]

/-! ### C84: plain functions -/

/-- C84. What the function returns is serialised by the schema of its return value, the same way as the value would have
been: `to_json`, `to_python` and as key of a dict. `include` and `exclude` do not apply to it. -/
theorem function_result_serialised {E : Env α} {fi : FuncInfo} {x : Extra α} {a b : α} (hu : Used E fi.whenUsed x a)
    (ret other : Schema α) (bottom : Recs α) (n : Nat) :
    (∀ incl excl, Calls E fi x a incl excl (.ok b) →
        toJson E bottom n (.function fi ret other) x a incl excl = toJson E bottom n ret x b Option.none Option.none
        ∧ toPython E bottom n (.function fi ret other) x a incl excl
          = toPython E bottom n ret x b Option.none Option.none)
      ∧ (Calls E fi x a Option.none Option.none (.ok b) →
          keyOf E (.function fi ret other) x a = keyOf E ret x b) := by
  refine ⟨fun incl excl hc => ⟨?_, ?_⟩, fun hc => ?_⟩ <;> funext st
  · simp only [toJson, build, functionSer, used_iff.2 hu, if_true, hc.eq]
  · simp only [toPython, build, functionSer, used_iff.2 hu, if_true, hc.eq]
  · simp only [keyOf, keyWith, functionKey, used_iff.2 hu, if_true, hc.eq]

/-- C84. A value the function is not used for is serialised as if there were no function; but without `include` and
`exclude`. -/
theorem unused_function_transparent_partial {E : Env α} {fi : FuncInfo} {x : Extra α} {a : α}
    (hu : ¬ Used E fi.whenUsed x a) (ret other : Schema α) (bottom : Recs α) (n : Nat) (incl excl : Option FVal) :
    toJson E bottom n (.function fi ret other) x a incl excl = toJson E bottom n other x a Option.none Option.none
      ∧ toPython E bottom n (.function fi ret other) x a incl excl = toPython E bottom n other x a Option.none Option.none
      ∧ keyOf E (.function fi ret other) x a = keyOf E other x a := by
  refine ⟨?_, ?_, ?_⟩ <;> funext st
  · simp only [toJson, build, functionSer]; rw [if_neg (mt used_iff.1 hu)]
  · simp only [toPython, build, functionSer]; rw [if_neg (mt used_iff.1 hu)]
  · simp only [keyOf, keyWith, functionKey]; rw [if_neg (mt used_iff.1 hu)]

/-- C84. If the function raises `PydanticSerializationUnexpectedValue` the value is serialised as `Any`, `include` and
`exclude` applied, after one warning, which is the message of the exception; while the choice of a union is looked for the
value is refused. -/
theorem function_unexpected_value {E : Env α} {fi : FuncInfo} {x : Extra α} {a : α} {m : Text} (hu : Used E fi.whenUsed x a)
    (ret other : Schema α) (bottom : Recs α) (n : Nat) (incl excl : Option FVal)
    (hc : Calls E fi x a incl excl (.error (.unexpected m))) (st : St) :
    (x.check = .none →
        toJson E bottom n (.function fi ret other) x a incl excl st = toJson E bottom n .any x a incl excl (st.warned m)
        ∧ toPython E bottom n (.function fi ret other) x a incl excl st
          = toPython E bottom n .any x a incl excl (st.warned m))
      ∧ (x.check ≠ .none →
          toJson E bottom n (.function fi ret other) x a incl excl st = (.error .unexpected, st)
          ∧ toPython E bottom n (.function fi ret other) x a incl excl st = (.error .unexpected, st)) := by
  refine ⟨fun hk => ⟨?_, ?_⟩, fun hk => ⟨?_, ?_⟩⟩
  · simp only [toJson, build, functionSer, used_iff.2 hu, if_true, hc.eq, onFuncError, hk, ne_eq, not_true, if_false, anySer,
      St.warned]
  · simp only [toPython, build, functionSer, used_iff.2 hu, if_true, hc.eq, onFuncError, hk, ne_eq, not_true, if_false,
      anySer, St.warned]
  · simp only [toJson, build, functionSer, used_iff.2 hu, if_true, hc.eq, onFuncError, hk, ne_eq, not_false_eq_true]
  · simp only [toPython, build, functionSer, used_iff.2 hu, if_true, hc.eq, onFuncError, hk, ne_eq, not_false_eq_true]

/-- C84. Any other exception of the function is raised, and nothing else is done. -/
theorem function_error_raised {E : Env α} {fi : FuncInfo} {x : Extra α} {a : α} {e : SErr} (hu : Used E fi.whenUsed x a)
    (ret other : Schema α) (bottom : Recs α) (n : Nat) (incl excl : Option FVal)
    (hc : Calls E fi x a incl excl (.error (.other e))) (st : St) :
    toJson E bottom n (.function fi ret other) x a incl excl st = (.error e, st)
      ∧ toPython E bottom n (.function fi ret other) x a incl excl st = (.error e, st) := by
  refine ⟨?_, ?_⟩
  · simp only [toJson, build, functionSer, used_iff.2 hu, if_true, hc.eq, onFuncError]
  · simp only [toPython, build, functionSer, used_iff.2 hu, if_true, hc.eq, onFuncError]

/-- C84. A function for a field that is not serialised as part of a model is never called: that is an error. -/
theorem field_function_needs_model {E : Env α} {fi : FuncInfo} {x : Extra α} {a : α} (hu : Used E fi.whenUsed x a)
    (hf : fi.isField = true) (hm : x.model = Option.none) (ret other : Schema α) (bottom : Recs α) (n : Nat)
    (incl excl : Option FVal) (st : St) :
    toJson E bottom n (.function fi ret other) x a incl excl st = (.error .type, st)
      ∧ toPython E bottom n (.function fi ret other) x a incl excl st = (.error .type, st) := by
  have hc : callFunction E fi x a incl excl = .error (.other .type) := by simp [callFunction, hf, hm]
  refine ⟨?_, ?_⟩
  · simp only [toJson, build, functionSer, used_iff.2 hu, if_true, hc, onFuncError]
  · simp only [toPython, build, functionSer, used_iff.2 hu, if_true, hc, onFuncError]

section
open Demo

/-- 0 is the list of 1 and 2, integers; function 0 takes the first item, function 1 refuses. -/
def callEnv : Env Nat := { env (shapes [.list [1, 2], .int 7, .int 8]) .any with
  callFn := fun f _ a _ => if f = 0 then .ok (a + 1) else if f = 1 then .error (.unexpected "no".toList) else .error (.other .type) }

/-- A function that takes the first item of a list; used for JSON, otherwise the list is written. -/
def callFirst (f : Nat) : Schema Nat :=
  .function ⟨f, .json, false, true⟩ (.leaf .int) (.list "list".toList (.schema Option.none Option.none) (.leaf .int))

/-- Used for JSON, not for Python; `exclude` of item 0 does not matter. -/
example : Used callEnv .json (extra .json .schemaBased) 0 ∧ ¬ Used callEnv .json (extra .python .schemaBased) 0
    ∧ Calls callEnv ⟨0, .json, false, true⟩ (extra .json .schemaBased) 0 Option.none (some (.set [.i 0])) (.ok 1)
    ∧ toJson callEnv deadEnd 256 (callFirst 0) (extra .json .schemaBased) 0 Option.none (some (.set [.i 0])) freshSt
      = (.ok (.int 7), freshSt)
    ∧ toPython callEnv deadEnd 256 (callFirst 0) (extra .python .schemaBased) 0 Option.none (some (.set [.i 0])) freshSt
      = (.ok (.list [.same 1, .same 2]), freshSt) :=
  ⟨⟨fun _ => rfl, by simp⟩, fun h => by simp [Used, extra] at h, .info rfl rfl, rfl, rfl⟩

/-- A function that refuses: a warning, and the list is written without the excluded item; one that raises. -/
example : Calls callEnv ⟨1, .json, false, true⟩ (extra .json .schemaBased) 0 Option.none (some (.set [.i 0]))
      (.error (.unexpected "no".toList))
    ∧ (toJson callEnv deadEnd 256 (callFirst 1) (extra .json .schemaBased) 0 Option.none (some (.set [.i 0])) freshSt).1
      = .ok (.arr [.int 8])
    ∧ (toJson callEnv deadEnd 256 (callFirst 1) (extra .json .schemaBased) 0 Option.none (some (.set [.i 0]))
        freshSt).2.warnings = ["no".toList]
    ∧ Calls callEnv ⟨2, .json, false, true⟩ (extra .json .schemaBased) 0 Option.none Option.none (.error (.other .type)) :=
  ⟨.info rfl rfl, rfl, rfl, .info rfl rfl⟩

example : (extra .json .schemaBased : Extra Nat).model = Option.none
    ∧ Used callEnv .always (extra .json .schemaBased) 0
    ∧ toJson callEnv deadEnd 256 (.function ⟨0, .always, true, false⟩ .any .any) (extra .json .schemaBased) 0 Option.none
        Option.none freshSt = (.error .type, freshSt) := ⟨rfl, ⟨by simp, by simp⟩, rfl⟩

/-- C84, what is missing: a function that is not used is not quite transparent: `exclude` is lost. -/
theorem unused_function_loses_exclude :
    let s : Schema Nat := .list "list".toList (.schema Option.none Option.none) (.leaf .int)
    let fi : FuncInfo := ⟨0, .json, false, false⟩
    let x := extra .python .schemaBased
    ¬ Used callEnv fi.whenUsed x 0
      ∧ toPython callEnv deadEnd 256 s x 0 Option.none (some (.set [.i 0])) freshSt = (.ok (.list [.same 2]), freshSt)
      ∧ toPython callEnv deadEnd 256 (.function fi .any s) x 0 Option.none (some (.set [.i 0])) freshSt
        = (.ok (.list [.same 1, .same 2]), freshSt) :=
  ⟨fun h => by simp [Used, extra] at h, rfl, rfl⟩

end

/-! ### C65: tuples -/

theorem tupleJson_append {R : Recs α} {f : Filt} {x : Extra α} {len : Nat} {incl excl : Option FVal} {z : α} {zs : List α} :
    ∀ (ss : List (SerFn α)) (ys : List α) (i : Nat) (st : St), ss.length = ys.length →
      tupleJson R f true x len incl excl i ss (ys ++ z :: zs) st
        = match tupleJson R f true x len incl excl i ss ys st with
          | (.error e, st1) => (.error e, st1)
          | (.ok os, st1) => mapM (os ++ ·) (listJson f R.infer x len incl excl (i + ss.length) (z :: zs) (warnExtraItems st1))
  | [], [], i, st, _ => by
    simp only [List.nil_append, tupleJson, if_true, List.length_nil, Nat.add_zero]
    cases listJson f R.infer x len incl excl i (z :: zs) (warnExtraItems st) with
    | mk r st1 => cases r <;> rfl
  | s :: ss, y :: ys, i, st, h => by
    have ih := fun st => tupleJson_append (R := R) (f := f) (x := x) (len := len) (incl := incl) (excl := excl) (z := z)
      (zs := zs) ss ys (i + 1) st (by simpa using h)
    simp only [List.cons_append, tupleJson, List.length_cons]
    rw [show i + (ss.length + 1) = i + 1 + ss.length by omega]
    cases Filter.indexFilter f i incl excl (some len) with
    | error e => rfl
    | ok r =>
      cases r with
      | none => exact ih st
      | some r =>
        obtain ⟨ni, ne⟩ := r
        dsimp only
        cases s.json x y ni ne st with
        | mk r st1 =>
          cases r with
          | error e => rfl
          | ok o =>
            dsimp only
            rw [ih st1]
            cases tupleJson R f true x len incl excl (i + 1) ss ys st1 with
            | mk r st2 =>
              cases r with
              | error e => rfl
              | ok os =>
                dsimp only
                cases listJson f R.infer x len incl excl (i + 1 + ss.length) (z :: zs) (warnExtraItems st2) with
                | mk r st3 => cases r <;> rfl

/-- C65. A tuple that has more items than its schema: the first items are written by their schemas, the others as `Any`,
with one warning however many they are. -/
theorem tuple_extra_items_inferred {E : Env α} (hp : E.platform.Valid)
    (hid : ∀ a b, E.world.identity a = E.world.identity b → a = b) (hst : 0 < E.world.stack) {o : Opts} {x : Extra α}
    (hx : x.Fits o) {name : Text} {items : Items α} {a z : α} {ys zs : List α} {ds ds' : List Json} {h h' : Nat}
    (ha : E.asTuple a = some (ys ++ z :: zs)) (hs : WritesEach E o items.toList ys ds h)
    (hz : WritesAll E o .any (z :: zs) ds' h') (hh : h ≤ E.platform.limit) (hh' : h' ≤ E.platform.limit)
    (bottom : Recs α) (n : Nat) (hn : E.platform.limit < n) :
    ∃ st, toJson E bottom n (.tuple name (.schema Option.none Option.none) Option.none items) x a Option.none Option.none
        freshSt = (.ok (.arr (ds ++ ds')), st)
      ∧ st.warnings = ["Unexpected extra items present in tuple".toList] := by
  have hr : ∀ k l, tupleRefused Option.none x k l = false := fun k l => by simp [tupleRefused, hx.check]
  have hl : ((items.toList).map (build E (recs E bottom n))).length = ys.length := by
    rw [List.length_map]
    exact each_length hs
  have h1 := (each_json (bottom := bottom) hp hid hst hs x n true (ys ++ z :: zs).length 0 [] [] freshSt hx
    (by intro k hk; cases hk) (by intro k hk; cases hk) (Guard.good_init _) (by simpa using hn)).1 (by simpa using hh)
  rw [List.append_nil] at h1
  obtain ⟨r, st1, h1, rfl, hg, hw⟩ := h1
  have h2 := (all_json (bottom := bottom) hp hid hst hz x n (ys ++ z :: zs).length (0 + items.toList.length) []
    (warnExtraItems st1) hx (by intro k hk; cases hk) (by intro k hk; cases hk) hg (by simpa using hn)).1 (by simpa using hh')
  obtain ⟨r, st2, h2, rfl, _, hw2⟩ := h2
  refine ⟨st2, ?_, ?_⟩
  · simp only [toJson, build, tupleSer, ha, hr, tupleSers, buildItems_map, Option.isNone]
    rw [tupleJson_append _ _ _ _ hl, h1]
    dsimp only
    rw [List.length_map]
    simp only [build, anySer] at h2
    rw [h2]
    rfl
  · rw [hw2]
    simp only [warnExtraItems, hw]
    rfl

/-- C65. While the choice of a union is looked for strictly, a tuple of another length than its schema is refused, if the
schema has no variadic item. -/
theorem tuple_length_checked_in_union {E : Env α} {x : Extra α} (hc : x.check = .strict) {name : Text} {f : Filt}
    {items : Items α} {a : α} {xs : List α} (ha : E.asTuple a = some xs) (hl : xs.length ≠ items.toList.length)
    (bottom : Recs α) (n : Nat) (incl excl : Option FVal) (st : St) :
    toJson E bottom n (.tuple name f Option.none items) x a incl excl st = (.error .unexpected, st)
      ∧ toPython E bottom n (.tuple name f Option.none items) x a incl excl st = (.error .unexpected, st) := by
  have hr : tupleRefused Option.none x (items.toList.map (build E (recs E bottom n))).length xs.length = true := by
    simp [tupleRefused, hc, hl]
  refine ⟨?_, ?_⟩
  · simp only [toJson, build, tupleSer, ha, buildItems_map, hr, if_true]
  · simp only [toPython, build, tupleSer, ha, buildItems_map, hr, if_true]

/-- The texts of the items as keys, each by its schema. -/
inductive KeysOf (E : Env α) (x : Extra α) : List (Schema α) → List α → List Text → Prop
  | nil : KeysOf E x [] [] []
  | cons {s : Schema α} {ss : List (Schema α)} {a : α} {xs : List α} {t : Text} {ts : List Text}
    (h : ∀ st, keyOf E s x a st = (.ok t, st)) (hs : KeysOf E x ss xs ts) : KeysOf E x (s :: ss) (a :: xs) (t :: ts)

theorem keyItems_map (E : Env α) (ref : Nat → KeyFn α) : ∀ (items : Items α),
    keyItems E ref items = items.toList.map (keyWith E ref)
  | .nil => by simp [keyItems, Items.toList]
  | .cons s rest => by simp [keyItems, Items.toList, keyItems_map E ref rest]

theorem tupleKeys_tail {E : Env α} {x : Extra α} {more : Bool} {len : Nat} {ss : List (Schema α)} {xs : List α}
    {ts : List Text} (h : KeysOf E x ss xs ts) : ∀ (i : Nat) (t : Text) (st : St),
    tupleKeys E (.schema Option.none Option.none) more x len i (ss.map (keyOf E)) xs ⟨t, false⟩ st
      = (.ok (t ++ ts.flatMap (',' :: ·)), st) := by
  induction h with
  | nil => intro i t st; simp [tupleKeys]
  | @cons s ss a xs u ts h _ ih =>
    intro i t st
    simp only [List.map_cons, tupleKeys, indexFilter_pass, h]
    have : (Keys.KeyBuilder.mk t false).push u = ⟨t ++ ',' :: u, false⟩ := rfl
    rw [this, ih]
    simp

theorem join_flat : ∀ (t : Text) (ts : List Text), [','].intercalate (t :: ts) = t ++ ts.flatMap (',' :: ·)
  | t, [] => by simp [List.intercalate]
  | t, u :: ts => by
    have := join_flat u ts
    simp only [List.intercalate, List.intersperse] at this ⊢
    simp only [List.flatten_cons, this, List.flatMap_cons]
    simp

/-- C65. A tuple as key of a dict is written as the keys of its items with commas between them. -/
theorem tuple_schema_key_joined {E : Env α} {x : Extra α} {name : Text} {items : Items α} {a : α} {xs : List α}
    {ts : List Text} (ha : E.asTuple a = some xs) (hk : KeysOf E x items.toList xs ts) (st : St) :
    keyOf E (.tuple name (.schema Option.none Option.none) Option.none items) x a st
      = (.ok ([','].intercalate ts), st) := by
  have hlen : ∀ {ss : List (Schema α)} {xs : List α} {ts : List Text}, KeysOf E x ss xs ts → xs.length = ss.length := by
    intro ss xs ts h
    induction h with
    | nil => rfl
    | cons _ _ ih => simp [ih]
  have hr : tupleRefused Option.none x (items.toList.map (keyOf E)).length xs.length = false := by
    simp [tupleRefused, hlen hk]
  have hm : keyItems E (refKey E E.world.stack) items = items.toList.map (keyOf E) := keyItems_map E _ items
  unfold keyOf
  simp only [keyWith, tupleSerKey, ha]
  rw [hm, hr]
  simp only [tupleSers]
  clear hr hm
  generalize items.toList = ss at hk
  cases hk with
  | nil => simp [tupleKeys, Keys.KeyBuilder.new, List.intercalate]
  | @cons s ss a xs t ts h hs =>
    simp only [List.map_cons, tupleKeys, indexFilter_pass, h]
    have : Keys.KeyBuilder.new.push t = ⟨t, false⟩ := rfl
    rw [this, join_flat]
    exact tupleKeys_tail hs _ _ _

section
open Demo

/-- 0 is a tuple of 7, "b" and two integers more; 5 a shorter one; 6 a tuple with many integers. -/
def tupleTable : List (Shape Nat) :=
  [.tuple [1, 2, 3, 4], .int 7, .str (.utf8 "b".toList), .int 8, .int 9, .tuple [1], .tuple [1, 2],
    .tuple [2, 8], .str (.utf8 "c".toList)]

def tupleEnv : Env Nat := { env (shapes tupleTable) .any with
  asTuple := fun a => match shapes tupleTable a with
    | .tuple xs => some xs
    | _ => Option.none }

/-- An integer and a string. -/
def pair : Schema Nat :=
  .tuple "tuple[int, str]".toList (.schema Option.none Option.none) Option.none (.cons (.leaf .int) (.cons (.leaf .str) .nil))

/-- Any number of integers between an integer and a string. -/
def between : Schema Nat :=
  .tuple "tuple[int, int, ..., str]".toList (.schema Option.none Option.none) (some 1)
    (.cons (.leaf .int) (.cons (.leaf .int) (.cons (.leaf .str) .nil)))

example : tupleEnv.asTuple 0 = some ([1, 2] ++ 3 :: [4])
    ∧ WritesEach tupleEnv ⟨Option.none, false, false⟩ [.leaf .int, .leaf .str] [1, 2] [.int 7, .str "b".toList] 0
    ∧ (∃ h, h ≤ tupleEnv.platform.limit
        ∧ WritesAll tupleEnv ⟨Option.none, false, false⟩ .any [3, 4] [.int 8, .int 9] h)
    ∧ (toJson tupleEnv deadEnd 256 pair (extra .json .schemaBased) 0 Option.none Option.none freshSt).1
      = .ok (.arr [.int 7, .str "b".toList, .int 8, .int 9]) := by
  refine ⟨rfl, .cons (n := 0) (n' := 0) (.int rfl) (.cons (n := 0) (n' := 0) (.str rfl) .nil), ⟨_, ?_,
    .cons (.any (d := .int 8) ?_) (.cons (.any (d := .int 9) ?_) .nil)⟩, rfl⟩
  · simp only [Json.height]; decide
  · rw [Json.isOf]; rfl
  · rw [Json.isOf]; rfl

/-- C79 for tuples: a short tuple, and one with no items in the middle. -/
example : Writes tupleEnv ⟨Option.none, false, false⟩ pair 5 (.arr [.int 7]) 0
    ∧ Writes tupleEnv ⟨Option.none, false, false⟩ between 6 (.arr [.int 7, .str "b".toList]) 0 := by
  refine ⟨.tuple (xs := [1]) rfl (.cons (n := 0) (n' := 0) (.int rfl) .nil), ?_⟩
  exact .variadic (xs := [1, 2]) (first := [.leaf .int]) (last := [.leaf .str]) (s := .leaf .int) (k := 0) rfl rfl rfl
    (.cons (n := 0) (n' := 0) (.int rfl) (.cons (n := 0) (n' := 0) (.str rfl) .nil))

/-- In a union the long tuple is refused. -/
example : toJson tupleEnv deadEnd 256 pair { extra .json .schemaBased with check := .strict } 0 Option.none Option.none freshSt
    = (.error .unexpected, freshSt) :=
  (tuple_length_checked_in_union rfl (xs := [1, 2, 3, 4]) rfl (by decide) _ _ _ _ _).1

example : keyOf tupleEnv (.tuple "tuple[str, any]".toList (.schema Option.none Option.none) Option.none
      (.cons (.leaf .str) (.cons .any .nil))) (extra .json .schemaBased) 7 freshSt = (.ok "b,c".toList, freshSt) :=
  tuple_schema_key_joined (xs := [2, 8]) (ts := ["b".toList, "c".toList]) rfl
    (.cons (fun _ => rfl) (.cons (fun _ => rfl) .nil)) freshSt

end

end PC.Infer
