import Verif.Lemmas.SerCyclic

/-
Serialisation by schema and by inference.
-/

namespace PC.Infer
open PC.Float (F64)
open PC.Filter (FVal Filt)

variable {α : Type}

/-! ### A world to try things in: objects are numbers, `shape` tells what they are -/

namespace Demo

def world (shape : Nat → Shape Nat) : World Nat where
  identity a := a
  shape := shape
  filterKey a := match shape a with
    | .str (.utf8 t) => .s (String.ofList t)
    | _ => .i a
  str a := match shape a with
    | .str s => .ok s
    | .bytes _ => .ok (.utf8 "b'x'".toList)
    | _ => .ok (.utf8 "obj".toList)
  hash _ := .ok ()
  qualname _ := Option.none
  mkSet ys := .ok (.set ys)
  mkFrozenset ys := .ok (.frozenset ys)
  showF64 _ := "1.5".toList
  fromUtf8 _ := some "x".toList
  stack := 100

def env (shape : Nat → Shape Nat) (root : Schema Nat) : Env Nat where
  world := world shape
  platform := .release
  isType k a := match k, shape a with
    | .bool, .bool _ => .exact
    | .int, .int _ => .exact
    | .int, .intSub (some _) => .subclass
    | .float, .float _ => .exact
    | .float, .floatSub _ => .subclass
    | .str, .str _ => .exact
    | .str, .strSub _ => .subclass
    | _, _ => .no
  extractInt a := match shape a with
    | .int i => some i
    | .intSub i => i
    | _ => Option.none
  extractBool a := match shape a with
    | .bool b => some b
    | _ => Option.none
  extractFloat a := match shape a with
    | .float f => some f
    | .floatSub f => some f
    | _ => Option.none
  truthy _ := true
  asStr a := match shape a with
    | .str s => some s
    | .strSub s => some s
    | _ => Option.none
  asBytes a := match shape a with
    | .bytes b => some b
    | _ => Option.none
  asList a := match shape a with
    | .list xs => some xs
    | _ => Option.none
  asSet frozen a := match frozen, shape a with
    | false, .set xs => some xs
    | true, .frozenset xs => some xs
    | _, _ => Option.none
  asDict a := match shape a with
    | .dict es => some es
    | _ => Option.none
  hash _ := 0
  allow _ _ a := match shape a with
    | .pydantic => .ok true
    | _ => .ok false
  root a := .ok (a + 1)
  inner a _ _ := .ok (a + 1)
  dicts _ a := match shape a with
    | .dict es => some (es, Option.none)
    | _ => Option.none
  mkDict es := .ok (.dict es)
  keyEq _ _ := false
  serializerOf _ := .ok (⟨.iso8601, .utf8, .null⟩, root)
  defs _ := root

def extra (mode : Mode) (duck : Duck) : Extra Nat where
  mode := mode
  config := ⟨.iso8601, .utf8, .null⟩
  check := .none
  serializeUnknown := false
  fallback := Option.none
  duck := duck
  byAlias := Option.none
  excludeNone := false
  excludeUnset := false
  model := Option.none

def field (name : String) (alias : Option String) : FieldInfo := ⟨name.toList, alias.map (·.toList), true, some true⟩

/-- A model with a number and a list of models of the same class. -/
def tree : Schema Nat :=
  .model "Tree".toList 0 false false
    (.fields .simpleDict (.cons (field "n" (some "num")) (.leaf .int)
      (.cons (field "kids" Option.none) (.list "list[Tree]".toList (.schema Option.none Option.none) (.ref 0)) .nil)))

/-- Two models, one the child of the other; then plain data, with sharing (13) and a cycle (15). -/
def table : List (Shape Nat) :=
  [.pydantic, .dict [(2, 3), (4, 5)], .str (.utf8 "n".toList), .int 7, .str (.utf8 "kids".toList), .list [6],
    .pydantic, .dict [(2, 8), (4, 9)], .int 8, .list [], .dict [(2, 13), (4, 11)], .tuple [13, 13, 12],
    .float (.fin 3 1), .list [3], .none, .list [3, 16], .dict [(2, 15)]]

/-- The objects of a table; all others are `None`. -/
def shapes (table : List (Shape Nat)) (a : Nat) : Shape Nat := (table[a]?).getD .none

/-- Text is UTF-8, no paths or patterns, keys are text. -/
def plain (table : List (Shape Nat)) : Shape Nat → Bool
  | .str (.lone _) => false
  | .path => false
  | .pattern _ => false
  | .intSub Option.none => false
  | .dict es => es.all fun e => match shapes table e.1 with
    | .str (.utf8 _) => true
    | _ => false
  | _ => true

theorem plain_of (t : List (Shape Nat)) (h : t.all (plain t) = true) (a : Nat) : plain t (shapes t a) = true := by
  unfold shapes
  cases ha : t[a]? with
  | none => rfl
  | some s => exact List.all_eq_true.1 h s (List.mem_of_getElem? ha)

theorem ordinary {t : List (Shape Nat)} (ht : t.all (plain t) = true) (root : Schema Nat) :
    Ordinary (env (shapes t) root) where
  str a s h := by
    have := plain_of t ht a
    simp only [env, world] at h
    rw [h] at this
    cases s with
    | utf8 t => exact ⟨t, rfl⟩
    | lone _ => simp [plain] at this
  path a s h := by
    have := plain_of t ht a
    simp only [env, world] at h
    rw [h] at this
    simp [plain] at this
  pattern a s h := by
    have := plain_of t ht a
    simp only [env, world] at h
    rw [h] at this
    simp [plain] at this
  stack := by simp [env, world]
  bools := by
    refine ⟨fun a h => ?_, fun a h => ?_, fun a h => ?_⟩ <;> simp only [env, world] at h ⊢ <;>
      cases ha : shapes t a <;> simp [ha] at h ⊢
  boolsFinal a := by
    simp only [env]
    cases shapes t a <;> simp
  ints := by
    refine ⟨fun a h => ?_, fun a h => ?_, fun a h => ?_⟩ <;> simp only [env, world] at h ⊢ <;>
      have hpl := plain_of t ht a <;> cases ha : shapes t a <;> simp [ha] at h ⊢
    · rename_i i; cases i <;> simp at h ⊢
    · rename_i i; cases i <;> simp at h ⊢
    · rename_i i; cases i <;> simp at h ⊢
  floats := by
    refine ⟨fun a h => ?_, fun a h => ?_, fun a h => ?_⟩ <;> simp only [env, world] at h ⊢ <;>
      cases ha : shapes t a <;> simp [ha] at h ⊢
  strs := by
    refine ⟨fun a h => ?_, fun a h => ?_, fun a h => ?_⟩ <;> simp only [env, world] at h ⊢ <;>
      cases ha : shapes t a <;> simp [ha] at h ⊢
  keys mode a main extras h := by
    have hpl := plain_of t ht a
    simp only [env, world] at h ⊢
    cases ha : shapes t a <;> simp [ha] at h
    obtain ⟨rfl, rfl⟩ := h
    rw [ha] at hpl
    simp only [plain, List.all_eq_true] at hpl
    refine ⟨fun kv hkv => ?_, by simp⟩
    have := hpl kv hkv
    split at this
    · rename_i h; exact ⟨_, h⟩
    · cases this

end Demo

/-! ### C74: both ways to JSON agree -/

/-- C74. `to_python(mode='json')` gives what a reader of the output of `to_json` sees, or both raise the same error; with
the same warnings. For all schemas (of the kinds modelled) and values, under the conditions on the data and the
arguments in `Spec/SerEngine.lean`; without them it fails, see the theorems below. -/
theorem json_ways_agree_partial {E : Env α} (hp : E.platform.Valid) (ho : Ordinary E) {s : Schema α}
    (hfl : s.floatsOk E) {x : Extra α} (hs : SchemasOk E x) {incl excl : Option FVal} (hc : CallOk E s x incl excl)
    (bottom : Recs α) (n : Nat) (hn : E.platform.limit < n) (a : α) :
    Agree E.world (toPython E bottom n s x a incl excl freshSt) (toJson E bottom n s x a incl excl freshSt) := by
  have hb : BottomFits E (deadEnd : Recs α) :=
    ⟨fun _ _ _ _ _ _ _ => ⟨rfl, rfl⟩, fun _ _ _ _ _ _ _ _ => ⟨rfl, rfl⟩⟩
  have hr := recs_agree ho hs.defs hb n
  have hat := whole_at hp bottom deadEnd n n hn hn s
  unfold toPython toJson
  rw [(hat.py x a incl excl freshSt fresh_inv).1, (hat.json x a incl excl freshSt fresh_inv).1]
  exact build_agree ho hr.1 (fun d _ => hr.2 d) s hfl x a incl excl freshSt hs hc

/-- C74, what the Python value is made of: JSON types only. -/
theorem json_mode_is_jsonable_partial {E : Env α} (hp : E.platform.Valid) (ho : Ordinary E) {s : Schema α}
    (hfl : s.floatsOk E) {x : Extra α} (hs : SchemasOk E x) {incl excl : Option FVal} (hc : CallOk E s x incl excl)
    (bottom : Recs α) (n : Nat) (hn : E.platform.limit < n) (a : α) {y : Py α} {st : St}
    (h : toPython E bottom n s x a incl excl freshSt = (.ok y, st)) :
    ∃ d, toJson E bottom n s x a incl excl freshSt = (.ok d, st) ∧ y.doc E.world = some d.norm := by
  have := json_ways_agree_partial hp ho hfl hs hc bottom n hn a
  rw [h] at this
  cases hj : toJson E bottom n s x a incl excl freshSt with
  | mk r st' =>
    rw [hj] at this
    cases r with
    | error e => exact this.elim
    | ok d => exact ⟨d, by rw [this.2], this.1⟩

section
open Demo

example : let E := env (shapes table) tree
    E.platform.Valid ∧ Ordinary E ∧ tree.floatsOk E ∧ SchemasOk E (extra .json .schemaBased)
      ∧ CallOk E tree (extra .json .schemaBased) Option.none Option.none
      ∧ (toJson E deadEnd 256 tree (extra .json .schemaBased) 0 Option.none Option.none freshSt).1
        = .ok (.obj [("num".toList, .int 7),
            ("kids".toList, .arr [.obj [("num".toList, .int 8), ("kids".toList, .arr [])]])])
      ∧ ∃ y, (toPython E deadEnd 256 tree (extra .json .schemaBased) 0 Option.none Option.none freshSt).1 = .ok y
        ∧ y.doc E.world = some (.obj [("num".toList, .int 7),
            ("kids".toList, .arr [.obj [("num".toList, .int 8), ("kids".toList, .arr [])]])]) := by
  refine ⟨.inl ⟨rfl, rfl⟩, ordinary rfl tree, ⟨trivial, trivial, trivial⟩,
    ⟨fun _ => ⟨trivial, trivial, trivial⟩, ?_, .inl rfl⟩, ⟨rfl, rfl, rfl, .inl (by decide), .inl ⟨rfl, rfl⟩, .inl rfl⟩,
    rfl, _, rfl, rfl⟩
  intro a c s h
  simp only [env, Except.ok.injEq, Prod.mk.injEq] at h
  obtain ⟨rfl, rfl⟩ := h
  exact ⟨⟨trivial, trivial, trivial⟩, .inl (by decide)⟩

/-- C74, what is missing: `exclude` reaches the items of a set in `to_json`, not in `to_python`: with `exclude={0}` the
tuple `(1, 2)` in a set loses its first item. -/
theorem json_ways_differ_on_filtered_sets :
    let E := env (shapes [.set [1], .tuple [2, 3], .int 1, .int 2]) .any
    let x := extra .json .schemaBased
    let excl := some (FVal.set [.i 0])
    (∃ y, (toPython E deadEnd 256 .any x 0 Option.none excl freshSt).1 = .ok y
      ∧ y.doc E.world = some (.arr [.arr [.int 1, .int 2]]))
    ∧ (toJson E deadEnd 256 .any x 0 Option.none excl freshSt).1 = .ok (.arr [.arr [.int 2]]) :=
  ⟨⟨_, rfl, rfl⟩, rfl⟩

/-- C74, what is missing: with `ser_json_inf_nan='strings'`, `to_json` writes text, `to_python` gives the float. -/
theorem json_ways_differ_on_infinity :
    let E := env (shapes [.float .posInf]) .any
    let x := { extra .json .schemaBased with config := ⟨.iso8601, .utf8, .strings⟩ }
    (∃ y, (toPython E deadEnd 256 .any x 0 Option.none Option.none freshSt).1 = .ok y
      ∧ y.doc E.world = some (.float .posInf))
    ∧ (toJson E deadEnd 256 .any x 0 Option.none Option.none freshSt).1 = .ok (.str "Infinity".toList) :=
  ⟨⟨_, rfl, rfl⟩, rfl⟩

/-- C74, what is missing: for a field of type `float` `to_python(mode='json')` gives infinities and NaN as they are,
though `to_json` writes `null` (the default). -/
theorem json_ways_differ_on_float_fields :
    let E := env (shapes [.float .nan]) .any
    let x := extra .json .schemaBased
    (∃ y, (toPython E deadEnd 256 (.leaf (.float .null)) x 0 Option.none Option.none freshSt).1 = .ok y
      ∧ y.doc E.world = some (.float .nan))
    ∧ (toJson E deadEnd 256 (.leaf (.float .null)) x 0 Option.none Option.none freshSt).1 = .ok .null :=
  ⟨⟨_, rfl, rfl⟩, rfl⟩

/-- C74, what is missing: the pattern of a regular expression over bytes is written as its `str` by `to_json`, and
returned as it is by `to_python(mode='json')`, though bytes are no JSON type. -/
theorem json_ways_differ_on_bytes_patterns :
    let E := env (shapes [.pattern (.ok 1), .bytes [120]]) .any
    let x := extra .json .schemaBased
    (∃ y, (toPython E deadEnd 256 .any x 0 Option.none Option.none freshSt).1 = .ok y ∧ y.doc E.world = Option.none)
    ∧ (toJson E deadEnd 256 .any x 0 Option.none Option.none freshSt).1 = .ok (.str "b'x'".toList) :=
  ⟨⟨_, rfl, rfl⟩, rfl⟩

/-- C74, what is missing: with `serialize_unknown=True` a cycle is cut by `"..."` in `to_json` and an error in
`to_jsonable_python`. -/
theorem json_ways_differ_on_unknown_cycles :
    let E := env (shapes [.list [0]]) .any
    let x := { extra .json .schemaBased with serializeUnknown := true }
    (toPython E deadEnd 256 .any x 0 Option.none Option.none freshSt).1 = .error .cyclic
    ∧ (toJson E deadEnd 256 .any x 0 Option.none Option.none freshSt).1 = .ok (.arr [.str "...".toList]) :=
  ⟨rfl, rfl⟩

/-- C74, what is missing: an object that is no `float` but has `__float__` (a `Decimal`) in a field of type `float` is a
number in `to_json`, without a warning; in `to_python(mode='json')` it is a text, and there is a warning. -/
theorem json_ways_differ_on_decimals :
    let E := { env (shapes [.text (.ok "1.5".toList)]) .any with extractFloat := fun _ => some (.fin 3 1) }
    let x := extra .json .schemaBased
    (∃ y st, toPython E deadEnd 256 (.leaf (.float .null)) x 0 Option.none Option.none freshSt = (.ok y, st)
      ∧ y.doc E.world = some (.str "1.5".toList) ∧ st.warnings = ["float".toList])
    ∧ toJson E deadEnd 256 (.leaf (.float .null)) x 0 Option.none Option.none freshSt
      = (.ok (.float (.fin 3 1)), freshSt) :=
  ⟨⟨_, _, rfl, rfl, rfl⟩, rfl⟩

/-- C74, what is missing: with `serialize_as_any`, something else in place of a typed dict gets no warning in
`to_python`, but one in `to_json`. -/
theorem json_ways_differ_on_typed_dicts :
    let E := env (shapes [.int 1]) .any
    let x := extra .json .needsInference
    let s : Schema Nat := .fields .simpleDict .nil
    (∃ y, (toPython E deadEnd 256 s x 0 Option.none Option.none freshSt) = (.ok y, freshSt)
      ∧ y.doc E.world = some (.int 1))
    ∧ ∃ st, toJson E deadEnd 256 s x 0 Option.none Option.none freshSt = (.ok (.int 1), st)
      ∧ st.warnings = ["general-fields".toList] :=
  ⟨⟨_, rfl, rfl⟩, _, rfl, rfl⟩

end

/-! ### C75: serialisation comes to an end -/

/-- C75. For every schema, value (however its objects refer to each other), and arguments, `to_python` and `to_json`
come to an end: calls of inference and of definitions never nest deeper than the limit of the recursion guard, so what
happens beyond (`bottom`) does not matter, nor how much further one could go (`n`). -/
theorem serialisation_ends {E : Env α} (hp : E.platform.Valid) (s : Schema α) (x : Extra α) (a : α)
    (incl excl : Option FVal) :
    ∃ r q, ∀ (bottom : Recs α) (n : Nat), E.platform.limit < n →
      toPython E bottom n s x a incl excl freshSt = r ∧ toJson E bottom n s x a incl excl freshSt = q := by
  refine ⟨toPython E deadEnd (E.platform.limit + 1) s x a incl excl freshSt,
    toJson E deadEnd (E.platform.limit + 1) s x a incl excl freshSt, fun bottom n hn => ?_⟩
  have h := whole_at hp bottom deadEnd n (E.platform.limit + 1) hn (Nat.lt_succ_self _) s
  exact ⟨(h.py x a incl excl freshSt fresh_inv).1, (h.json x a incl excl freshSt fresh_inv).1⟩

section
open Demo

example : let E := env (shapes table) tree
    E.platform.Valid ∧ Reaches E.world (extra .json .schemaBased) 15 15
      ∧ (toJson E deadEnd 256 .any (extra .json .schemaBased) 15 Option.none Option.none freshSt).1 = .error .cyclic :=
  ⟨.inl ⟨rfl, rfl⟩, .step (b := 16) (by simp [Part, env, world, shapes, table]) (.part (by
    simp [Part, env, world, shapes, table])), rfl⟩

end

/-! ### C76: plain data comes out as it is -/

/-- C76. Plain data nested no deeper than the limit comes out of `to_json` exactly as it is, without warnings, whether
or not objects are shared; nested deeper it is refused with the error for depth. -/
theorem plain_data_to_json {E : Env α} (hp : E.platform.Valid)
    (hid : ∀ a b, E.world.identity a = E.world.identity b → a = b) (hst : 0 < E.world.stack) {x : Extra α}
    (hu : x.serializeUnknown = false) {d : Json} {a : α} (hd : d.isOf E.world a) (bottom : Recs α) (n : Nat)
    (hn : E.platform.limit < n) :
    (d.height ≤ E.platform.limit → ∃ st, toJson E bottom n .any x a Option.none Option.none freshSt = (.ok d, st)
      ∧ st.warnings = [])
    ∧ (E.platform.limit < d.height → (toJson E bottom n .any x a Option.none Option.none freshSt).1 = .error .depth) := by
  have h := plain_json (bottom := bottom) hp hid hst hu d a n [] freshSt hd (by intro k hk; cases hk)
    (Guard.good_init _) (by simpa using hn)
  have he : toJson E bottom n .any x a Option.none Option.none freshSt
      = (recs E bottom n).infer.json x a Option.none Option.none freshSt := by
    simp only [toJson, build, anySer]
  rw [he]
  refine ⟨fun hle => ?_, fun hlt => (h.2 (by simpa using hlt) trivial).1⟩
  obtain ⟨o, st, hr, rfl, _, hw⟩ := h.1 (by simpa using hle)
  exact ⟨st, hr, hw⟩

/-- C76 for `to_python` in mode `python`: a copy, with the same scalars. -/
theorem plain_data_to_python {E : Env α} (hp : E.platform.Valid)
    (hid : ∀ a b, E.world.identity a = E.world.identity b → a = b) {x : Extra α}
    (hm : x.mode = .python) {d : Json} {a : α} (hd : d.isOf E.world a) (bottom : Recs α) (n : Nat)
    (hn : E.platform.limit < n) (hle : d.height ≤ E.platform.limit) :
    ∃ y st, toPython E bottom n .any x a Option.none Option.none freshSt = (.ok y, st) ∧ d.copied E.world a y
      ∧ st.warnings = [] := by
  have h := plain_py (bottom := bottom) hp hid hm d a n [] freshSt hd (by intro k hk; cases hk)
    (Guard.good_init _) (by simpa using hn)
  have he : toPython E bottom n .any x a Option.none Option.none freshSt
      = (recs E bottom n).infer.py x a Option.none Option.none freshSt := by
    simp only [toPython, build, anySer]
  rw [he]
  obtain ⟨o, st, hr, ho, _, hw⟩ := h.1 (by simpa using hle)
  exact ⟨o, st, hr, ho, hw⟩

section
open Demo

/-- Object 10 of the table: a list occurs three times in it. -/
example : let E := env (shapes table) tree
    let d : Json := .obj [("n".toList, .arr [.int 7]),
      ("kids".toList, .arr [.arr [.int 7], .arr [.int 7], .float (.fin 3 1)])]
    d.isOf E.world 10 ∧ d.height ≤ E.platform.limit
      ∧ (∀ a b, E.world.identity a = E.world.identity b → a = b) ∧ 0 < E.world.stack
      ∧ (extra .json .schemaBased).serializeUnknown = false
      ∧ (toPython E deadEnd 256 .any (extra .python .schemaBased) 10 Option.none Option.none freshSt).1
        = .ok (.dict [(.same 2, .list [.same 3]), (.same 4, .tuple [.list [.same 3], .list [.same 3], .same 12])]) := by
  refine ⟨?_, by decide, fun _ _ h => h, by decide, rfl, rfl⟩
  simp [Json.isOf, areEntries, areItems, env, world, shapes, table, F64.isFinite]

/-- Nested lists of any depth: object `n + 1` is a list of object `n`. -/
def Demo.deep : Nat → Shape Nat
  | 0 => .none
  | n + 1 => .list [n]

/-- The document. -/
def Demo.deepDoc : Nat → Json
  | 0 => .null
  | n + 1 => .arr [deepDoc n]

theorem Demo.deep_isOf : ∀ n, (deepDoc n).isOf (world deep) n
  | 0 => by simp [deepDoc, Json.isOf, world, deep]
  | n + 1 => by
    simp only [deepDoc, Json.isOf]
    exact ⟨[n], .inl rfl, by simp only [areItems]; exact ⟨deep_isOf n, trivial⟩⟩

theorem Demo.deep_height : ∀ n, (deepDoc n).height = n + 1
  | 0 => rfl
  | n + 1 => by simp [deepDoc, Json.height, heightItems, deep_height n]

/-- 254 lists inside each other pass, 255 do not: with the `None` inside there are 255 levels, the limit. -/
example : let E := env deep .any
    (toJson E deadEnd 256 .any (extra .json .schemaBased) 254 Option.none Option.none freshSt).1 = .ok (deepDoc 254)
    ∧ (toJson E deadEnd 256 .any (extra .json .schemaBased) 255 Option.none Option.none freshSt).1 = .error .depth := by
  have h := fun n => plain_data_to_json (E := env deep .any) (x := extra .json .schemaBased) (.inl ⟨rfl, rfl⟩)
    (fun _ _ h => h) (by decide) rfl (deep_isOf n) deadEnd 256 (by decide)
  obtain ⟨st, h1, _⟩ := (h 254).1 (by rw [deep_height]; decide)
  exact ⟨by rw [h1], (h 255).2 (by rw [deep_height]; decide)⟩

end

/-! ### C77: cyclic data is refused -/

/-- C77. Data with a cycle in it, anywhere, is never written by `to_json` (unless `serialize_unknown`, which cuts
cycles): there is an error. -/
theorem cyclic_data_not_written {E : Env α} (hp : E.platform.Valid) {x : Extra α} (hu : x.serializeUnknown = false)
    {a b : α} (hab : a = b ∨ Reaches E.world x a b) (hcyc : Reaches E.world x b b) (bottom : Recs α) (n : Nat)
    (hn : E.platform.limit < n) :
    ∃ e, (toJson E bottom n .any x a Option.none Option.none freshSt).1 = .error e := by
  have hat := whole_at hp bottom deadEnd n n hn hn .any
  have heq := (hat.json x a Option.none Option.none freshSt fresh_inv).1
  unfold toJson
  rw [heq]
  cases hr : (build E (recs E deadEnd n) .any).json x a Option.none Option.none freshSt with
  | mk r st =>
    cases r with
    | error e => exact ⟨e, rfl⟩
    | ok d =>
      simp only [build, anySer] at hr
      have := acc_not_cyclic (json_takes_acc hu n a ⟨_, _, _, hr⟩)
      rcases hab with rfl | hab
      · exact absurd hcyc this.1
      · exact absurd hcyc (this.2 b hab)

/-- C77 for `to_python(mode='json')` (`to_jsonable_python`). -/
theorem cyclic_data_not_jsonable {E : Env α} (hp : E.platform.Valid) {x : Extra α} (hm : x.mode = .json)
    {a b : α} (hab : a = b ∨ Reaches E.world x a b) (hcyc : Reaches E.world x b b) (bottom : Recs α) (n : Nat)
    (hn : E.platform.limit < n) :
    ∃ e, (toPython E bottom n .any x a Option.none Option.none freshSt).1 = .error e := by
  have hat := whole_at hp bottom deadEnd n n hn hn .any
  have heq := (hat.py x a Option.none Option.none freshSt fresh_inv).1
  unfold toPython
  rw [heq]
  cases hr : (build E (recs E deadEnd n) .any).py x a Option.none Option.none freshSt with
  | mk r st =>
    cases r with
    | error e => exact ⟨e, rfl⟩
    | ok d =>
      simp only [build, anySer] at hr
      have := acc_not_cyclic (py_takes_acc hm n a ⟨_, _, _, hr⟩)
      rcases hab with rfl | hab
      · exact absurd hcyc this.1
      · exact absurd hcyc (this.2 b hab)

section
open Demo

example : let E := env (shapes table) tree
    let x := extra .json .schemaBased
    x.serializeUnknown = false ∧ x.mode = .json ∧ Reaches E.world x 16 15 ∧ Reaches E.world x 15 15 :=
  ⟨rfl, rfl, .part (by simp [Part, env, world, shapes, table]), .step (b := 16)
    (by simp [Part, env, world, shapes, table]) (.part (by simp [Part, env, world, shapes, table]))⟩

/-- In mode `python` a cycle is no error: the object is returned inside its copy. -/
example : let E := env (shapes [.list [0]]) .any
    (toPython E deadEnd 256 .any (extra .python .schemaBased) 0 Option.none Option.none freshSt).1
      = .ok (.list [.same 0]) := rfl

end

/-! ### C78: models met by inference with `serialize_as_any` -/

/-- C78. One expects `serialize_as_any` to give the output of the serialiser of the class of each object. For a model met
by inference (a value of type `Any`, or an argument of the function `to_json`) it fails: whatever the model and its
class, `to_json` raises the error for circular references, and `to_python` in mode `python` returns the object itself,
unserialised. -/
theorem as_any_fails_on_inferred_models {E : Env α} (hp : E.platform.Valid) {x : Extra α} (hx : x.duck = .needsInference)
    {a : α} (hsh : E.world.shape a = .pydantic) {c : Config} {name : Text} {cls : Nat} {hasExtra root : Bool}
    {s : Schema α} (hser : E.serializerOf a = .ok (c, .model name cls hasExtra root s)) (incl excl : Option FVal)
    (bottom : Recs α) (n : Nat) (hn : E.platform.limit < n) :
    (x.serializeUnknown = false →
      (toJson E bottom n .any x a incl excl freshSt).1 = .error .cyclic)
    ∧ (x.mode = .json → (toPython E bottom n .any x a incl excl freshSt).1 = .error .cyclic)
    ∧ (x.mode = .python → (toPython E bottom n .any x a incl excl freshSt).1 = .ok (.same a)) := by
  obtain ⟨hl1, hl2, _⟩ := Guard.valid_limit hp
  obtain ⟨n, rfl⟩ : ∃ m, n = m + 1 + 1 := ⟨n - 2, by simp [Guard.arraySize] at hl1; omega⟩
  obtain ⟨_, hen, _⟩ := Guard.enter_good hp (E.world.identity a, inferDefRefId) (Guard.good_init E.platform)
  obtain ⟨g, he, hg⟩ := hen (by simp) (by simp only [List.length_nil]; omega)
  obtain ⟨hcy, _, _⟩ := Guard.enter_good hp (E.world.identity a, inferDefRefId) hg
  obtain ⟨g1, he1, hg1⟩ := hcy (by simp)
  obtain ⟨g2, hlv, _⟩ := Guard.leave_good hg1
  have hfr : freshSt.guard = Guard.State.init := rfl
  refine ⟨fun hu => ?_, fun hm => ?_, fun hm => ?_⟩
  · simp only [toJson, build, anySer, recs, inferJson, guarded, hfr, he, jsonBody, hsh, serializerFn, hser, modelSer,
      Extra.forModel, Extra.forSerializer, hx, Duck.next, if_true, he1, hlv, hu]
    simp
  · simp only [toPython, build, anySer, recs, inferPy, hm, guarded, hfr, he, pyJsonBody, hsh, serializerFn, hser,
      modelSer, Extra.forModel, Extra.forSerializer, hx, Duck.next, if_true, he1, hlv]
  · simp only [toPython, build, anySer, recs, inferPy, hm, guarded, hfr, he, pyPythonBody, hsh, serializerFn, hser,
      modelSer, Extra.forModel, Extra.forSerializer, hx, Duck.next, if_true, he1, hlv]

section
open Demo

/-- The model 6 of the table: by its own serialiser it is written, by inference not. -/
example : let E := env (shapes table) tree
    let x := extra .json .needsInference
    E.world.shape 6 = .pydantic ∧ (∃ c, E.serializerOf 6 = .ok (c, tree))
      ∧ (toJson E deadEnd 256 tree x 6 Option.none Option.none freshSt).1
        = .ok (.obj [("num".toList, .int 8), ("kids".toList, .arr [])])
      ∧ (toJson E deadEnd 256 .any x 6 Option.none Option.none freshSt).1 = .error .cyclic :=
  ⟨rfl, ⟨_, rfl⟩, rfl, rfl⟩

end

end PC.Infer
