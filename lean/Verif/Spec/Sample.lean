import Verif.Spec.Conforms

/-
A small world of Python values, used to show that the hypotheses of the theorems about schemas can be met.
-/

namespace PC.Engine.Sample
open PC.Comb PC.Coll PC.Union PC.Fields PC.Lookup

/-- Values; `float n` is the float with the integral value `n`. -/
inductive PV where
  | none
  | int (n : Int)
  | float (n : Int)
  | str (s : String)
  | list (xs : List PV)
  | tuple (xs : List PV)
  | set (xs : List PV)
  | dict (kvs : List (PV × PV))
  /-- an instance of a model class, without and with extra items -/
  | inst (cls : Nat) (fields : List (String × PV)) (fieldsSet : List String)
  | instX (cls : Nat) (fields extra : List (String × PV)) (fieldsSet : List String)

mutual
/-- Python's `==` of values (sets and dicts by order). -/
def PV.same : PV → PV → Bool
  | .none, .none => true
  | .int a, .int b => a == b
  | .int a, .float b => a == b
  | .float a, .int b => a == b
  | .float a, .float b => a == b
  | .str a, .str b => a == b
  | .tuple a, .tuple b => sameAll a b
  | .list a, .list b => sameAll a b
  | _, _ => false
/-- `==` of sequences. -/
def PV.sameAll : List PV → List PV → Bool
  | [], [] => true
  | a :: as, b :: bs => PV.same a b && PV.sameAll as bs
  | _, _ => false
end

/-- Lists, sets and dicts cannot be hashed. -/
def PV.hashErr : PV → Option (Bool × PyErr)
  | .list _ => some (true, ⟨"unhashable type: 'list'"⟩)
  | .set _ => some (true, ⟨"unhashable type: 'set'"⟩)
  | .dict _ => some (true, ⟨"unhashable type: 'dict'"⟩)
  | _ => .none

/-- A key as a location item. -/
def PV.loc : PV → LocItem
  | .str s => .s s
  | .int n => .i n
  | _ => .s "?"

/-- A key that must be a string. -/
def PV.asStr (v : PV) : ValResult PV String :=
  match v with
  | .str s => .ok s
  | v => .error (.new (.other "string_type") v)

/-- The items of a sequence, with its length. -/
def seq (xs : List PV) : Seq PV := ⟨xs.map .ok, some xs.length, true⟩

/-- `d[name]`. -/
def find (name : String) : List (PV × PV) → Option PV
  | [] => .none
  | (k, v) :: rest =>
    match k with
    | .str s => if s = name then some v else find name rest
    | _ => find name rest

/-- The instance a value is, if it is one. -/
def PV.inst? : PV → Option (Nat × Instance PV)
  | .inst cls ds fs => some (cls, ⟨ds, .none, fs⟩)
  | .instX cls ds xs fs => some (cls, ⟨ds, some xs, fs⟩)
  | _ => .none

/-- Subscription, for alias paths; attributes of instances. -/
def ops : PyOps PV where
  isStr | .str _ => true | _ => false
  isDict | .dict _ => true | _ => false
  getItem v i :=
    match v, i with
    | .dict kvs, .s k => find k kvs
    | .list xs, .i (.ofNat n) => xs[n]?
    | _, _ => .none
  getAttr v n := .ok (v.inst?.bind fun x => (Cls.attributes x.2).get n)

/-- A dict as a typed dict sees it. -/
def dictView (kvs : List (PV × PV)) : DictView PV where
  get key := key.pyGetDictItem ops fun name => .ok (find name kvs)
  isPyGetAttr := false
  entries := .ok (kvs.map .ok)
  lastKey := .none

/-- An object whose attributes are read. -/
def attrView (v : PV) : DictView PV where
  get key := key.pyGetAttr ops v .none
  isPyGetAttr := true
  entries := .ok ((v.inst?.map fun x => Cls.attributes x.2).getD [] |>.map fun kv => .ok (.str kv.1, kv.2))
  lastKey := .none

/-- Classes are numbers; 10 more is a subclass.  In strict mode only the type itself, in lax mode also lists, tuples and sets for each other. -/
def world : World PV where
  identity _ := .none
  isNone | .none => true | _ => false
  noneV := .none
  asList strict v :=
    match v with
    | .list xs => .ok (seq xs, .exact)
    | .tuple xs => if strict then .error (.new (.other "list_type") v) else .ok (seq xs, .lax)
    | .set xs => if strict then .error (.new (.other "list_type") v) else .ok (seq xs, .lax)
    | v => .error (.new (.other "list_type") v)
  asSet strict v :=
    match v with
    | .set xs => .ok (seq xs, .exact)
    | .tuple xs => if strict then .error (.new (.other "set_type") v) else .ok (seq xs, .lax)
    | .list xs => if strict then .error (.new (.other "set_type") v) else .ok (seq xs, .lax)
    | v => .error (.new (.other "set_type") v)
  asTuple strict v :=
    match v with
    | .tuple xs => .ok (seq xs, .exact)
    | .list xs => if strict then .error (.new (.other "tuple_type") v) else .ok (seq xs, .lax)
    | .set xs => if strict then .error (.new (.other "tuple_type") v) else .ok (seq xs, .lax)
    | v => .error (.new (.other "tuple_type") v)
  asDict _ v :=
    match v with
    | .dict kvs => .ok (kvs.map .ok)
    | v => .error (.new (.other "dict_type") v)
  view _ v :=
    match v with
    | .dict kvs => .ok (dictView kvs)
    | v => .error (.new (.other "dict_type") v)
  hashing := ⟨PV.same, PV.hashErr⟩
  keyLoc := PV.loc
  keyOps := ⟨PV.asStr, PV.loc, fun | .str s => some s | _ => .none⟩
  mkList := .list
  mkSet := .set
  mkTuple := .tuple
  mkDict := .dict
  mkTyped d := .dict (d.map fun kv => (.str kv.1, kv.2))
  asFields _ fromAttributes v :=
    match v with
    | .dict kvs => .ok (dictView kvs)
    | v =>
      if fromAttributes && v.inst?.isSome then .ok (attrView v)
      else .error (.new (.other (if fromAttributes then "model_attributes_type" else "dict_type")) v)
  source cls v :=
    match v.inst? with
    | .none => .other
    | some (c, i) => if c = cls then .exact i else if c = cls + 10 then .subclass i else .other
  mkModel cls i :=
    match i.extra with
    | .none => .inst cls i.dict i.fieldsSet
    | some xs => .instX cls i.dict xs i.fieldsSet

theorem atInput_new (t : ErrType) (a : PV) : AtInput a (.new t a) :=
  ⟨List.cons_ne_nil _ _, fun e he => by rw [List.mem_singleton] at he; subst he; exact ⟨rfl, rfl⟩⟩

theorem find_mem {n : String} : ∀ {kvs : List (PV × PV)} {w : PV}, (.str n, w) ∈ kvs → ∃ x, find n kvs = some x
  | [], _, h => by cases h
  | (k, v) :: rest, w, h => by
    have hrest : (.str n, w) ∈ rest → ∃ x, find n rest = some x := find_mem
    rcases List.mem_cons.mp h with h | h'
    · injection h with h1 h2
      subst h1
      exact ⟨v, by simp [find]⟩
    · cases k with
      | str s =>
        simp only [find]
        split
        · exact ⟨_, rfl⟩
        · exact hrest h'
      | _ => exact hrest h'

theorem dictChoices_ok (get : String → Option PV) : ∀ (ps : List LookupPath) (e : ValError PV),
    dictChoices ops (fun n => .ok (get n)) ps ≠ .error e
  | [], e, h => by cases h
  | p :: ps, e, h => by
    simp only [dictChoices] at h
    split at h
    · rename_i h1; cases h1
    · exact dictChoices_ok get ps e h
    · split at h
      · cases h
      · exact dictChoices_ok get ps e h

theorem dictView_get (kvs : List (PV × PV)) (key : LookupKey) (e : ValError PV) : (dictView kvs).get key ≠ .error e := by
  intro h
  simp only [dictView] at h
  cases key with
  | simple p => simp only [LookupKey.pyGetDictItem] at h; split at h <;> cases h <;> contradiction
  | choice p q =>
    simp only [LookupKey.pyGetDictItem] at h
    split at h
    · contradiction
    · cases h
    · split at h <;> cases h <;> contradiction
  | pathChoices ps => exact dictChoices_ok _ ps e h

theorem dictView_lawful (a : PV) (kvs : List (PV × PV)) : ViewLawful world.keyOps a (dictView kvs) where
  get key e h := (dictView_get kvs key e h).elim
  entries e h := by cases h
  entry entries e h1 h2 := by
    cases h1
    obtain ⟨x, _, hx⟩ := List.mem_map.mp h2
    cases hx
  byName entries k w n h1 h2 h3 := by
    cases h1
    obtain ⟨x, hm, hx⟩ := List.mem_map.mp h2
    cases hx
    have hk : k = .str n := by
      cases k with
      | str s => cases h3; rfl
      | _ => cases h3
    subst hk
    obtain ⟨x, hx⟩ := find_mem hm
    refine ⟨x, ?_⟩
    simp only [dictView, LookupKey.pyGetDictItem, LookupPath.ofStr, hx]

theorem strGetAttrs_ok (k : String) (v : PV) (e : PyErr) : strGetAttrs ops k v ≠ .error e := by
  intro h
  simp only [strGetAttrs, ops] at h
  split at h <;> cases h

theorem attrRest_ok : ∀ (items : List PathItem) (v : PV) (e : PyErr), attrRest ops items v ≠ .error e
  | [], v, e, h => by cases h
  | item :: rest, v, e, h => by
    simp only [attrRest] at h
    split at h
    · exact attrRest_ok rest _ e h
    · cases h
    · rename_i h1
      cases item <;> simp only [PathItem.pyGetAttrs] at h1 <;> first | exact strGetAttrs_ok _ _ _ h1 | cases h1

theorem attrChoices_ok (v : PV) : ∀ (ps : List LookupPath) (e : PyErr), attrChoices ops v ps ≠ .error e
  | [], e, h => by cases h
  | p :: ps, e, h => by
    simp only [attrChoices] at h
    split at h
    · rename_i h1; exact strGetAttrs_ok _ _ _ h1
    · exact attrChoices_ok v ps e h
    · split at h
      · cases h
      · exact attrChoices_ok v ps e h
      · rename_i h1; exact attrRest_ok _ _ _ h1

theorem simplePyGetAttr_ok (key : LookupKey) (v : PV) (e : PyErr) : key.simplePyGetAttr ops v ≠ .error e := by
  intro h
  cases key with
  | simple p =>
    simp only [LookupKey.simplePyGetAttr] at h
    split at h <;> cases h
    rename_i h1
    cases h1
  | choice p q =>
    simp only [LookupKey.simplePyGetAttr] at h
    split at h
    · rename_i h1; cases h1
    · cases h
    · split at h <;> cases h
      rename_i h1
      cases h1
  | pathChoices ps => exact attrChoices_ok v ps e h

theorem attrView_lawful (v : PV) : ModelViewLawful world.keyOps v (attrView v) where
  get key e h := by
    exfalso
    simp only [attrView, LookupKey.pyGetAttr] at h
    split at h
    · cases h
    · rename_i h1; exact simplePyGetAttr_ok _ _ _ h1
  entries e h := by cases h
  entry entries e h1 h2 := by
    cases h1
    obtain ⟨x, _, hx⟩ := List.mem_map.mp h2
    cases hx
  byName h := by cases h

theorem world_lawful : world.Lawful where
  asList strict a e h := by
    cases a <;> simp only [world] at h <;> (try split at h) <;> cases h <;> exact atInput_new _ _
  asSet strict a e h := by
    cases a <;> simp only [world] at h <;> (try split at h) <;> cases h <;> exact atInput_new _ _
  asTuple strict a e h := by
    cases a <;> simp only [world] at h <;> (try split at h) <;> cases h <;> exact atInput_new _ _
  asDict strict a e h := by cases a <;> simp only [world] at h <;> cases h <;> exact atInput_new _ _
  dictEntry strict a entries e h1 h2 := by
    cases a <;> simp only [world] at h1 <;> cases h1
    obtain ⟨x, _, hx⟩ := List.mem_map.mp h2
    cases hx
  view strict a e h := by cases a <;> simp only [world] at h <;> cases h <;> exact atInput_new _ _
  views strict a v h := by
    cases a <;> simp only [world] at h <;> cases h
    exact dictView_lawful _ _
  str k e h := by cases k <;> simp only [world, PV.asStr] at h <;> cases h <;> exact atInput_new _ _
  asFields strict fa a e h := by
    simp only [world] at h
    split at h
    · cases h
    · split at h
      · cases h
      · cases h; exact atInput_new _ _
  fieldViews strict fa a v h := by
    simp only [world] at h
    split at h
    · cases h
      exact ⟨fun key e h => (dictView_get _ key e h).elim, (dictView_lawful (.dict _) _).entries, (dictView_lawful _ _).entry,
        fun _ => (dictView_lawful PV.none _).byName⟩
    · split at h
      · cases h; exact attrView_lawful _
      · cases h

/-- The int validator: in lax mode integral floats too. -/
def intLeaf : Leaf PV where
  strict := false
  check
    | _, .int n => .ok (.int n, .exact)
    | false, .float n => .ok (.int n, .lax)
    | _, _ => .error (.other "int_type")

/-- The float validator: in lax mode also the string `1e3`. -/
def floatLeaf : Leaf PV where
  strict := false
  check
    | _, .float n => .ok (.float n, .exact)
    | _, .int n => .ok (.float n, .strict)
    | false, .str s => if s = "1e3" then .ok (.float 1000, .lax) else .error (.other "float_parsing")
    | _, _ => .error (.other "float_type")

/-- The string validator. -/
def strLeaf : Leaf PV where
  strict := false
  check
    | _, .str s => .ok (.str s, .exact)
    | _, _ => .error (.other "string_type")

/-- A literal: one string. -/
def litLeaf (t : String) : Leaf PV where
  strict := false
  check
    | _, .str s => if s = t then .ok (.str s, .exact) else .error (.other "literal_error")
    | _, _ => .error (.other "literal_error")

/-- A run in that world. -/
def env (defs : Nat → Schema PV) : Env PV where
  world := world
  platform := Guard.Platform.release
  defs := defs
  outOfFuel _ := fun a st => (.error (.new .recursionLoop a), st)
  panic := .error (.internal ⟨"panic"⟩)

/-- The state at the start of a validation. -/
def fresh : VState PV := ⟨Guard.State.init, .none, .none, .off, {}⟩

/-- Lookup of a field by its name only. -/
def byName (n : String) : KeyCollection := ⟨.simple (.ofStr n), .none, .none⟩

end PC.Engine.Sample
