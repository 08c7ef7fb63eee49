import Verif.Lemmas.Lookup

/-
Finding a field's value: C08 (first alias that resolves), C09 (Python and JSON agree), and the
locations of errors about looked-up values (C31).
-/

namespace PC.Lookup
variable {α : Type}

/-! ## C08 -/

/-- **C08** (dicts).  For any alias declaration and any combination of the alias/name switches that
the schema accepts, looking the field up in a dict finds the value at the first searched path
that resolves, and finds nothing exactly when none resolves. -/
theorem lookup_dict_first (alias? : Option Alias) (name : String) (byAlias byName : Bool)
    (c : KeyCollection) (key : LookupKey) (hc : KeyCollection.new alias? name = some c)
    (hk : c.select byAlias byName = .ok key) (ops : PyOps α)
    (get : String → Except PyErr (Option α)) (hget : ∀ k e, get k ≠ .error e) :
    ∃ r, key.pyGetDictItem ops get = .ok r ∧
      IsFirst (Resolves ops get) (searched alias? name byAlias byName)
        (r.map fun x => (x.1.items, x.2)) := by
  obtain ⟨hflat, htried, -, -⟩ := select_spec hc hk
  rw [dict_eq_choices ops get key hflat, ← htried]
  obtain ⟨r, h1, h2, -⟩ := dictChoices_spec ops get hget key.tried
  exact ⟨r, h1, h2⟩

/-- A path alias, an alternative path and the name: `AliasChoices(AliasPath('a', -1, 'b'), 'c')`. -/
def sampleAlias : Alias := .paths [[.s "a", .i (-1), .s "b"], [.s "c"]]

/-- `{'a': [{'b': 1}, {'x': 2}], 'c': 3, 'f': 4}`: the first path does not resolve. -/
def sampleJson : List (String × Json) :=
  [("a", .arr [.obj [("b", .num "1")], .obj [("x", .num "2")]]), ("c", .num "3"), ("f", .num "4")]

/-- The lookup of field `f` with the given switches in (the Python form of) a JSON object. -/
def sampleLookup (byAlias byName : Bool) (entries : List (String × Json)) :
    Option (Except PyErr (ValResult Py (Option (LookupPath × Py)))) :=
  (KeyCollection.new (some sampleAlias) "f").map fun c =>
    (c.select byAlias byName).map fun key =>
      key.pyGetDictItem pyOps fun k => .ok (getEntry (.s k) (Json.toPyEntries entries []))

example : ∃ c key, KeyCollection.new (some sampleAlias) "f" = some c ∧
    c.select true true = .ok key ∧ searched (some sampleAlias) "f" true true =
      [[.s "a", .i (-1), .s "b"], [.s "c"], [.s "f"]] := ⟨_, _, rfl, rfl, rfl⟩

example : sampleLookup true true sampleJson = some (.ok (.ok (some (⟨"c", []⟩, .num "3")))) := rfl
example : sampleLookup false true sampleJson = some (.ok (.ok (some (⟨"f", []⟩, .num "4")))) := rfl
example : sampleLookup true false [("f", .null)] = some (.ok (.ok none)) := rfl
example : sampleLookup true false [("a", .arr [.null, .obj [("b", .num "7")]])] =
    some (.ok (.ok (some (⟨"a", [.neg 1, .s "b"]⟩, .num "7")))) := rfl

/-- **C08** (no other outcome).  When the dict raises while a key is looked up, the lookup fails with
that exception provided no earlier path resolves; it never reports another value. -/
theorem lookup_dict_raises (alias? : Option Alias) (name : String) (byAlias byName : Bool)
    (c : KeyCollection) (key : LookupKey) (hc : KeyCollection.new alias? name = some c)
    (hk : c.select byAlias byName = .ok key) (ops : PyOps α)
    (get : String → Except PyErr (Option α)) (k : String) (rest : List Item) (e : PyErr)
    (pre post : List (List Item))
    (hpath : searched alias? name byAlias byName = pre ++ (.s k :: rest) :: post)
    (hraise : get k = .error e) (hpre : ∀ q ∈ pre, ∀ w, ¬ Resolves ops get q w)
    (hpre' : ∀ q ∈ pre, ∀ k', q.head? = some (.s k') → ∀ e', get k' ≠ .error e') :
    key.pyGetDictItem ops get = .error (.internal e) := by
  obtain ⟨hflat, htried, -, -⟩ := select_spec hc hk
  rw [dict_eq_choices ops get key hflat]
  rw [hpath] at htried
  clear hpath hk hc hflat
  generalize key.tried = ps at htried
  induction pre generalizing ps with
  | nil =>
    cases ps with
    | nil => simp at htried
    | cons p ps =>
      simp only [List.map_cons, List.nil_append, List.cons.injEq, LookupPath.items,
        Item.s.injEq] at htried
      simp only [dictChoices, htried.1.1, hraise]
  | cons q pre ih =>
    cases ps with
    | nil => simp at htried
    | cons p ps =>
      simp only [List.map_cons, List.cons_append, List.cons.injEq] at htried
      have hq := hpre q (List.mem_cons_self ..)
      have hq' := hpre' q (List.mem_cons_self ..)
      rw [← htried.1] at hq hq'
      have ih' := ih (fun q hq => hpre q (List.mem_cons_of_mem _ hq))
        (fun q hq => hpre' q (List.mem_cons_of_mem _ hq)) ps htried.2
      simp only [dictChoices]
      cases hg : get p.first with
      | error e' => exact absurd hg (hq' p.first rfl e')
      | ok o =>
        cases o with
        | none => exact ih'
        | some v =>
          dsimp only
          cases hf : foldItems ops p.rest v with
          | none => exact ih'
          | some w => exact absurd ⟨p.first, _, v, rfl, hg, (foldItems_iff ops _ _ _).1 hf⟩ (hq w)

/-- The first key is absent, looking up the second raises. -/
example : (LookupKey.pathChoices [⟨"a", []⟩, ⟨"c", []⟩]).pyGetDictItem pyOps
    (fun k => if k = "c" then .error ⟨"E"⟩ else .ok none) = .error (.internal ⟨"E"⟩) := rfl

/-- **C08** (mappings).  The same for mappings, where any exception of `mapping[key]` counts as
absence. -/
theorem lookup_mapping_first (alias? : Option Alias) (name : String) (byAlias byName : Bool)
    (c : KeyCollection) (key : LookupKey) (hc : KeyCollection.new alias? name = some c)
    (hk : c.select byAlias byName = .ok key) (ops : PyOps α) (get : String → Option α) :
    IsFirst (Resolves ops fun k => .ok (get k)) (searched alias? name byAlias byName)
      ((key.pyGetMappingItem ops get).map fun x => (x.1.items, x.2)) := by
  obtain ⟨hflat, htried, -, -⟩ := select_spec hc hk
  obtain ⟨r, h1, h2, -⟩ := dictChoices_spec ops (fun k => .ok (get k))
    (fun k e h => by cases h) key.tried
  rw [mapping_eq_dict] at h1
  cases h1
  rw [mapping_eq_choices ops get key hflat, ← htried]
  exact h2

example : (LookupKey.choice ⟨"a", []⟩ ⟨"b", []⟩).pyGetMappingItem pyOps
    (fun k => if k = "b" then some (.num "1") else none) = some (⟨"b", []⟩, .num "1") := rfl

/-- **C08** (attributes).  For objects looked at through their attributes, when no attribute access
raises anything but `AttributeError`: the first searched path that resolves, a name standing for
an attribute (or, inside a dict, a key) and an integer for a subscript. -/
theorem lookup_attr_first (alias? : Option Alias) (name : String) (byAlias byName : Bool)
    (c : KeyCollection) (key : LookupKey) (hc : KeyCollection.new alias? name = some c)
    (hk : c.select byAlias byName = .ok key) (ops : PyOps α)
    (hops : ∀ v k e, ops.getAttr v k ≠ .error e) (obj : α) (hobj : ops.isDict obj = false) :
    ∃ r, key.pyGetAttr ops obj none = .ok r ∧
      IsFirst (fun path w => AttrFollows ops obj path w) (searched alias? name byAlias byName)
        (r.map fun x => (x.1.items, x.2)) := by
  obtain ⟨hflat, htried, -, -⟩ := select_spec hc hk
  obtain ⟨r, h1, h2, -⟩ := attrChoices_spec ops hops obj key.tried
  refine ⟨r, ?_, by rw [← htried]; exact h2⟩
  simp only [LookupKey.pyGetAttr, attr_eq_choices ops obj hobj key hflat, h1]

/-- Objects with attributes: a list of `(attribute, object)` and a dict of integers. -/
inductive Obj where
  | obj (attrs : List (String × Obj))
  | dict (entries : List (String × Obj))
  | num (n : Int)

def objOps : PyOps Obj where
  isStr := fun _ => false
  isDict := fun v => match v with
    | .dict _ => true
    | _ => false
  getItem := fun v item => match v, item with
    | .dict es, .s k => es.lookup k
    | _, _ => none
  getAttr := fun v k => match v with
    | .obj as => .ok (as.lookup k)
    | _ => .ok none

example : (LookupKey.pathChoices [⟨"a", [.s "x"]⟩, ⟨"a", [.s "d", .s "k"]⟩]).pyGetAttr objOps
    (.obj [("a", .obj [("d", .dict [("k", .num 5)])])]) none =
      .ok (some (⟨"a", [.s "d", .s "k"]⟩, .num 5)) := rfl

example : ∀ v k e, objOps.getAttr v k ≠ .error e := by
  intro v k e h
  cases v <;> cases h

/-- **C08** (attributes with keyword data).  Data given in the keyword dict of an `(object, kwargs)`
input takes precedence over every attribute of the object. -/
theorem lookup_kwargs_first (key : LookupKey) (ops : PyOps α) (obj : α)
    (get : String → Except PyErr (Option α)) (x : LookupPath × α)
    (h : key.pyGetDictItem ops get = .ok (some x)) :
    key.pyGetAttr ops obj (some get) = .ok (some x) := by
  simp only [LookupKey.pyGetAttr, h]

example : (LookupKey.simple ⟨"a", []⟩).pyGetAttr objOps (.obj [("a", .num 1)])
    (some fun k => if k = "a" then .ok (some (.num 2)) else .ok none) =
      .ok (some (⟨"a", []⟩, .num 2)) := rfl

/-- **C08** (switches).  Looking up by neither alias nor name is an error, whatever the field. -/
theorem lookup_by_nothing (c : KeyCollection) : ∃ e, c.select false false = .error e :=
  ⟨_, rfl⟩

/-- **C08** (other switches).  Every other combination selects a key. -/
theorem lookup_by_something (c : KeyCollection) (byAlias byName : Bool)
    (h : byAlias = true ∨ byName = true) : ∃ key, c.select byAlias byName = .ok key := by
  cases byAlias <;> cases byName <;> simp [KeyCollection.select] at h ⊢

example : ∃ key, (KeyCollection.mk (.simple ⟨"f", []⟩) none none).select true false = .ok key :=
  lookup_by_something _ true false (.inl rfl)

/-! ## C09 -/

/-- **C09**.  For any field built from the schema and any JSON object, the lookup in the JSON object
finds a value exactly when the lookup in the equivalent Python dict does, through the same alias
path, and the value found is the equivalent one.  Duplicate keys, negative indices, integer items
applied to objects and containers of the wrong type are covered. -/
theorem json_python_lookup_agree (alias? : Option Alias) (name : String) (byAlias byName : Bool)
    (c : KeyCollection) (key : LookupKey) (hc : KeyCollection.new alias? name = some c)
    (hk : c.select byAlias byName = .ok key) (entries : List (String × Json)) (d : List (Item × Py))
    (hd : (Json.obj entries).toPy = .dict d) :
    key.pyGetDictItem pyOps (fun k => .ok (getEntry (.s k) d)) =
      .ok ((key.jsonGet entries).map fun x => (x.1, x.2.toPy)) := by
  rw [Json.toPy] at hd
  cases hd
  obtain ⟨hflat, -, hproper, -⟩ := select_spec hc hk
  rw [dict_eq_choices _ _ key hflat, json_eq_choices entries key hflat]
  exact jsonChoices_toPy entries key.tried hproper

/-- `{"a": 1, "a": [1, 2, {"b": 3}]}` looked up with the path `a`, `-1`, `b`. -/
example : (LookupKey.pathChoices [⟨"a", [.neg 1, .s "b"]⟩]).jsonGet
    [("a", .num "1"), ("a", .arr [.num "1", .num "2", .obj [("b", .num "3")]])] =
      some (⟨"a", [.neg 1, .s "b"]⟩, .num "3") := rfl

/-- The JSON lookup of the sample. -/
example : (LookupKey.ofPy sampleAlias none).map (·.jsonGet sampleJson) =
    some (some (⟨"c", []⟩, .num "3")) := rfl

/-- **C09** (last key wins).  The Python form of an object has, for each key, the value of its last
occurrence. -/
theorem json_last_key_wins (pre post : List (String × Json)) (k : String) (v : Json)
    (d : List (Item × Py)) (hlast : ∀ x ∈ post, x.1 ≠ k)
    (hd : (Json.obj (pre ++ (k, v) :: post)).toPy = .dict d) :
    getEntry (.s k) d = some v.toPy := by
  rw [Json.toPy] at hd
  cases hd
  rw [getEntry_toPy]
  have hfind : findLast k (pre ++ (k, v) :: post) = some v := by
    have hpost : findLast k post = none := by
      simp only [findLast, List.findSome?_eq_none_iff]
      intro x hx
      rw [if_neg (hlast x (List.mem_reverse.1 hx))]
    induction pre with
    | nil => rw [List.nil_append, findLast_cons, hpost]; simp
    | cons x pre ih => rw [List.cons_append, findLast_cons, ih]; rfl
  rw [hfind]
  rfl

example : ∀ x ∈ [("b", Json.null)], x.1 ≠ "a" := by simp

/-! ## C31: locations -/

/-- **C31** (rejected value).  The location of an error inside a looked-up value is the alias path the
value was found through (or the field name with `loc_by_alias` off), then the location inside the
value. -/
theorem value_error_location (p : LookupPath) (e : LineError α) (locByAlias : Bool)
    (fieldName : String) :
    (p.applyErrorLoc e locByAlias fieldName).loc.toPy =
      (if locByAlias then .s p.first :: p.rest.map PathItem.toLocItem else [.s fieldName]) ++
        e.loc.toPy ∧
    (p.applyErrorLoc e locByAlias fieldName).type = e.type ∧
    (p.applyErrorLoc e locByAlias fieldName).input = e.input := by
  have hfold : ∀ (items : List PathItem) (e : LineError α),
      (items.foldl (fun e item => e.withOuterLocation item.toLocItem) e).type = e.type ∧
      (items.foldl (fun e item => e.withOuterLocation item.toLocItem) e).input = e.input := by
    intro items
    induction items with
    | nil => intro e; exact ⟨rfl, rfl⟩
    | cons a l ih => intro e; exact ih _
  have houter : ∀ (e : LineError α) (item : LocItem),
      (e.withOuterLocation item).loc.toPy = item :: e.loc.toPy := by
    intro e item
    unfold LineError.withOuterLocation Location.withOuter Location.toPy Location.newSome
    cases e.loc with
    | empty => rfl
    | list l => simp
  cases locByAlias with
  | true =>
    simp only [LookupPath.applyErrorLoc, if_true]
    refine ⟨?_, (hfold _ e).1, (hfold _ e).2⟩
    rw [houter, toPy_applyErrorLoc]
    rfl
  | false =>
    simp only [LookupPath.applyErrorLoc, Bool.false_eq_true, if_false]
    exact ⟨houter e _, rfl, rfl⟩

example : (LookupPath.applyErrorLoc ⟨"a", [.neg 1, .s "b"]⟩ (⟨.missing, .list [.i 3], 0⟩ : LineError Nat)
    true "f").loc.toPy = [.s "a", .i (-1), .s "b", .i 3] := rfl

/-- **C31** (missing value).  The `missing` error of a field is located at its first searched path, or
at its name with `loc_by_alias` off; keys built from a schema always have such a path. -/
theorem missing_error_location (alias? : Option Alias) (name : String) (byAlias byName : Bool)
    (c : KeyCollection) (key : LookupKey) (hc : KeyCollection.new alias? name = some c)
    (hk : c.select byAlias byName = .ok key) (t : ErrType) (input : α) (locByAlias : Bool) :
    ∃ e p ps, key.error t input locByAlias name = some e ∧
      searched alias? name byAlias byName = p :: ps ∧
      e.loc.toPy = (if locByAlias then p.map (fun item => match item with
        | .s k => LocItem.s k
        | .i n => LocItem.i n) else [.s name]) ∧ e.type = t ∧ e.input = input := by
  obtain ⟨-, htried, -, hne⟩ := select_spec hc hk
  cases htr : key.tried with
  | nil => exact absurd htr hne
  | cons p0 ps0 =>
    rw [htr] at htried
    simp only [List.map_cons] at htried
    have hhead : (match key with
        | .simple p => some p
        | .choice p1 _ => some p1
        | .pathChoices ps => ps.head?) = some p0 := by
      cases key with
      | simple p => simp [LookupKey.tried] at htr; simp [htr.1]
      | choice p1 p2 => simp [LookupKey.tried] at htr; simp [htr.1]
      | pathChoices ps => simp [LookupKey.tried] at htr; simp [htr]
    cases locByAlias with
    | false =>
      refine ⟨.newWithLoc t input (.s name), p0.items, _, ?_, htried.symm, rfl, rfl, rfl⟩
      simp [LookupKey.error]
    | true =>
      refine ⟨⟨t, .list (p0.rest.reverse.map PathItem.toLocItem ++ [.s p0.first]), input⟩,
        p0.items, _, ?_, htried.symm, ?_, rfl, rfl⟩
      · cases key with
        | simple p => simp at hhead; simp [LookupKey.error, hhead]
        | choice p1 p2 => simp at hhead; simp [LookupKey.error, hhead]
        | pathChoices ps =>
          simp at hhead
          simp [LookupKey.error, hhead]
      · simp only [if_true, Location.toPy, LookupPath.items, List.map_cons, List.reverse_append,
          List.reverse_cons, List.reverse_nil, List.nil_append, List.singleton_append,
          List.map_map, ← List.map_reverse, List.reverse_reverse]
        congr 1
        apply List.map_congr_left
        intro item _
        cases item <;> rfl

example : (LookupKey.pathChoices [⟨"a", [.neg 1, .s "b"]⟩, ⟨"f", []⟩]).error (α := Nat) .missing 0
    true "f" = some ⟨.missing, .list [.s "b", .i (-1), .s "a"], 0⟩ := rfl

end PC.Lookup
