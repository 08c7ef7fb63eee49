import Verif.Lemmas.Fields
import Verif.Props.Lookup

/-
Models: C10-C14 (`ModelFieldsValidator::validate`).
-/

namespace PC.Fields
open PC.Lookup
variable {α : Type}

/-! A concrete model for the examples: fields `a` (alias `b`) and `c` (default 7), over values that
are numbers, strings and flat dicts. -/
namespace Demo

inductive V where
  | str (s : String)
  | num (n : Nat)
  | dict (es : List (String × Nat))
  deriving DecidableEq, Repr

def num : Validator V V := fun v st =>
  match v with
  | .num n => if n < 100 then (.ok v, st) else (.error (.new (.other "less_than") v), st)
  | _ => (.error (.new (.other "int_type") v), st)

def view (es : List (String × Nat)) : DictView V where
  get := fun key =>
    key.pyGetDictItem ⟨fun _ => false, fun _ => false, fun _ _ => none, fun _ _ => .ok none⟩
      (fun k => .ok ((Dict.get k es).map V.num))
  isPyGetAttr := false
  entries := .ok (es.map fun kv => .ok (.str kv.1, .num kv.2))
  lastKey := es.getLast?.map fun kv => .s kv.1

def asDict (v : V) : ValResult V (DictView V) :=
  match v with
  | .dict es => .ok (view es)
  | _ => .error (.new (.other "dict_type") v)

def keyOps : KeyOps V where
  str := fun k => match k with
    | .str s => .ok s
    | _ => .error (.new (.other "string_type") k)
  loc := fun k => match k with
    | .str s => .s s
    | .num n => .i n
    | .dict _ => .s "dict"
  downcast := fun k => match k with
    | .str s => some s
    | _ => none

def noDefault : Option LocItem → VState V → ValResult V (Option V) × VState V :=
  fun _ st => (.ok none, st)

def seven : Option LocItem → VState V → ValResult V (Option V) × VState V :=
  fun _ st => (.ok (some (.num 7)), st)

def fieldA : Field V :=
  ⟨"a", ⟨.simple ⟨"a", []⟩, some (.simple ⟨"b", []⟩), some (.choice ⟨"b", []⟩ ⟨"a", []⟩)⟩, num,
    noDefault, false, true⟩

def fieldC : Field V :=
  ⟨"c", ⟨.simple ⟨"c", []⟩, none, none⟩, num, seven, false, false⟩

def model (extra : ExtraBehavior) : ModelFields V :=
  ⟨[fieldA, fieldC], extra, none, none, false, false, true, none, none, fun _ _ => asDict, keyOps⟩

def st : VState V := .new {} Guard.State.init .off

theorem wellKeyed : WellKeyed [fieldA, fieldC] := by
  intro f hf
  simp only [List.mem_cons, List.not_mem_nil, or_false] at hf
  rcases hf with rfl | rfl
  · exact ⟨some (.name "b"), rfl⟩
  · exact ⟨none, rfl⟩

theorem distinct : DistinctNames [fieldA, fieldC] := by
  unfold DistinctNames; decide

end Demo

/-! ### C10 -/

/-- **C10.** When a model validation accepts, every field holds the result of its own validator on
the value that its lookup key finds in the input (the validator sees the fields before it), or its
default if the input holds nothing for it; it is absent only if the validator or the default asked
for that.  (`hr`: an input that cannot be read is reported with at least one error.) -/
theorem model_output_field (m : ModelFields α) (input : α) (st : VState α) (view : DictView α)
    (hv : m.Reads input st view) (hd : DistinctNames m.fields) (hw : WellKeyed m.fields)
    (hr : ∀ key, view.get key ≠ .error (.lineErrors [])) (out : ModelOut α)
    (hok : (m.validate input st).1 = .ok out) (f : Field α) (hf : f ∈ m.fields) :
    ∃ key found data st0,
      f.keys.select (st.validateByAliasOr m.byAlias) (st.validateByNameOr m.byName) = .ok key ∧
      view.get key = .ok found ∧ data <+: out.dict ∧ st0.extra = st.extra ∧
      FieldResult f found (out.dict.get f.name) data st0 := by
  obtain ⟨hp, he, ho, -⟩ := model_ok m input st view hv hd out hok
  obtain ⟨pre, x, post, st0, h1, h2, h3⟩ := fieldVisits_mem view.get (st.validateByAliasOr m.byAlias)
    (st.validateByNameOr m.byName) (fun _ st => st) m.fields [] (modelState st) f hf
  have h1' : (m.visits view st).1 = pre ++ x :: post := h1
  have hx : x ∈ (m.visits view st).1 := by rw [h1']; simp
  have hfield : x.field = f := by rw [h2]; exact fieldVisit_field _ _ _ _ _ _ _
  have hnd : ((m.visits view st).1.map (·.field.name)).Nodup := by
    have := fieldVisits_fields view.get (st.validateByAliasOr m.byAlias)
      (st.validateByNameOr m.byName) (fun _ st => st) m.fields [] (modelState st)
    have hmap : (m.visits view st).1.map (·.field.name) =
        ((m.visits view st).1.map FieldVisit.field).map Field.name := by
      rw [List.map_map]; rfl
    rw [hmap]
    unfold ModelFields.visits
    rw [this]
    exact hd
  have hget := get_outputs _ hnd x hx
  rw [← ho, hfield] at hget
  have hxe : x.errors input m.locByAlias = [] := by
    rw [List.flatMap_eq_nil_iff] at he
    exact he x hx
  have hpre : [] ++ pre.flatMap FieldVisit.output <+: out.dict := by
    rw [ho, h1', List.flatMap_append]
    exact ⟨_, rfl⟩
  have hxp := hp x hx
  rw [hget]
  obtain ⟨alias?, hc⟩ := hw f hf
  unfold fieldVisit at h2
  cases hk : f.keys.select (st.validateByAliasOr m.byAlias) (st.validateByNameOr m.byName) with
  | error e =>
    rw [hk] at h2
    dsimp only at h2
    rw [h2] at hxp
    exact hxp.elim
  | ok key =>
    rw [hk] at h2
    dsimp only at h2
    cases hg : view.get key with
    | error e =>
      rw [hg] at h2
      cases e with
      | lineErrors ls =>
        dsimp only at h2
        subst h2
        simp only [FieldVisit.errors, List.map_eq_nil_iff] at hxe
        exact absurd (hxe ▸ hg) (hr key)
      | _ =>
        dsimp only at h2
        subst h2
        exact hxp.elim
    | ok found =>
      refine ⟨key, found, _, st0, rfl, hg, hpre, by rw [h3]; rfl, ?_⟩
      rw [hg] at h2
      cases found with
      | some pv =>
        obtain ⟨path, value⟩ := pv
        dsimp only at h2
        unfold FieldResult
        dsimp only
        generalize f.run value _ = r at h2 ⊢
        obtain ⟨r, st1⟩ := r
        subst h2
        cases r with
        | ok v => exact .inl ⟨v, by simp [FieldVisit.output], rfl⟩
        | error e =>
          refine .inr ⟨e, by simp [FieldVisit.output], ?_, rfl⟩
          rcases hxp e rfl with ⟨ls, rfl⟩ | rfl
          · simp only [FieldVisit.errors, List.map_eq_nil_iff] at hxe
            exact .inr (by rw [hxe])
          · exact .inl rfl
      | none =>
        dsimp only at h2
        unfold FieldResult
        dsimp only
        generalize f.dflt _ _ = r at h2 ⊢
        obtain ⟨r, st1⟩ := r
        subst h2
        cases r with
        | ok o =>
          cases o with
          | some v => exact .inl ⟨v, by simp [FieldVisit.output], rfl⟩
          | none =>
            exfalso
            simp only [FieldVisit.errors] at hxe
            obtain ⟨e, -, -, hke, -⟩ := missing_error_location alias? f.name _ _ f.keys key hc hk
              .missing input m.locByAlias
            rw [hke] at hxe
            cases hxe
        | error e =>
          refine .inr ⟨e, by simp [FieldVisit.output], ?_, rfl⟩
          rcases hxp e rfl with ⟨ls, rfl⟩ | rfl
          · simp only [FieldVisit.errors] at hxe
            exact .inr (by rw [hxe])
          · exact .inl rfl

example : ((Demo.model .ignore).validate (.dict [("b", 1), ("z", 3)]) Demo.st).1 =
    .ok ⟨[("a", .num 1), ("c", .num 7)], none, ["a"]⟩ := by decide

/-- **C10.** No undeclared key appears among the fields, and the fields are in declared order. -/
theorem model_output_declared (m : ModelFields α) (input : α) (st : VState α) (view : DictView α)
    (hv : m.Reads input st view) (hd : DistinctNames m.fields) (out : ModelOut α)
    (hok : (m.validate input st).1 = .ok out) :
    List.Sublist (out.dict.map Prod.fst) (m.fields.map Field.name) := by
  obtain ⟨-, -, ho, -⟩ := model_ok m input st view hv hd out hok
  rw [ho]
  have h := outputs_sublist (m.visits view st).1
  have hf := fieldVisits_fields view.get (st.validateByAliasOr m.byAlias)
      (st.validateByNameOr m.byName) (fun _ st => st) m.fields [] (modelState st)
  have hmap : (m.visits view st).1.map (·.field.name) = m.fields.map Field.name := by
    unfold ModelFields.visits
    conv => rhs; rw [← hf]
    rw [List.map_map]; rfl
  rwa [hmap] at h

example : (Demo.model .allow).Reads (.dict [("b", 1), ("z", 3)]) Demo.st
    (Demo.view [("b", 1), ("z", 3)]) := rfl

/-! ### C11 -/

/-- **C11.** Unless extras are kept, a field is in the fields-set exactly if the input holds a value
for it (found by its lookup key) and the field made it into the output. -/
theorem fields_set_exact (m : ModelFields α) (input : α) (st : VState α) (view : DictView α)
    (hv : m.Reads input st view) (hd : DistinctNames m.fields) (out : ModelOut α)
    (hok : (m.validate input st).1 = .ok out)
    (hx : m.extra ≠ .allow ∨ view.isPyGetAttr = true) (name : String) :
    name ∈ out.fieldsSet ↔ ∃ f ∈ m.fields, f.name = name ∧ (out.dict.get name).isSome ∧
      ∃ key path value,
        f.keys.select (st.validateByAliasOr m.byAlias) (st.validateByNameOr m.byName) = .ok key ∧
        view.get key = .ok (some (path, value)) := by
  obtain ⟨hp, he, ho, hs⟩ := model_ok m input st view hv hd out hok
  have hfs : out.fieldsSet = (m.visits view st).1.flatMap FieldVisit.supplied := by
    rcases hs with ⟨-, h, -⟩ | ⟨ha, entries, -, ⟨-, -, -, h, -⟩ | ⟨hal, -⟩⟩
    · exact h
    · exact h
    · rcases hx with hx | hx
      · exact absurd hal hx
      · rw [ha] at hx; cases hx
  rw [hfs]
  exact mem_supplied_iff m view st hd out.dict ho name

example : "c" ∉ (⟨[("a", .num 1), ("c", .num 7)], none, ["a"]⟩ : ModelOut Demo.V).fieldsSet := by
  decide

/-- **C11.** With extras kept, the fields-set holds the supplied fields and exactly the extra keys. -/
theorem fields_set_allow (m : ModelFields α) (input : α) (st : VState α) (view : DictView α)
    (hv : m.Reads input st view) (hd : DistinctNames m.fields) (out : ModelOut α)
    (hok : (m.validate input st).1 = .ok out) (hx : m.extra = .allow) (name : String) :
    ∃ extra, out.extra = some extra ∧
    (name ∈ out.fieldsSet ↔ name ∈ extra.map Prod.fst ∨
      ∃ f ∈ m.fields, f.name = name ∧ (out.dict.get name).isSome ∧
      ∃ key path value,
        f.keys.select (st.validateByAliasOr m.byAlias) (st.validateByNameOr m.byName) = .ok key ∧
        view.get key = .ok (some (path, value))) := by
  obtain ⟨hp, he, ho, hs⟩ := model_ok m input st view hv hd out hok
  have hsup := mem_supplied_iff m view st hd out.dict ho name
  rcases hs with ⟨-, h, he⟩ | ⟨ha, entries, -, ⟨hf, -⟩ | ⟨-, -, -, hxe, h⟩⟩
  · refine ⟨[], by rw [he, hx]; rfl, ?_⟩
    rw [h, hsup]; simp
  · rw [hx] at hf; cases hf
  · refine ⟨_, hxe, ?_⟩
    rw [h, List.mem_append, hsup, keys_dictOf, or_comm]

example : ((Demo.model .allow).validate (.dict [("b", 1), ("z", 3)]) Demo.st).1 =
    .ok ⟨[("a", .num 1), ("c", .num 7)], some [("z", .num 3)], ["a", "z"]⟩ := by decide

/-- **C11, the code violates it.** A field with an alias and a default, filled from its default, is
in the fields-set if the input has an extra key that equals the field's name. -/
theorem fields_set_contains_defaulted :
    ∃ (m : ModelFields Demo.V) (input : Demo.V) (st : VState Demo.V) (out : ModelOut Demo.V)
      (f : Field Demo.V), f ∈ m.fields ∧ WellKeyed m.fields ∧
      (m.validate input st).1 = .ok out ∧
      m.asFields false false input = .ok (Demo.view [("a", 5)]) ∧
      (∀ key, f.keys.select (st.validateByAliasOr m.byAlias) (st.validateByNameOr m.byName) =
        .ok key → (Demo.view [("a", 5)]).get key = .ok none) ∧
      out.dict.get f.name = some (.num 7) ∧ f.name ∈ out.fieldsSet := by
  refine ⟨{ Demo.model .allow with fields := [{ Demo.fieldA with dflt := Demo.seven }] },
    .dict [("a", 5)], Demo.st, ⟨[("a", .num 7)], some [("a", .num 5)], ["a"]⟩,
    { Demo.fieldA with dflt := Demo.seven }, by simp, ?_, by decide, rfl, ?_, by decide, by decide⟩
  · intro f hf
    simp only [List.mem_singleton] at hf
    subst hf
    exact ⟨some (.name "b"), rfl⟩
  · intro key hk
    cases hk
    rfl

/-- The count of fields set that unions compare is the number of supplied fields. -/
theorem fields_set_counted (m : ModelFields α) (input : α) (st : VState α) (view : DictView α)
    (hv : m.Reads input st view) (hd : DistinctNames m.fields)
    (hi : m.extra = .ignore ∨ view.isPyGetAttr = true) (out : ModelOut α)
    (hok : (m.validate input st).1 = .ok out) :
    (m.validate input st).2 = (m.visits view st).2.addFieldsSet out.fieldsSet.length := by
  obtain ⟨hp, he, -, hs⟩ := model_ok m input st view hv hd out hok
  rw [model_validate_ignore m input st view hv hd hi hp] at hok ⊢
  rw [if_pos he]
  unfold outcomeOf at hok
  rw [if_pos he] at hok
  cases hok
  rfl

/-! ### C12 -/

/-- **C12, extra ignored.** The errors are those of the fields, in declared order; without errors
the validation accepts. -/
theorem model_errors_ignore (m : ModelFields α) (input : α) (st : VState α) (view : DictView α)
    (hv : m.Reads input st view) (hd : DistinctNames m.fields)
    (hi : m.extra = .ignore ∨ view.isPyGetAttr = true)
    (hp : ∀ x ∈ (m.visits view st).1, x.Plain) :
    (m.validate input st).1 =
      outcomeOf ((m.visits view st).1.flatMap (FieldVisit.errors input m.locByAlias))
        ⟨(m.visits view st).1.flatMap FieldVisit.output, if m.extra = .allow then some [] else none,
          (m.visits view st).1.flatMap FieldVisit.supplied⟩ := by
  rw [model_validate_ignore m input st view hv hd hi hp]

/-- **C12, extra forbidden.** The errors are those of the fields in declared order, then one for
each unknown key in input order. -/
theorem model_errors_forbid (m : ModelFields α) (input : α) (st : VState α) (view : DictView α)
    (entries : List (α × α)) (hv : m.Reads input st view) (hd : DistinctNames m.fields)
    (hi : m.extra = .forbid) (ha : view.isPyGetAttr = false)
    (he : view.entries = .ok (entries.map .ok)) (hk : PlainKeys m.keyOps entries)
    (hp : ∀ x ∈ (m.visits view st).1, x.Plain) :
    (m.validate input st).1 =
      outcomeOf ((m.visits view st).1.flatMap (FieldVisit.errors input m.locByAlias) ++
          forbidErrors m.keyOps ((m.visits view st).1.flatMap FieldVisit.used) entries)
        ⟨(m.visits view st).1.flatMap FieldVisit.output, none,
          (m.visits view st).1.flatMap FieldVisit.supplied⟩ := by
  rw [model_validate_forbid m input st view entries hv hd hi ha he hk hp]

/-- **C12, extra allowed.** The errors are those of the fields in declared order, then those of the
extra items in input order. -/
theorem model_errors_allow (m : ModelFields α) (input : α) (st : VState α) (view : DictView α)
    (entries : List (α × α)) (hv : m.Reads input st view) (hd : DistinctNames m.fields)
    (hi : m.extra = .allow) (ha : view.isPyGetAttr = false)
    (he : view.entries = .ok (entries.map .ok))
    (hp : ∀ x ∈ (m.visits view st).1, x.Plain)
    (hx : ∀ x ∈ (m.extras view entries st).1, x.Plain) :
    (m.validate input st).1 =
      outcomeOf ((m.visits view st).1.flatMap (FieldVisit.errors input m.locByAlias) ++
          (m.extras view entries st).1.flatMap (ExtraVisit.errors m.keyOps))
        ⟨(m.visits view st).1.flatMap FieldVisit.output,
          some (dictOf ((m.extras view entries st).1.flatMap ExtraVisit.output)),
          (m.visits view st).1.flatMap FieldVisit.supplied ++
            ((m.extras view entries st).1.flatMap ExtraVisit.output).map Prod.fst⟩ := by
  rw [model_validate_allow m input st view entries hv hd hi ha he hp hx]

example : ((Demo.model .forbid).validate (.dict [("a", 5), ("c", 100), ("z", 3)]) Demo.st).1 =
    .error (.lineErrors [⟨.missing, .list [.s "b"], .dict [("a", 5), ("c", 100), ("z", 3)]⟩,
      ⟨.other "less_than", .list [.s "c"], .num 100⟩,
      ⟨.extraForbidden, .list [.s "a"], .num 5⟩, ⟨.extraForbidden, .list [.s "z"], .num 3⟩]) := by
  decide

example : ∀ x ∈ ((Demo.model .forbid).visits (Demo.view [("a", 5), ("c", 100), ("z", 3)])
    Demo.st).1, x.Plain := by
  intro x hx
  simp only [ModelFields.visits, Demo.model, fieldVisits, List.mem_cons, List.not_mem_nil,
    or_false] at hx
  rcases hx with rfl | rfl
  · exact fun e he => by cases he
  · exact fun e he => by cases he; exact .inl ⟨_, rfl⟩

/-- **C12.** Anything a field raises that is neither a validation error nor a request to leave the
field out (an exception, say) is the result of the whole validation. -/
theorem model_field_raises (m : ModelFields α) (input : α) (st : VState α) (view : DictView α)
    (hv : m.Reads input st view) (hd : DistinctNames m.fields)
    (pre : List (FieldVisit α)) (x : FieldVisit α) (post : List (FieldVisit α))
    (hs : (m.visits view st).1 = pre ++ x :: post) (hpre : ∀ y ∈ pre, y.Plain) (hx : ¬ x.Plain) :
    ∃ e, (x.outcome = .raised e ∨ (∃ p v, x.outcome = .validated p v (.error e)) ∨
      ∃ k, x.outcome = .defaulted k (.error e)) ∧ (m.validate input st).1 = .error e :=
  model_validate_raises m input st view hv hd pre x post hs hpre hx

example : ¬ (⟨Demo.fieldA, .validated ⟨"b", []⟩ (.num 1) (.error (.internal ⟨"KeyError"⟩))⟩ :
    FieldVisit Demo.V).Plain := by
  intro h
  rcases h _ rfl with ⟨ls, h⟩ | h <;> cases h

/-- **C12, the code violates it.** An error met while iterating over the items of the input (for
instance an unsupported value among the extras in string mode) is reported alone: the errors of the
fields are lost. -/
theorem iteration_error_hides_field_errors :
    ∃ (m : ModelFields Demo.V) (input : Demo.V) (st : VState Demo.V) (view : DictView Demo.V)
      (e : LineError Demo.V), m.Reads input st view ∧
      (m.visits view st).1.flatMap (FieldVisit.errors input m.locByAlias) ≠ [] ∧
      (m.validate input st).1 = .error (.lineErrors [e]) ∧
      e ∉ (m.visits view st).1.flatMap (FieldVisit.errors input m.locByAlias) := by
  refine ⟨{ Demo.model .allow with asFields := fun _ _ _ => .ok { Demo.view [] with
    entries := .ok [.error (.newWithLoc (.other "string_type") (.num 1) (.s "z"))] } },
    .dict [], Demo.st, _, .newWithLoc (.other "string_type") (.num 1) (.s "z"), rfl, ?_, ?_, ?_⟩
  · decide
  · decide
  · decide

/-- **C12.** An input that is no dict (nor an object with attributes, where these are read) is reported as no model: what the reader
says is kept but for its type, `dict_type`, which becomes `model_type`. -/
theorem not_a_model (m : ModelFields α) (input : α) (st : VState α) (e : LineError α) (ht : e.type = .other "dict_type")
    (h : m.asFields (st.strictOr m.strict) (st.extra.fromAttributes.getD m.fromAttributes) input = .error (.lineErrors [e])) :
    (m.validate input st).1 = .error (.lineErrors [{ e with type := .other "model_type" }]) := by
  unfold ModelFields.validate
  simp only [VState.strictOr] at h ⊢
  rw [h]
  simp [toModelType, ht]

example : (({ Demo.model .ignore with asFields := fun _ _ v => .error (.new (.other "dict_type") v) } :
    ModelFields Demo.V).validate (.num 1) Demo.st).1 = .error (.new (.other "model_type") (.num 1)) := by decide

/-! ### C13 -/

/-- **C13.** With extra=ignore the items of the input that are not looked up have no effect: inputs
that answer every lookup alike give the same result and state. -/
theorem extra_ignored (m : ModelFields α) (hi : m.extra = .ignore)
    (read1 read2 : (strict fromAttributes : Bool) → α → ValResult α (DictView α))
    (input : α) (st : VState α) (view1 view2 : DictView α)
    (h1 : { m with asFields := read1 }.Reads input st view1)
    (h2 : { m with asFields := read2 }.Reads input st view2) (hget : view1.get = view2.get) :
    { m with asFields := read1 }.validate input st = { m with asFields := read2 }.validate input st := by
  rw [model_validate_eq _ _ _ _ h1, model_validate_eq _ _ _ _ h2]
  have hstep : ∀ ba bn f acc,
      { m with asFields := read1 }.fieldStep view1 input ba bn f acc =
      { m with asFields := read2 }.fieldStep view2 input ba bn f acc := by
    intro ba bn f acc
    unfold ModelFields.fieldStep
    rw [hget]
  have hloop : ∀ ba bn fs acc,
      { m with asFields := read1 }.fieldLoop view1 input ba bn fs acc =
      { m with asFields := read2 }.fieldLoop view2 input ba bn fs acc := by
    intro ba bn fs
    induction fs with
    | nil => intro acc; rfl
    | cons f fs ih =>
      intro acc
      simp only [ModelFields.fieldLoop, hstep, ih]
  rw [hloop]
  unfold ModelFields.afterFields
  simp only [hi, true_or, if_true]
  rfl

example : ((Demo.model .ignore).validate (.dict [("b", 1)]) Demo.st).1 =
    ((Demo.model .ignore).validate (.dict [("b", 1), ("a", 200), ("z", 3)]) Demo.st).1 := by decide

/-- **C13.** With extra=forbid, a validation whose fields have no errors is accepted iff every key
of the input is a string that a field was found through. -/
theorem extra_forbidden_iff (m : ModelFields α) (input : α) (st : VState α) (view : DictView α)
    (entries : List (α × α)) (hv : m.Reads input st view) (hd : DistinctNames m.fields)
    (hi : m.extra = .forbid) (ha : view.isPyGetAttr = false)
    (he : view.entries = .ok (entries.map .ok)) (hk : PlainKeys m.keyOps entries)
    (hne : ∀ kv ∈ entries, m.keyOps.str kv.1 ≠ .error (.lineErrors []))
    (hp : ∀ x ∈ (m.visits view st).1, x.Plain)
    (hfe : (m.visits view st).1.flatMap (FieldVisit.errors input m.locByAlias) = []) :
    (∃ out, (m.validate input st).1 = .ok out) ↔
      ∀ kv ∈ entries, ∃ key, m.keyOps.str kv.1 = .ok key ∧
        ∃ x ∈ (m.visits view st).1, key ∈ x.used := by
  rw [model_errors_forbid m input st view entries hv hd hi ha he hk hp, hfe, List.nil_append]
  have hiff : forbidErrors m.keyOps ((m.visits view st).1.flatMap FieldVisit.used) entries = [] ↔
      ∀ kv ∈ entries, ∃ key, m.keyOps.str kv.1 = .ok key ∧
        ∃ x ∈ (m.visits view st).1, key ∈ x.used := by
    unfold forbidErrors
    rw [List.flatMap_eq_nil_iff]
    constructor
    · intro h kv hkv
      have hkv' := h kv hkv
      cases hs : m.keyOps.str kv.1 with
      | ok key =>
        refine ⟨key, rfl, ?_⟩
        rw [hs] at hkv'
        dsimp only at hkv'
        split at hkv'
        · next hmem => simpa [List.mem_flatMap] using hmem
        · cases hkv'
      | error e =>
        obtain ⟨ls, rfl⟩ := hk kv hkv e hs
        rw [hs] at hkv'
        dsimp only at hkv'
        rw [List.map_eq_nil_iff] at hkv'
        exact absurd (hkv' ▸ hs) (hne kv hkv)
    · intro h kv hkv
      obtain ⟨key, hs, x, hx, hmem⟩ := h kv hkv
      rw [hs]
      dsimp only
      rw [if_pos (List.mem_flatMap.2 ⟨x, hx, hmem⟩)]
  unfold outcomeOf
  rw [← hiff]
  clear hiff
  by_cases hf : forbidErrors m.keyOps ((m.visits view st).1.flatMap FieldVisit.used) entries = []
  · rw [if_pos hf]
    exact ⟨fun _ => hf, fun _ => ⟨_, rfl⟩⟩
  · rw [if_neg hf]
    exact ⟨fun ⟨_, h⟩ => (by cases h), fun h => absurd h hf⟩

example : ((Demo.model .forbid).validate (.dict [("b", 1)]) Demo.st).1 =
    .ok ⟨[("a", .num 1), ("c", .num 7)], none, ["a"]⟩ := by decide

/-- **C13.** With extra=allow and no validators for extras, every unknown item is kept as it is, a
later one replacing an earlier one with the same key. -/
theorem extra_allowed_kept (m : ModelFields α) (input : α) (st : VState α) (view : DictView α)
    (entries : List (α × α)) (hv : m.Reads input st view) (hd : DistinctNames m.fields)
    (hi : m.extra = .allow) (ha : view.isPyGetAttr = false)
    (he : view.entries = .ok (entries.map .ok)) (hkv : m.extrasKeysV = none)
    (hvv : m.extrasV = none) (out : ModelOut α) (hok : (m.validate input st).1 = .ok out) :
    out.extra = some (dictOf (entries.filterMap fun kv => match m.keyOps.str kv.1 with
      | .ok key =>
        if ∃ x ∈ (m.visits view st).1, key ∈ x.used then none else some (key, kv.2)
      | .error _ => none)) := by
  obtain ⟨-, -, -, hs⟩ := model_ok m input st view hv hd out hok
  rcases hs with ⟨h | h, -⟩ | ⟨-, entries', he', ⟨hf, -⟩ | ⟨-, -, -, hxe, -⟩⟩
  · rw [hi] at h; cases h
  · rw [ha] at h; cases h
  · rw [hi] at hf; cases hf
  · rw [he] at he'
    have hee : entries = entries' := by
      have hinj : Function.Injective (Except.ok : α × α → ValResult α (α × α)) := by
        intro a b h; cases h; rfl
      exact (List.map_inj_right (by intro a b h; exact hinj h)).1 (Except.ok.inj he')
    subst hee
    rw [hxe]
    unfold ModelFields.extras
    rw [hkv, hvv, extraVisits_plain]
    congr 3
    funext kv
    cases m.keyOps.str kv.1 with
    | error e => rfl
    | ok key =>
      dsimp only
      by_cases h : ∃ x ∈ (m.visits view st).1, key ∈ x.used
      · rw [if_pos h, if_pos (by simpa [List.mem_flatMap] using h)]
      · rw [if_neg h, if_neg (by simpa [List.mem_flatMap] using h)]

/-- **C13.** With validators for extras, the extras are the validated items, in input order. -/
theorem extra_allowed_validated (m : ModelFields α) (input : α) (st : VState α) (view : DictView α)
    (entries : List (α × α)) (hv : m.Reads input st view) (hd : DistinctNames m.fields)
    (hi : m.extra = .allow) (ha : view.isPyGetAttr = false)
    (he : view.entries = .ok (entries.map .ok)) (out : ModelOut α)
    (hok : (m.validate input st).1 = .ok out) :
    out.extra = some (dictOf ((m.extras view entries st).1.flatMap ExtraVisit.output)) := by
  obtain ⟨-, -, -, hs⟩ := model_ok m input st view hv hd out hok
  rcases hs with ⟨h | h, -⟩ | ⟨-, entries', he', ⟨hf, -⟩ | ⟨-, -, -, hxe, -⟩⟩
  · rw [hi] at h; cases h
  · rw [ha] at h; cases h
  · rw [hi] at hf; cases hf
  · rw [he] at he'
    have hee : entries = entries' :=
      (List.map_inj_right (by intro a b h; cases h; rfl)).1 (Except.ok.inj he')
    rw [hee, hxe]

/-- The demo model whose extras must be below 100 too. -/
def Demo.checked : ModelFields Demo.V := { Demo.model .allow with extrasV := some Demo.num }

example : (Demo.checked.validate (.dict [("b", 1), ("z", 3)]) Demo.st).1 =
    .ok ⟨[("a", .num 1), ("c", .num 7)], some [("z", .num 3)], ["a", "z"]⟩ := by decide

example : (Demo.checked.validate (.dict [("b", 1), ("z", 300)]) Demo.st).1 =
    .error (.lineErrors [⟨.other "less_than", .list [.s "z"], .num 300⟩]) := by decide

/-- **C13, beyond the property.** A validator of extras that asks to omit the value makes the whole
model fail, although the same request from a field is honoured. -/
theorem extra_omit_escapes :
    ∃ (m : ModelFields Demo.V) (input : Demo.V) (st : VState Demo.V),
      (m.validate input st).1 = .error .omitted := by
  refine ⟨{ Demo.model .allow with extrasV := some fun _ st => (.error .omitted, st) },
    .dict [("b", 1), ("z", 3)], Demo.st, by decide⟩

/-! ### C14 -/

/-- **C14.** In a model the fields' values do not depend on the extras at all: whatever the policy,
the validators of extras and the other items of the input, two accepting validations that answer
every lookup alike produce the same fields. -/
theorem extra_never_replaces_field (m : ModelFields α)
    (read1 read2 : (strict fromAttributes : Bool) → α → ValResult α (DictView α))
    (extra : ExtraBehavior) (extrasV extrasKeysV : Option (Validator α α))
    (input1 input2 : α) (st : VState α) (view1 view2 : DictView α)
    (h1 : { m with asFields := read1 }.Reads input1 st view1)
    (h2 : { m with asFields := read2, extra := extra, extrasV := extrasV,
                   extrasKeysV := extrasKeysV }.Reads input2 st view2)
    (hget : view1.get = view2.get) (hd : DistinctNames m.fields) (out1 out2 : ModelOut α)
    (hok1 : ({ m with asFields := read1 }.validate input1 st).1 = .ok out1)
    (hok2 : ({ m with asFields := read2, extra := extra, extrasV := extrasV,
                      extrasKeysV := extrasKeysV }.validate input2 st).1 = .ok out2) :
    out1.dict = out2.dict := by
  obtain ⟨-, -, ho1, -⟩ := model_ok _ _ _ _ h1 hd _ hok1
  obtain ⟨-, -, ho2, -⟩ := model_ok _ _ _ _ h2 hd _ hok2
  rw [ho1, ho2]
  unfold ModelFields.visits
  rw [hget]

example : ((Demo.model .allow).validate (.dict [("b", 1), ("a", 300)]) Demo.st).1 =
    .ok ⟨[("a", .num 1), ("c", .num 7)], some [("a", .num 300)], ["a", "a"]⟩ := by decide

end PC.Fields
