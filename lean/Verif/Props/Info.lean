import Mathlib.Data.List.Nodup
import Verif.Lemmas.Info
import Verif.Props.Models
import Verif.Props.Assignment
import Verif.Props.TypedDicts
import Verif.Props.Dataclass

/-
C96: what the functions of a schema are told about the field they validate.
-/

namespace PC.Info
open PC.Fields PC.Dc PC.Comb PC.Lookup
variable {α : Type}

/-! ### Nothing else is told -/

/-- **C96.**  The validator of a field of a model only ever runs told the field's own name and fields that come before it in
the schema, its default only told fields that come before it: what it would do when told anything else makes no difference to
any outcome, accepted or not. -/
theorem model_told_only (m : ModelFields α) (gs : List (Field α)) (h : SameFields [] m.fields gs) (input : α) (st : VState α) :
    ({ m with fields := gs } : ModelFields α).validate input st = m.validate input st := by
  unfold ModelFields.validate
  dsimp only
  split
  · rfl
  · rename_i view _
    rw [model_loop_congr m { m with fields := gs } rfl view input _ _ h _ (fun _ h => by cases h), model_after_fields]

/-- **C96.**  The same of the fields of a typed dict. -/
theorem dict_told_only (t : TypedDict α) (gs : List (Field α)) (h : SameFields [] t.fields gs) (input : α) (st : VState α) :
    ({ t with fields := gs } : TypedDict α).validate input st = t.validate input st := by
  unfold TypedDict.validate
  dsimp only
  split
  · rfl
  · rename_i view _
    rw [dict_loop_congr t { t with fields := gs } rfl view input _ _ _ _ h _ (fun _ h => by cases h), dict_after_fields]

/-- **C96.**  The same of the fields of a dataclass; init-only fields are not told of. -/
theorem dataclass_told_only (d : DcArgs α) (gs : List (DcField α)) (h : SameDcFields [] d.fields gs) (input : α) (st : VState α) :
    ({ d with fields := gs } : DcArgs α).validate input st = d.validate input st := by
  unfold DcArgs.validate
  dsimp only
  split
  · rfl
  · rename_i view _
    unfold DcArgs.run
    dsimp only
    rw [dc_loop_congr d { d with fields := gs } rfl view input _ _ h _ _ (fun _ h => by cases h)]
    have hp : ∀ acc, ({ d with fields := gs } : DcArgs α).argsPart view acc = d.argsPart view acc := by
      intro acc
      unfold DcArgs.argsPart
      rw [dc_posFields h]
    rw [hp, dc_kwPart_fields]

/-! ### All of it is told -/

/-- **C96.**  In a model that was accepted, each field holds what its validator gives when told the field's name and the values
that the accepted model holds for the fields before it; a field that the input does not give holds its default, made when told
the same values. -/
theorem model_field_told (m : ModelFields α) (input : α) (st : VState α) (view : DictView α)
    (hv : m.Reads input st view) (hd : DistinctNames m.fields) (out : ModelOut α)
    (hok : (m.validate input st).1 = .ok out) {pre post : List (Field α)} {f : Field α} (hf : m.fields = pre ++ f :: post)
    {key : LookupKey} (hk : f.keys.select (st.validateByAliasOr m.byAlias) (st.validateByNameOr m.byName) = .ok key) :
    (∀ path value, view.get key = .ok (some (path, value)) → ∃ st0, st0.extra = st.extra ∧
      out.dict.get f.name = valueOf (f.run value (tell f.name (Dict.only (pre.map Field.name) out.dict) st0)).1) ∧
    (view.get key = .ok none → ∃ st0, st0.extra = st.extra ∧
      out.dict.get f.name =
        (valueOf (f.dflt (some (.s f.name)) (tellData (Dict.only (pre.map Field.name) out.dict) st0)).1).join) := by
  obtain ⟨-, -, ho, -⟩ := model_ok m input st view hv hd out hok
  rw [ho]
  exact visit_told view.get _ _ (fun _ st => st) (fun _ _ => rfl) m.fields hd (modelState st) hf hk

/-- **C96.**  The same of a typed dict; extra items are added, or put in the place of fields, afterwards. -/
theorem dict_field_told (t : TypedDict α) (input : α) (st : VState α) (view : DictView α)
    (hv : t.Reads input st view) (hd : DistinctNames t.fields) (out : α) (hok : (t.validate input st).1 = .ok out) :
    ∃ d extras, out = t.build (Dict.update d extras) ∧ (t.extra ≠ .allow → extras = []) ∧
      ∀ {pre post : List (Field α)} {f : Field α}, t.fields = pre ++ f :: post → ∀ {key : LookupKey},
        f.keys.select (st.validateByAliasOr t.byAlias) (st.validateByNameOr t.byName) = .ok key →
        (∀ path value, view.get key = .ok (some (path, value)) → ∃ st0, st0.extra = st.extra ∧
          Dict.get f.name d = valueOf (f.run value (tell f.name (Dict.only (pre.map Field.name) d) st0)).1) ∧
        (view.get key = .ok none → ∃ st0, st0.extra = st.extra ∧
          Dict.get f.name d =
            (valueOf (f.dflt (some (.s f.name)) (tellData (Dict.only (pre.map Field.name) d) st0)).1).join) := by
  obtain ⟨-, -, ho⟩ := dict_ok t input st view hv hd out hok
  rcases ho with ⟨-, ho⟩ | ⟨-, ha, entries, -, -, -, ho⟩
  · exact ⟨_, [], ho, fun _ => rfl, fun hf _ hk => visit_told view.get _ _
      (fun path => lastOnly (t.lastKey view st) st.allowPartial (.s path.first)) (fun _ _ => rfl) t.fields hd st hf hk⟩
  · exact ⟨_, _, ho, fun h => absurd ha h, fun hf _ hk => visit_told view.get _ _
      (fun path => lastOnly (t.lastKey view st) st.allowPartial (.s path.first)) (fun _ _ => rfl) t.fields hd st hf hk⟩

/-- **C96.**  On assignment the validator of the field is told its name and the values that the instance holds for all *other*
fields, those that come later in the schema included. -/
theorem assignment_told (m : ModelFields α) (dict : Dict α) (name : String) (value : α) (st : VState α)
    {f : Field α} (hd : DistinctNames m.fields) (hf : f ∈ m.fields) (hn : f.name = name) (hz : f.frozen = false)
    (d : Dict α) (h : (m.assign dict name value st).1 = .ok d) :
    ∃ v, (f.run value (tell name (Dict.del name dict) st)).1 = .ok v ∧ d = Dict.set name v dict := by
  obtain ⟨v, h1, h2⟩ := assign_ok m dict name value st d h
  rcases h2 with ⟨g, hg, hgn, -, h3⟩ | ⟨h3, -⟩
  · refine ⟨v, ?_, h1⟩
    have : g = f := List.inj_on_of_nodup_map hd hg hf (hgn.trans hn.symm)
    subst this
    exact h3
  · exact absurd hn (h3 f hf)

/-! ### What a function is given -/

/-- **C96.**  The information given to the function of a field of a model, accepted with a plain function there: its `data` are
the values that the accepted model holds for the fields before it, its `field_name` is the field's own even if the schema
of the function names another. -/
theorem plain_function_told (m : ModelFields α) (input : α) (st : VState α) (view : DictView α)
    (hv : m.Reads input st view) (hd : DistinctNames m.fields) (out : ModelOut α)
    (hok : (m.validate input st).1 = .ok out) {pre post : List (Field α)} {f : Field α} (hf : m.fields = pre ++ f :: post)
    {key : LookupKey} (hk : f.keys.select (st.validateByAliasOr m.byAlias) (st.validateByNameOr m.byName) = .ok key)
    {g : α → Info α → Except (PyExc α) α} {schemaName : Option String}
    (hg : f.run = (Kind.plain (.withInfo g)).validate schemaName) {path : LookupPath} {value : α}
    (hin : view.get key = .ok (some (path, value))) :
    out.dict.get f.name = (g value ⟨some (Dict.only (pre.map Field.name) out.dict), some f.name⟩).toOption := by
  obtain ⟨st0, -, h⟩ := (model_field_told m input st view hv hd out hok hf hk).1 path value hin
  rw [h, hg]
  simp only [Kind.validate, functionPlain, Func.call, Info.new, tell, Option.some_or]
  cases g value _ <;> rfl

/-- **C96.**  The same of a function that runs after the field's own validator: it is given the value of that validator. -/
theorem after_function_told (m : ModelFields α) (input : α) (st : VState α) (view : DictView α)
    (hv : m.Reads input st view) (hd : DistinctNames m.fields) (out : ModelOut α)
    (hok : (m.validate input st).1 = .ok out) {pre post : List (Field α)} {f : Field α} (hf : m.fields = pre ++ f :: post)
    {key : LookupKey} (hk : f.keys.select (st.validateByAliasOr m.byAlias) (st.validateByNameOr m.byName) = .ok key)
    {g : α → Info α → Except (PyExc α) α} {inner : Validator α α} (hi : ∀ x st, (inner x st).2.extra = st.extra)
    {schemaName : Option String} (hg : f.run = (Kind.after (.withInfo g) inner).validate schemaName) {path : LookupPath}
    {value : α} (hin : view.get key = .ok (some (path, value))) :
    ∃ st0, out.dict.get f.name =
      (valueOf (inner value (tell f.name (Dict.only (pre.map Field.name) out.dict) st0)).1).bind fun w =>
        (g w ⟨some (Dict.only (pre.map Field.name) out.dict), some f.name⟩).toOption := by
  obtain ⟨st0, -, h⟩ := (model_field_told m input st view hv hd out hok hf hk).1 path value hin
  refine ⟨st0, ?_⟩
  rw [h, hg]
  simp only [Kind.validate, functionAfter, Func.call, Info.new, hi]
  cases hr : (inner value (tell f.name (Dict.only (pre.map Field.name) out.dict) st0)).1 with
  | error e => rfl
  | ok w =>
    simp only [valueOf, Option.bind_some, tell, Option.some_or]
    cases g w _ <;> rfl

/-- **C96.**  The same of a function that runs before it: the validator is told the same as the function. -/
theorem before_function_told (m : ModelFields α) (input : α) (st : VState α) (view : DictView α)
    (hv : m.Reads input st view) (hd : DistinctNames m.fields) (out : ModelOut α)
    (hok : (m.validate input st).1 = .ok out) {pre post : List (Field α)} {f : Field α} (hf : m.fields = pre ++ f :: post)
    {key : LookupKey} (hk : f.keys.select (st.validateByAliasOr m.byAlias) (st.validateByNameOr m.byName) = .ok key)
    {g : α → Info α → Except (PyExc α) α} {inner : Validator α α} {schemaName : Option String}
    (hg : f.run = (Kind.before (.withInfo g) inner).validate schemaName) {path : LookupPath} {value : α}
    (hin : view.get key = .ok (some (path, value))) :
    ∃ st0, out.dict.get f.name =
      (g value ⟨some (Dict.only (pre.map Field.name) out.dict), some f.name⟩).toOption.bind fun w =>
        valueOf (inner w (tell f.name (Dict.only (pre.map Field.name) out.dict) st0)).1 := by
  obtain ⟨st0, -, h⟩ := (model_field_told m input st view hv hd out hok hf hk).1 path value hin
  refine ⟨st0, ?_⟩
  rw [h, hg]
  simp only [Kind.validate, functionBefore, Func.call, Info.new, tell, Option.some_or]
  cases g value _ <;> rfl

/-- **C96.**  A wrap function is told the same; the validator behind its handler is told the same values, but no name: see
`handler_forgets_name`. -/
theorem wrap_function_told (m : ModelFields α) (input : α) (st : VState α) (view : DictView α)
    (hv : m.Reads input st view) (hd : DistinctNames m.fields) (out : ModelOut α)
    (hok : (m.validate input st).1 = .ok out) {pre post : List (Field α)} {f : Field α} (hf : m.fields = pre ++ f :: post)
    {key : LookupKey} (hk : f.keys.select (st.validateByAliasOr m.byAlias) (st.validateByNameOr m.byName) = .ok key)
    {g : α → Info α → WrapProg α} {inner : Validator α α} {schemaName : Option String}
    (hg : f.run = (Kind.wrap (.withInfo g) inner).validate schemaName) {path : LookupPath} {value : α}
    (hin : view.get key = .ok (some (path, value))) :
    ∃ h : Internal α, h.data = some (Dict.only (pre.map Field.name) out.dict) ∧ out.dict.get f.name =
      (runWrap inner (g value ⟨some (Dict.only (pre.map Field.name) out.dict), some f.name⟩) h).1.toOption := by
  obtain ⟨st0, -, h⟩ := (model_field_told m input st view hv hd out hok hf hk).1 path value hin
  refine ⟨Internal.new (tell f.name (Dict.only (pre.map Field.name) out.dict) st0), rfl, ?_⟩
  rw [h, hg]
  simp only [Kind.validate, functionWrap, Func.call, Info.new]
  generalize hr : runWrap inner _ _ = r
  rw [show runWrap inner (g value ⟨some (Dict.only (pre.map Field.name) out.dict), some f.name⟩)
    (Internal.new (tell f.name (Dict.only (pre.map Field.name) out.dict) st0)) = r from hr]
  obtain ⟨r, h'⟩ := r
  cases r <;> rfl

/-- **C96.**  What the validator behind the handler of a wrap function is told: the same values as the wrap function, but not
the field's name.  A function there is given the name its own schema carries, whatever the field. -/
theorem handler_forgets_name (g : α → Info α → Except (PyExc α) α) (schemaName : Option String) (st : VState α) (x : α)
    (outer : Option LocItem) :
    ((Internal.new st).validate ((Kind.plain (.withInfo g)).validate schemaName) x outer).1 =
      match g x ⟨st.extra.data, schemaName⟩ with
      | .ok v => .ok v
      | .error e => .error (fromValError (convertErr e x) outer) := by
  simp only [Internal.validate, Kind.validate, functionPlain, Func.call, Info.new, Internal.state, Internal.new, VState.new,
    Option.none_or]
  cases g x _ <;> rfl

/-- **C96.**  Outside any field, a function of any kind is given the name that its schema carries, and the data around. -/
theorem schema_name_outside (schemaName : Option String) (x : α) (st : VState α) (hn : st.extra.fieldName = none) :
    (∀ g : α → Info α → Except (PyExc α) α, (Kind.plain (.withInfo g)).validate schemaName x st =
      functionPlain (fun _ v => g v ⟨st.extra.data, schemaName⟩) x st) ∧
    (∀ (g : α → Info α → Except (PyExc α) α) (inner : Validator α α),
      (Kind.before (.withInfo g) inner).validate schemaName x st =
        functionBefore (fun _ v => g v ⟨st.extra.data, schemaName⟩) inner x st) ∧
    (∀ (g : α → Info α → Except (PyExc α) α) (inner : Validator α α), (∀ x st, (inner x st).2.extra = st.extra) →
      (Kind.after (.withInfo g) inner).validate schemaName x st =
        functionAfter (fun _ v => g v ⟨st.extra.data, schemaName⟩) inner x st) ∧
    (∀ (g : α → Info α → WrapProg α) (inner : Validator α α),
      (Kind.wrap (.withInfo g) inner).validate schemaName x st =
        functionWrap (fun _ v => g v ⟨st.extra.data, schemaName⟩) inner x st) := by
  refine ⟨fun g => ?_, fun g inner => ?_, fun g inner hi => ?_, fun g inner => ?_⟩
  · simp only [Kind.validate, functionPlain, Func.call, Info.new, hn, Option.none_or]
  · simp only [Kind.validate, functionBefore, Func.call, Info.new, hn, Option.none_or]
  · simp only [Kind.validate, functionAfter, Func.call, Info.new, hi, hn, Option.none_or]
  · simp only [Kind.validate, functionWrap, Func.call, Info.new, hn, Option.none_or]

/-! ### Samples -/

namespace Demo
open PC.Fields.Demo

/-- Adds the value that it is told for `a`. -/
def plusA (v : V) (i : Info V) : Except (PyExc V) V :=
  match v, i.data.bind (Dict.get "a") with
  | .num n, some (.num k) => .ok (.num (n + k))
  | _, _ => .error (.valueError (.ok "no a"))

/-- Gives the name that it is told. -/
def nameOf (_ : V) (i : Info V) : Except (PyExc V) V := .ok (.str (i.fieldName.getD "?"))

/-- A field `s` with a function. -/
def fieldS (run : Validator V V) : Field V := ⟨"s", ⟨.simple ⟨"s", []⟩, none, none⟩, run, noDefault, false, false⟩

/-- A model of `a` (by the alias `b`), then `s`. -/
def toldModel (k : Kind V) : ModelFields V :=
  { model .ignore with fields := [fieldA, fieldS (k.validate (some "other"))] }

theorem distinctS (run : Validator V V) : DistinctNames [fieldA, fieldS run] := by
  show ["a", "s"].Nodup
  decide

/-- A wrap function that calls its handler with its input, then adds the value it is told for `a`. -/
def wrapA (v : V) (i : Info V) : WrapProg V :=
  .call v none fun r => .done (r.bind fun w => plusA w i)

end Demo

open Demo PC.Fields.Demo in
/-- All four kinds of functions, each told `a = 1`. -/
example (k : Kind V) (hk : k = .plain (.withInfo plusA) ∨ k = .after (.withInfo plusA) num ∨ k = .before (.withInfo plusA) num ∨
      k = .wrap (.withInfo wrapA) num) :
    ((toldModel k).validate (.dict [("s", 5), ("b", 1)]) PC.Fields.Demo.st).1 =
      .ok ⟨[("a", .num 1), ("s", .num 6)], none, ["a", "s"]⟩ := by
  rcases hk with rfl | rfl | rfl | rfl <;> rfl

open Demo PC.Fields.Demo in
/-- The theorems apply to them. -/
example : Dict.get "s" [("a", V.num 1), ("s", .num 6)] =
    (plusA (.num 5) ⟨some (Dict.only ["a"] [("a", .num 1), ("s", .num 6)]), some "s"⟩).toOption :=
  plain_function_told (toldModel (.plain (.withInfo plusA))) (.dict [("s", 5), ("b", 1)]) PC.Fields.Demo.st
    (view [("s", 5), ("b", 1)]) rfl (distinctS _) ⟨[("a", .num 1), ("s", .num 6)], none, ["a", "s"]⟩ rfl
    (pre := [fieldA]) (post := []) rfl (key := .simple ⟨"s", []⟩) rfl rfl (path := ⟨"s", []⟩) rfl

open Demo PC.Fields.Demo in
example : ∃ st0, Dict.get "s" [("a", V.num 1), ("s", .num 6)] =
    (valueOf (num (.num 5) (tell "s" (Dict.only ["a"] [("a", .num 1), ("s", .num 6)]) st0)).1).bind fun w =>
      (plusA w ⟨some (Dict.only ["a"] [("a", .num 1), ("s", .num 6)]), some "s"⟩).toOption :=
  after_function_told (toldModel (.after (.withInfo plusA) num)) (.dict [("s", 5), ("b", 1)]) PC.Fields.Demo.st
    (view [("s", 5), ("b", 1)]) rfl (distinctS _) ⟨[("a", .num 1), ("s", .num 6)], none, ["a", "s"]⟩ rfl
    (pre := [fieldA]) (post := []) rfl (key := .simple ⟨"s", []⟩) rfl
    (fun x st => by unfold num; split; split <;> rfl; rfl) rfl (path := ⟨"s", []⟩) rfl

open Demo PC.Fields.Demo in
example : ∃ st0, Dict.get "s" [("a", V.num 1), ("s", .num 6)] =
    (plusA (.num 5) ⟨some (Dict.only ["a"] [("a", .num 1), ("s", .num 6)]), some "s"⟩).toOption.bind fun w =>
      valueOf (num w (tell "s" (Dict.only ["a"] [("a", .num 1), ("s", .num 6)]) st0)).1 :=
  before_function_told (toldModel (.before (.withInfo plusA) num)) (.dict [("s", 5), ("b", 1)]) PC.Fields.Demo.st
    (view [("s", 5), ("b", 1)]) rfl (distinctS _) ⟨[("a", .num 1), ("s", .num 6)], none, ["a", "s"]⟩ rfl
    (pre := [fieldA]) (post := []) rfl (key := .simple ⟨"s", []⟩) rfl rfl (path := ⟨"s", []⟩) rfl

open Demo PC.Fields.Demo in
example : ∃ h : Internal V, h.data = some (Dict.only ["a"] [("a", .num 1), ("s", .num 6)]) ∧
    Dict.get "s" [("a", V.num 1), ("s", .num 6)] =
      (runWrap num (wrapA (.num 5) ⟨some (Dict.only ["a"] [("a", .num 1), ("s", .num 6)]), some "s"⟩) h).1.toOption :=
  wrap_function_told (toldModel (.wrap (.withInfo wrapA) num)) (.dict [("s", 5), ("b", 1)]) PC.Fields.Demo.st
    (view [("s", 5), ("b", 1)]) rfl (distinctS _) ⟨[("a", .num 1), ("s", .num 6)], none, ["a", "s"]⟩ rfl
    (pre := [fieldA]) (post := []) rfl (key := .simple ⟨"s", []⟩) rfl rfl (path := ⟨"s", []⟩) rfl

open Demo PC.Fields.Demo in
/-- The field's own name goes before that of the function's schema; behind a handler it is the other way round. -/
example : ((toldModel (.plain (.withInfo nameOf))).validate (.dict [("s", 5), ("b", 1)]) PC.Fields.Demo.st).1 =
      .ok ⟨[("a", .num 1), ("s", .str "s")], none, ["a", "s"]⟩ ∧
    ((toldModel (.wrap (.noInfo fun v => .call v none .done) ((Kind.plain (.withInfo nameOf)).validate (some "mine")))).validate
        (.dict [("s", 5), ("b", 1)]) PC.Fields.Demo.st).1 =
      .ok ⟨[("a", .num 1), ("s", .str "mine")], none, ["a", "s"]⟩ := ⟨rfl, rfl⟩

open Demo PC.Fields.Demo in
/-- A function of the second field that would do otherwise when told nothing, or the value of a later field. -/
example (g : V → Info V → Except (PyExc V) V) (hg : ∀ v d, (∀ kv ∈ d, kv.1 = "a") → g v ⟨some d, some "s"⟩ = plusA v ⟨some d, some "s"⟩)
    (input : V) (st : VState V) :
    (toldModel (.plain (.withInfo g))).validate input st = (toldModel (.plain (.withInfo plusA))).validate input st := by
  refine model_told_only (toldModel (.plain (.withInfo plusA))) _ ?_ input st
  refine .cons ⟨rfl, fun _ _ _ => rfl, fun _ _ _ => rfl⟩ (.cons ⟨rfl, fun x st h => ?_, fun _ _ _ => rfl⟩ (.nil _))
  obtain ⟨h1, d, h2, h3⟩ := h
  have h1 : st.extra.fieldName = some "s" := h1
  show functionPlain _ x st = functionPlain _ x st
  unfold functionPlain
  simp only [Func.call, Info.new, h1, h2, Option.some_or]
  rw [hg x d (fun kv hkv => by simpa [fieldA] using h3 kv hkv)]

open Demo PC.Fields.Demo in
/-- The same of a typed dict. -/
example (g : V → Info V → Except (PyExc V) V) (hg : ∀ v d, (∀ kv ∈ d, kv.1 = "a") → g v ⟨some d, some "s"⟩ = plusA v ⟨some d, some "s"⟩)
    (input : V) (st : VState V) :
    ({ typedDict .ignore with fields := [fieldA, fieldS (functionPlain ((Func.withInfo g).call none))] } : TypedDict V).validate
        input st =
      ({ typedDict .ignore with fields := [fieldA, fieldS (functionPlain ((Func.withInfo plusA).call none))] } : TypedDict V).validate
        input st := by
  refine dict_told_only ({ typedDict .ignore with fields :=
    [fieldA, fieldS (functionPlain ((Func.withInfo plusA).call none))] } : TypedDict V) _ ?_ input st
  refine .cons ⟨rfl, fun _ _ _ => rfl, fun _ _ _ => rfl⟩ (.cons ⟨rfl, fun x st h => ?_, fun _ _ _ => rfl⟩ (.nil _))
  obtain ⟨h1, d, h2, h3⟩ := h
  have h1 : st.extra.fieldName = some "s" := h1
  show functionPlain _ x st = functionPlain _ x st
  unfold functionPlain
  simp only [Func.call, Info.new, h1, h2, Option.some_or]
  rw [hg x d (fun kv hkv => by simpa [fieldA] using h3 kv hkv)]

open Demo PC.Fields.Demo in
/-- A typed dict whose second field adds the first. -/
example : (({ typedDict .ignore with fields := [fieldA, fieldS (functionPlain ((Func.withInfo plusA).call none))] } :
      TypedDict V).validate (.dict [("s", 5), ("b", 1)]) PC.Fields.Demo.st).1 = .ok (.dict [("a", 1), ("s", 6)]) := rfl

open Demo PC.Fields.Demo in
/-- On assignment, `s` is told of `a`, which comes after it. -/
example : ∃ v, (functionPlain ((Func.withInfo plusA).call none) (.num 7)
      (tell "s" (Dict.del "s" [("s", .num 6), ("a", .num 1)]) PC.Fields.Demo.st)).1 = .ok v ∧
    [("s", .num 8), ("a", .num 1)] = Dict.set "s" v [("s", .num 6), ("a", .num 1)] :=
  assignment_told { model .ignore with fields := [fieldS (functionPlain ((Func.withInfo plusA).call none)), fieldA] }
    [("s", .num 6), ("a", .num 1)] "s" (.num 7) PC.Fields.Demo.st (f := fieldS (functionPlain ((Func.withInfo plusA).call none)))
    (by show ["s", "a"].Nodup; decide) (by simp) rfl rfl [("s", .num 8), ("a", .num 1)] rfl

open PC.Args in
/-- A dataclass whose field `c` gives the names that it is told, `b` being init-only: it is not among them. -/
example : ((dataclass [field "a" false true false (okV "a") noDflt, field "b" false true true (okV "b") noDflt,
      field "c" false true false ((Kind.plain (.withInfo fun _ i =>
        .ok (String.join ((i.data.getD []).map Prod.fst)))).validate none) noDflt] .ignore ["1", "2", "3"] []).validate "" st0).1 =
    .ok ⟨[("a", "1a"), ("c", "a")], some ["2b"]⟩ := rfl

open Demo PC.Fields.Demo in
/-- Outside a field the function is told the name of its schema. -/
example : ((Kind.wrap (.withInfo fun v i => .done (nameOf v i)) num).validate (some "mine") (.num 1) PC.Fields.Demo.st).1 =
    .ok (.str "mine") ∧ PC.Fields.Demo.st.extra.fieldName = none := ⟨rfl, rfl⟩

/-! ### What is not told -/

open Demo PC.Fields.Demo in
/-- **C96 fails** of defaults: a function that checks a default is not told the name of the field, here `s`, but that of the field
around the model, here `outer`; dataclasses do tell it. -/
theorem default_told_outer_name :
    (({ model .ignore with fields := [fieldA, { fieldS num with dflt := fun _ st =>
          let r := (Kind.plain (.withInfo nameOf)).validate none (.num 5) st
          (r.1.map some, r.2) }] } : ModelFields V).validate (.dict [("b", 1)])
        { PC.Fields.Demo.st with extra := { fieldName := some "outer" } }).1 =
      .ok ⟨[("a", .num 1), ("s", .str "outer")], none, ["a"]⟩ := rfl

open Demo PC.Fields.Demo in
/-- **C96 fails** of extra items: their validator is not told the fields of the model, nor the name of the item, but what the
validator around the model is told. -/
theorem extra_told_outer :
    (({ model .allow with extrasV := some ((Kind.plain (.withInfo fun _ i =>
          .ok (.dict ((i.data.getD []).map fun kv => (kv.1 ++ "/" ++ i.fieldName.getD "?", 0))))).validate none) } :
        ModelFields V).validate (.dict [("b", 1), ("z", 3)])
        { PC.Fields.Demo.st with extra := { fieldName := some "outer", data := some [("x", .num 0)] } }).1 =
      .ok ⟨[("a", .num 1), ("c", .num 7)], some [("z", .dict [("x/outer", 0)])], ["a", "z"]⟩ := rfl

end PC.Info
