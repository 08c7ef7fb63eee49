import Verif.Model.Combinators
import Verif.Model.Dataclass

/-
`validate_assignment` through validator functions: those around the validator of a class, which are given the instance itself,
and those between the validator of a class and the validator of its fields, which are given a dict.
-/

namespace PC.AssignFn
open PC.Fields PC.Comb
variable {α σ : Type}

/-! ### Functions between the class and its fields -/

/-- A wrap function between the class and its fields: it ends, or calls its handler with an object (`none`: not a dict) and goes
on with the outcome (`none`: not a triple). -/
inductive DictProg (α : Type) where
  | done (r : Except (PyExc α) (Option (ModelOut α)))
  | call (d : Option (Dict α)) (outer : Option LocItem) (k : Except (PyExc α) (Option (ModelOut α)) → DictProg α)

/-- What is between the validator of a class and the validator of its fields.  Functions are given and give Python objects; of
these only dicts (for what is validated) and triples of the kind that `model-fields` makes (for results) are told apart from
others, `none`.  Objects are values here: a function that changes the dict it is given is one that returns another. -/
inductive Inner (α : Type) where
  | fields (m : ModelFields α)
  | before (f : Extra α → Option (Dict α) → Except (PyExc α) (Option (Dict α))) (inner : Inner α)
  | after (f : Extra α → Option (ModelOut α) → Except (PyExc α) (Option (ModelOut α))) (inner : Inner α)
  | wrap (f : Extra α → Option (Dict α) → DictProg α) (inner : Inner α)

/-- The state built by `InternalValidator::validate_assignment`, `src/validators/generator.rs:274-287`: as for validation, but with
the name of the attribute. -/
def handlerState (h : Internal α) (name : String) : VState α :=
  { h.state with extra := { h.state.extra with fieldName := some name } }

/-- `InternalValidator::validate_assignment`, `src/validators/generator.rs:266-304`, and
`AssignmentValidatorCallable::__call__`, `src/validators/function.rs:457-470`, for dicts: the handler run by the wrap function. -/
def runDictProg (inner : Option (Dict α) → VState α → ValResult α (Option (ModelOut α)) × VState α) (name : String) :
    DictProg α → Internal α → Except (PyExc α) (Option (ModelOut α))
  | .done r, _ => r
  | .call d outer k, h =>
    let r := inner d (handlerState h name)
    let h' := { h with guard := r.2.guard, exactness := r.2.exactness }
    match r.1 with
    | .ok out => runDictProg inner name (k (.ok out)) h'
    | .error e => runDictProg inner name (k (.error (fromValError e outer))) h'

/-- `validate_assignment` of what is between, `src/validators/function.rs:136-149` (before), 210-223 (after), 387-409 (wrap) and
`src/validators/model_fields.rs:381-480`, the `downcast` of 390 included; `ofDict` makes a value of what errors show. -/
def Inner.assign (ofDict : Option (Dict α) → α) (name : String) (value : α) :
    Inner α → Option (Dict α) → VState α → ValResult α (Option (ModelOut α)) × VState α
  | .fields m, d, st =>
    match d with
    | none => (.error (.internal ⟨"TypeError"⟩), st)
    | some d =>
      let r := m.validateAssignment d name value st
      (r.1.map some, r.2)
  | .before f inner, d, st =>
    match f st.extra d with
    | .error e => (.error (convertErr e (ofDict d)), st)
    | .ok d' => inner.assign ofDict name value d' st
  | .after f inner, d, st =>
    let r := inner.assign ofDict name value d st
    match r.1 with
    | .error e => (.error e, r.2)
    | .ok out =>
      match f r.2.extra out with
      | .ok out' => (.ok out', r.2)
      | .error e => (.error (convertErr e (ofDict d)), r.2)
  | .wrap f inner, d, st =>
    match runDictProg (inner.assign ofDict name value) name (f st.extra d) (Internal.new st) with
    | .ok out => (.ok out, st)
    | .error e => (.error (convertErr e (ofDict d)), st)

/-- `ModelValidator` for assignment, `src/validators/model.rs:53-65`, with functions between it and the fields; `root` is the root
validator of a root model. -/
structure Class (α : Type) where
  inner : Inner α
  root : Option (Validator α α)
  frozen : Bool

/-- `ModelValidator::validate_assignment`, `src/validators/model.rs:184-240`; the `extract` of 222-226 fails for what is no
triple. -/
def Class.assign (c : Class α) (ofDict : Option (Dict α) → α) (name : String) (value : α) (inst : Instance α) (st : VState α) :
    ValResult α Unit × Instance α × VState α :=
  if c.frozen then (.error (.new .frozenInstance value), inst, st)
  else
    match c.root with
    | some root =>
      if name ≠ "root" then (.error (.newWithLoc (.noSuchAttribute name) value (.s name)), inst, st)
      else
        let r := rebindExtra (fun x => { x with fieldName := some "root" }) (root value) st
        match r.1 with
        | .error e => (.error e, inst, r.2)
        | .ok v => (.ok (), { inst with dict := inst.dict.set "root" v }, r.2)
    | none =>
      let inputDict := match inst.extra with
        | some old => inst.dict.update old
        | none => inst.dict
      let r := c.inner.assign ofDict name value (some (inputDict.set name value)) st
      match r.1 with
      | .error e => (.error e, inst, r.2)
      | .ok none => (.error (.internal ⟨"TypeError"⟩), inst, r.2)
      | .ok (some out) => (.ok (), ⟨out.dict, out.extra, addAll inst.fieldsSet out.fieldsSet⟩, r.2)

/-! ### Functions around the class -/

/-- The objects of a program: what each of them holds. -/
abbrev Heap (σ : Type) := Nat → σ

/-- Another content for one object. -/
def Heap.put (h : Heap σ) (obj : Nat) (s : σ) : Heap σ := fun x => if x = obj then s else h x

/-- A wrap function around a class: it ends, or calls its handler with an object and goes on with the outcome and with the objects as
they are then. -/
inductive Prog (α σ : Type) where
  | done (r : Except (PyExc α) Nat)
  | call (obj : Nat) (outer : Option LocItem) (k : Except (PyExc α) Nat → Heap σ → Prog α σ)

/-- Functions around the validator of a class.  They are given the object itself and may look at what objects hold; functions
that change objects are not modelled.  `core` is the validator of the class, for one attribute and value. -/
inductive Outer (α σ : Type) where
  | core (assign : σ → VState α → ValResult α Unit × σ × VState α)
  | before (f : Extra α → Heap σ → Nat → Except (PyExc α) Nat) (inner : Outer α σ)
  | after (f : Extra α → Heap σ → Nat → Except (PyExc α) Nat) (inner : Outer α σ)
  | wrap (f : Extra α → Heap σ → Nat → Prog α σ) (inner : Outer α σ)

/-- `InternalValidator::validate_assignment`, `src/validators/generator.rs:266-304`, and
`AssignmentValidatorCallable::__call__`, `src/validators/function.rs:457-470`: the handler run by the wrap function. -/
def runProg (inner : Nat → Heap σ → VState α → ValResult α Nat × Heap σ × VState α) (name : String) :
    Prog α σ → Internal α → Heap σ → Except (PyExc α) Nat × Heap σ
  | .done r, _, heap => (r, heap)
  | .call obj outer k, h, heap =>
    let r := inner obj heap (handlerState h name)
    let h' := { h with guard := r.2.2.guard, exactness := r.2.2.exactness }
    match r.1 with
    | .ok v => runProg inner name (k (.ok v) r.2.1) h' r.2.1
    | .error e => runProg inner name (k (.error (fromValError e outer)) r.2.1) h' r.2.1

/-- `validate_assignment` of functions around a class, `src/validators/function.rs:95-116, 136-149` (before), 169-190, 210-223
(after) and 335-356, 387-409 (wrap); the class gives the object it was given, `src/validators/model.rs:239`,
`src/validators/dataclass.rs:614`. -/
def Outer.assign (ofObj : Nat → α) (name : String) : Outer α σ → Nat → Heap σ → VState α → ValResult α Nat × Heap σ × VState α
  | .core a, obj, heap, st =>
    let r := a (heap obj) st
    (r.1.map fun _ => obj, heap.put obj r.2.1, r.2.2)
  | .before f inner, obj, heap, st =>
    match f st.extra heap obj with
    | .error e => (.error (convertErr e (ofObj obj)), heap, st)
    | .ok v => inner.assign ofObj name v heap st
  | .after f inner, obj, heap, st =>
    let r := inner.assign ofObj name obj heap st
    match r.1 with
    | .error e => (.error e, r.2.1, r.2.2)
    | .ok v =>
      match f r.2.2.extra r.2.1 v with
      | .ok w => (.ok w, r.2.1, r.2.2)
      | .error e => (.error (convertErr e (ofObj obj)), r.2.1, r.2.2)
  | .wrap f inner, obj, heap, st =>
    let r := runProg (inner.assign ofObj name) name (f st.extra heap obj) (Internal.new st) heap
    match r.1 with
    | .ok v => (.ok v, r.2, st)
    | .error e => (.error (convertErr e (ofObj obj)), r.2, st)

/-- `SchemaValidator::validate_assignment`, `src/validators/mod.rs:297-327`: the state it starts from, given the options of the
call. -/
def entryState (strict fromAttributes byAlias byName : Option Bool) (name : String) : VState α :=
  .new { strict := strict, fromAttributes := fromAttributes, byAlias := byAlias, byName := byName, data := none,
         fieldName := some name } Guard.State.init (.ofBool false)

end PC.AssignFn
