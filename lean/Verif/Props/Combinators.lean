import Verif.Model.Combinators
import Verif.Props.Union

/-
Properties of the combining validators: nullable and chain (C53), isinstance (C52), exceptions
(C45), defaults (C27), option scoping (C51), exactness (C50), locations (C31), wrap functions
(C56).
-/

namespace PC.Comb
variable {α : Type}

/-! ## C53: nullable and chain -/

/-- **C53** (nullable). -/
theorem nullable_spec (isNone : α → Bool) (noneV : α) (inner : Validator α α) (input : α)
    (st : VState α) :
    (isNone input = true → nullable isNone noneV inner input st = (.ok noneV, st)) ∧
    (isNone input = false → nullable isNone noneV inner input st = inner input st) := by
  constructor <;> intro h <;> simp [nullable, h]

example : ∃ i j : String, ((· == "None") i) = true ∧ ((· == "None") j) = false :=
  ⟨"None", "x", by decide, by decide⟩

/-- **C53** (json-or-python).  Python objects go to the one schema, JSON and strings to the other. -/
theorem json_or_python_spec (json python : Validator α α) (t : InputType) :
    (t = .python → jsonOrPython t json python = python) ∧ (t ≠ .python → jsonOrPython t json python = json) := by
  cases t with
  | python => exact ⟨fun _ => rfl, fun h => absurd rfl h⟩
  | json => exact ⟨(fun h => by cases h), fun _ => rfl⟩
  | string => exact ⟨(fun h => by cases h), fun _ => rfl⟩

example : InputType.json ≠ .python ∧ InputType.string ≠ .python := by decide

/-- "Then": feed the output of `a` to `b`; stop at the first error. -/
def andThen (a b : Validator α α) : Validator α α := fun input st =>
  match a input st with
  | (.ok v, st') => b v st'
  | (.error e, st') => (.error e, st')

mutual
/-- What a (possibly nested) chain schema means, without any flattening: run the steps one after
the other, a nested chain being one step. -/
def meaning : ChainStep α → Validator α α
  | .one v => v
  | .nested ss => meaningAll ss
def meaningAll : List (ChainStep α) → Validator α α
  | [] => fun v st => (.ok v, st)
  | s :: ss => andThen (meaning s) (meaningAll ss)
end

mutual
/-- No empty chain anywhere (empty chains are schema errors). -/
def nonEmpty : ChainStep α → Prop
  | .one _ => True
  | .nested ss => ss ≠ [] ∧ nonEmptyAll ss
def nonEmptyAll : List (ChainStep α) → Prop
  | [] => True
  | s :: ss => nonEmpty s ∧ nonEmptyAll ss
end

private theorem chainRest_append (xs ys : List (Validator α α)) (v : α) (st : VState α) :
    chainRest (xs ++ ys) v st = andThen (chainRest xs) (chainRest ys) v st := by
  induction xs generalizing v st with
  | nil => rfl
  | cons x xs ih =>
    simp only [List.cons_append, chainRest, andThen]
    cases h : (x v st).1 with
    | ok w => simp only [ih, andThen]
    | error e => rfl

private theorem chain_eq (ss : List (Validator α α)) (h : ss ≠ []) (v : α) (st : VState α) :
    chain ss v st = some (chainRest ss v st) := by
  cases ss with
  | nil => exact absurd rfl h
  | cons s ss =>
    simp only [chain, chainRest]
    cases (s v st).1 <;> rfl

private theorem andThen_ok (a : Validator α α) :
    andThen a (fun v st => (.ok v, st)) = a := by
  funext i st
  unfold andThen
  rcases h : a i st with ⟨r, s⟩
  cases r <;> rfl

private theorem chainRest_single (v : Validator α α) : chainRest [v] = v := by
  funext i st
  simp only [chainRest]
  rcases h : v i st with ⟨r, s⟩
  cases r <;> rfl

private theorem mkChain_steps (ss : List (Validator α α)) (b : Built α)
    (h : mkChain ss = some b) : b.steps = ss ∧ ss ≠ [] := by
  match ss with
  | [] => simp [mkChain] at h
  | [v] => simp [mkChain] at h; subst h; simp [Built.steps]
  | v :: w :: ss => simp [mkChain] at h; subst h; simp [Built.steps]

private theorem run_eq (b : Built α) (h : b.steps ≠ []) (v : α) (st : VState α) :
    b.run v st = some (chainRest b.steps v st) := by
  cases b with
  | chain ss => exact chain_eq ss h v st
  | other w => simp [Built.run, Built.steps, chainRest_single]

mutual
private theorem build_ok (s : ChainStep α) (h : nonEmpty s) :
    ∃ b, buildStep s = some b ∧ b.steps ≠ [] ∧ chainRest b.steps = meaning s := by
  cases s with
  | one v => exact ⟨.other v, by simp [buildStep], by simp [Built.steps],
      by simp [Built.steps, meaning, chainRest_single]⟩
  | nested ss =>
    obtain ⟨vs, h1, h2, h3⟩ := builds_ok ss h.2
    have hne : vs ≠ [] := h3 h.1
    match vs, hne with
    | [v], _ =>
      exact ⟨.other v, by simp [buildStep, h1, mkChain], by simp [Built.steps],
        by simpa [Built.steps, meaning] using h2⟩
    | v :: w :: vs, _ =>
      exact ⟨.chain (v :: w :: vs), by simp [buildStep, h1, mkChain], by simp [Built.steps],
        by simpa [Built.steps, meaning] using h2⟩
private theorem builds_ok (ss : List (ChainStep α)) (h : nonEmptyAll ss) :
    ∃ vs, buildSteps ss = some vs ∧ chainRest vs = meaningAll ss ∧ (ss ≠ [] → vs ≠ []) := by
  cases ss with
  | nil => exact ⟨[], by simp [buildSteps], by funext v st; rfl, by simp⟩
  | cons s ss =>
    obtain ⟨b, h1, h2, h3⟩ := build_ok s h.1
    obtain ⟨vs, h4, h5, _⟩ := builds_ok ss h.2
    refine ⟨b.steps ++ vs, by simp [buildSteps, h1, h4], ?_, by simp [h2]⟩
    funext v st
    rw [chainRest_append, h3, h5, meaningAll]
end

/-- **C53** (chain).  Building any chain schema without empty chains succeeds, and running the
built (flattened) validator is running the steps one after the other, each on the output of the
previous, stopping at the first error. -/
theorem chain_spec (s : ChainStep α) (h : nonEmpty s) :
    ∃ b, buildStep s = some b ∧ ∀ input st, b.run input st = some (meaning s input st) := by
  obtain ⟨b, h1, h2, h3⟩ := build_ok s h
  exact ⟨b, h1, fun i st => by rw [run_eq b h2, h3]⟩

/-- **C53** (an empty chain is a schema error). -/
theorem chain_empty_rejected : buildStep (.nested ([] : List (ChainStep α))) = none := by
  simp [buildStep, buildSteps, mkChain]

/-- **C53** (associativity). -/
theorem chain_assoc (a b c : Validator α α) :
    andThen (andThen a b) c = andThen a (andThen b c) := by
  funext i st
  unfold andThen
  rcases h : a i st with ⟨r, s⟩
  cases r <;> rfl

/-- **C53** (first failing step).  If the steps before `s` accept, feeding `v` to `s`, and `s`
fails, the chain fails with exactly the error of `s`, whatever follows. -/
theorem chain_first_failure (pre post : List (Validator α α)) (s : Validator α α) (input v : α)
    (st st' : VState α) (e : ValError α)
    (hpre : chainRest pre input st = (.ok v, st')) (hs : (s v st').1 = .error e) :
    chain (pre ++ s :: post) input st = some (.error e, (s v st').2) := by
  rw [chain_eq _ (by simp), chainRest_append]
  simp [andThen, hpre, chainRest, hs]

/-- Sample steps for the examples: append a letter; fail. -/
def appendStep (t : String) : Validator String String := fun i st => (.ok (i ++ t), st)
def failStep : Validator String String := fun i st => (.error (ValError.new .missing i), st)

example : nonEmpty (.nested [.one (appendStep "a"), .nested [.one (appendStep "b"),
    .nested [.one failStep]]] : ChainStep String) := by
  simp [nonEmpty, nonEmptyAll]

example : chainRest [appendStep "a", appendStep "b"] "x" Union.st0 = (.ok "xab", Union.st0) ∧
    (failStep "xab" Union.st0).1 = .error (ValError.new .missing "xab") := by
  constructor <;> rfl

/-! ## C52: isinstance -/

/-- **C52.** -/
theorem isinstance_agrees (v : Validator α α) (strict fa ba bn : Option Bool) (input : α) :
    (isinstancePython v strict fa ba bn input = .returns true ↔
      ∃ out, validatePython v strict fa ba bn .off input = .returns out) ∧
    (isinstancePython v strict fa ba bn input = .returns false ↔
      ∃ ls, validatePython v strict fa ba bn .off input = .validationError ls) ∧
    (∀ e, isinstancePython v strict fa ba bn input = .raises e ↔
      validatePython v strict fa ba bn .off input = .raises e) := by
  have hoff : PartialMode.ofBool false = .off := rfl
  unfold isinstancePython validatePython prepareErr
  rw [hoff]
  cases (v input (apiState strict fa ba bn .off)).1 with
  | ok r => simp
  | error e => cases e <;> simp

/-! ## C45: exceptions raised by user functions -/

/-- **C45** (the mapping). -/
theorem convert_err_spec (err : PyExc α) (input : α) :
    (∀ t, (err = .customError t ∨ err = .knownError t) →
      convertErr err input = .lineErrors [⟨t, .empty, input⟩]) ∧
    (∀ ls, err = .validationError ls → convertErr err input = .lineErrors ls) ∧
    (∀ s, err = .valueError (.ok s) →
      convertErr err input = .lineErrors [⟨.other "value_error", .empty, input⟩]) ∧
    (∀ s, err = .assertionError (.ok s) →
      convertErr err input = .lineErrors [⟨.other "assertion_error", .empty, input⟩]) ∧
    (err = .pydanticOmit → convertErr err input = .omitted) ∧
    (err = .pydanticUseDefault → convertErr err input = .useDefault) ∧
    (∀ e, err = .other e → convertErr err input = .internal e) := by
  refine ⟨?_, ?_, ?_, ?_, ?_, ?_, ?_⟩
  · rintro t (rfl | rfl) <;> rfl
  all_goals (intros; subst_vars; rfl)

/-- **C45** (never success).  A function validator whose function raises fails with the mapped
error, at the validator's own input. -/
theorem function_raises_fails (f : PyFunc α) (inner : Validator α α) (input : α) (st : VState α)
    (err : PyExc α) :
    (f st.extra input = .error err →
      (functionBefore f inner input st).1 = .error (convertErr err input) ∧
      (functionPlain f input st).1 = .error (convertErr err input)) ∧
    (∀ v, (inner input st).1 = .ok v → f (inner input st).2.extra v = .error err →
      (functionAfter f inner input st).1 = .error (convertErr err input)) := by
  refine ⟨fun h => ⟨by simp [functionBefore, h], by simp [functionPlain, h]⟩, fun v hv h => ?_⟩
  simp [functionAfter, hv, h]

/-- **C45** (success passes through). -/
theorem function_ok (f : PyFunc α) (inner : Validator α α) (input v : α) (st : VState α) :
    (f st.extra input = .ok v → functionBefore f inner input st = inner v st ∧
      functionPlain f input st = (.ok v, st)) ∧
    (∀ w, (inner input st).1 = .ok w → f (inner input st).2.extra w = .ok v →
      (functionAfter f inner input st).1 = .ok v) ∧
    (∀ e, (inner input st).1 = .error e → (functionAfter f inner input st).1 = .error e) := by
  refine ⟨fun h => ⟨by simp [functionBefore, h], by simp [functionPlain, h]⟩, fun w hw h => ?_,
    fun e he => ?_⟩
  · simp [functionAfter, hw, h]
  · simp [functionAfter, he]

/-- A function that raises `ValueError` on `"bad"`. -/
def exFunc : PyFunc String := fun _ i => if i = "bad" then .error (.valueError (.ok "m")) else .ok i

example : exFunc Union.st0.extra "bad" = .error (.valueError (.ok "m")) ∧
    exFunc Union.st0.extra "good" = .ok "good" ∧
    (functionBefore exFunc (appendStep "!") "bad" Union.st0).1 =
      .error (.lineErrors [⟨.other "value_error", .empty, "bad"⟩]) := by
  refine ⟨?_, ?_, ?_⟩ <;> decide

/-- **C45** (wrap functions).  Whatever the wrap function does, a raised exception is mapped and
a returned value is returned; a validation error of the inner validator that the function lets
through is reported unchanged. -/
theorem wrap_outcome (prog : Extra α → α → WrapProg α) (inner : Validator α α) (input : α)
    (st : VState α) :
    (functionWrap prog inner input st).1 =
      (match (runWrap inner (prog st.extra input) (Internal.new st)).1 with
        | .ok v => .ok v
        | .error e => .error (convertErr e input)) := by
  unfold functionWrap
  cases h : (runWrap inner (prog st.extra input) (Internal.new st)).1 <;> simp [h]

/-- The wrap function that just calls its handler. -/
def passThrough : Extra α → α → WrapProg α := fun _ x => .call x none .done

/-- **C45** (wrap functions).  An outer location given to the handler is put in front of the location of every error that it raises. -/
theorem handler_outer_location (inner : Validator α α) (input : α) (st : VState α) (l : LocItem) (ls : List (LineError α))
    (h : (functionWrap passThrough inner input st).1 = .error (.lineErrors ls)) :
    (functionWrap (fun _ x => .call x (some l) .done) inner input st).1 =
      .error (.lineErrors (ls.map (·.withOuterLocation l))) := by
  simp only [functionWrap, passThrough, runWrap, Internal.validate] at h ⊢
  generalize inner input (Internal.new st).state = r at h ⊢
  obtain ⟨r, st'⟩ := r
  cases r with
  | ok v => cases h
  | error e =>
    cases e with
    | lineErrors es =>
      simp only [fromValError, convertErr, Except.error.injEq, ValError.lineErrors.injEq] at h ⊢
      rw [h]
    | internal e => cases h
    | omitted => cases h
    | useDefault => cases h

/-- **C56** (transparency of a pass-through wrap function).  If the call options are not set
(`by_alias`, `by_name`), there is no enclosing field name or partial mode and no fields-set
count, a wrap function that only calls its handler gives the value or the validation errors of
the inner validator.

Full claim: without the hypotheses on the state; `wrap_drops_options` shows the code does not
have that property. -/
theorem wrap_transparent_partial (inner : Validator α α) (input : α) (st : VState α)
    (h1 : st.extra.byAlias = none) (h2 : st.extra.byName = none) (h3 : st.extra.fieldName = none)
    (h4 : st.allowPartial = .off) (h5 : st.fieldsSetCount = none) :
    (∀ v, (inner input st).1 = .ok v → (functionWrap passThrough inner input st).1 = .ok v) ∧
    (∀ ls, (inner input st).1 = .error (.lineErrors ls) →
      (functionWrap passThrough inner input st).1 = .error (.lineErrors ls)) ∧
    (∀ e, (inner input st).1 = .error (.internal e) →
      (functionWrap passThrough inner input st).1 = .error (.internal e)) ∧
    (functionWrap passThrough inner input st).2.exactness = (inner input st).2.exactness := by
  have hst : (Internal.new st).state = st := by
    rcases st with ⟨g, e, f, p, ⟨s, fa, ba, bn, d, fnm⟩⟩
    simp_all [Internal.new, Internal.state, VState.new, PartialMode.ofBool]
  refine ⟨?_, ?_, ?_, ?_⟩
  · intro v hv
    simp [functionWrap, passThrough, runWrap, Internal.validate, hst, hv]
  · intro ls hl
    simp [functionWrap, passThrough, runWrap, Internal.validate, hst, hl, fromValError, convertErr]
  · intro e he
    simp [functionWrap, passThrough, runWrap, Internal.validate, hst, he, fromValError, convertErr]
  · simp only [functionWrap, passThrough, runWrap, Internal.validate, hst]
    cases (inner input st).1 <;> simp only [] <;> split <;> rfl

/-- An inner validator that, like a model, looks at `by_name` and counts its fields. -/
def byNameProbe : Validator String String := fun i st =>
  if st.validateByNameOr none then (.ok i, st.addFieldsSet 1)
  else (.error (ValError.new .missing i), st)

/-- **C56, negation of the full claim.**  With `by_name=True` given at call time, the same inner
validator accepts directly and rejects behind a pass-through wrap function; and the number of
fields set it reports is lost. -/
theorem wrap_drops_options :
    (∃ (st : VState String), (byNameProbe "x" st).1 = .ok "x" ∧
      (functionWrap passThrough byNameProbe "x" st).1 = .error (.lineErrors [⟨.missing, .empty,
        "x"⟩])) ∧
    (∃ (inner : Validator String String) (st : VState String),
      (inner "x" st).1 = .ok "x" ∧ (inner "x" st).2.fieldsSetCount = some 1 ∧
      (functionWrap passThrough inner "x" st).1 = .ok "x" ∧
      (functionWrap passThrough inner "x" st).2.fieldsSetCount = none) := by
  refine ⟨⟨apiState none none none (some true) .off, ?_, ?_⟩,
    ⟨fun i st => (.ok i, st.addFieldsSet 1), Union.st0, ?_, ?_, ?_, ?_⟩⟩ <;> decide

example : (apiState (some true) none none none .off : VState String).extra.byAlias = none ∧
    (byNameProbe "x" (apiState (some true) none none none .off)).1 =
      .error (.lineErrors [⟨.missing, .empty, "x"⟩]) := by decide

/-- A wrap function that swallows every error of its handler. -/
def fallback (d : α) : Extra α → α → WrapProg α := fun _ x => .call x none fun r =>
  match r with
  | .ok v => .done (.ok v)
  | .error _ => .done (.ok d)

example : (functionWrap (fallback "d") failStep "x" Union.st0).1 = .ok "d" := by decide

/-- `handler_outer_location` applies. -/
example : ∃ ls, (functionWrap passThrough failStep "x" Union.st0).1 = .error (.lineErrors ls) ∧ ls ≠ [] := ⟨_, rfl, by decide⟩

/-! ## C27: defaults -/

/-- The default as produced for the given model data: an exception, nothing, or a value (after
the defensive copy). -/
def WithDefault.produced (w : WithDefault α) (st : VState α) : Except PyErr (Option α) :=
  match w.default with
  | .absent => .ok none
  | .value v => if w.copyDefault then (w.copy v).map some else .ok (some v)
  | .factory takes call =>
    match call (factoryArg takes st.extra.data) with
    | .error e => .error e
    | .ok v => if w.copyDefault then (w.copy v).map some else .ok (some v)

private theorem defaultValue_eq (w : WithDefault α) (n : Nat) (outer : Option LocItem)
    (st : VState α) :
    w.defaultValue (n + 1) outer st = (match w.produced st with
      | .error e => .done (.error (.internal e)) st
      | .ok none => .done (.ok none) st
      | .ok (some d) =>
        if w.validateDefault then
          match w.validate n d st with
          | .done (.ok v) st => .done (.ok (some v)) st
          | .done (.error e) st =>
            .done (.error (match outer with
              | some l => e.withOuterLocation l
              | none => e)) st
          | .panic => .panic
          | .outOfFuel => .outOfFuel
        else .done (.ok (some d)) st) := by
  rw [WithDefault.defaultValue]
  unfold DefaultType.get WithDefault.produced
  cases w.default with
  | absent => rfl
  | value v =>
    simp only
    cases w.copyDefault with
    | false => rfl
    | true => simp only [if_true]; cases w.copy v <;> rfl
  | factory takes call =>
    simp only
    cases call (factoryArg takes st.extra.data) with
    | error e => rfl
    | ok v =>
      simp only [Except.map]
      cases w.copyDefault with
      | false => rfl
      | true => simp only [if_true]; cases w.copy v <;> rfl

/-- **C27** (default factories): a factory is called without arguments, or, if it takes the validated data, with the dict of what has
been validated so far, whenever there is one.  What is missing: where there is none, see `factory_given_tuple`. -/
theorem factory_called_partial (w : WithDefault α) (takes : Bool) (call : FactoryArg α → Except PyErr α)
    (hd : w.default = .factory takes call) (hc : w.copyDefault = false) (hv : w.validateDefault = false) (n : Nat)
    (outer : Option LocItem) (st : VState α) (data : List (String × α)) (hs : st.extra.data = some data) :
    w.defaultValue (n + 1) outer st = (match call (if takes then .dict data else .nothing) with
      | .ok v => .done (.ok (some v)) st
      | .error e => .done (.error (.internal e)) st) := by
  rw [defaultValue_eq]
  simp only [WithDefault.produced, hd, hs, factoryArg, hc]
  cases takes with
  | false => simp only [Bool.false_eq_true, if_false]; cases call .nothing <;> simp [hv]
  | true => simp only [if_true]; cases call (.dict data) <;> simp [hv]

/-- **C27, the code violates it**: outside models, typed dicts and dataclasses a factory that takes the validated data is called with an
empty tuple, not with a dict. -/
theorem factory_given_tuple (w : WithDefault α) (call : FactoryArg α → Except PyErr α)
    (hd : w.default = .factory true call) (hc : w.copyDefault = false) (hv : w.validateDefault = false) (n : Nat)
    (outer : Option LocItem) (st : VState α) (hs : st.extra.data = none) :
    w.defaultValue (n + 1) outer st = (match call .emptyTuple with
      | .ok v => .done (.ok (some v)) st
      | .error e => .done (.error (.internal e)) st) := by
  rw [defaultValue_eq]
  simp only [WithDefault.produced, hd, hs, factoryArg, hc, if_true]
  cases call .emptyTuple <;> simp [hv]

/-- When the default is used: for an undefined input, when the inner validator asks for it, or
when it fails and `on_error='default'`. -/
def WithDefault.usesDefault (w : WithDefault α) (input : α) (st : VState α) : Prop :=
  w.isUndefined input = true ∨
  (w.inner input st).1 = .error .useDefault ∨
  ((∃ e, (w.inner input st).1 = .error e) ∧ w.onError = .default)

/-- **C27** (the default is not used): the inner result is returned unchanged, except that an
error becomes "omit" with `on_error='omit'`. -/
theorem default_not_used (w : WithDefault α) (input : α) (st : VState α) (n : Nat)
    (h : ¬ w.usesDefault input st) :
    (∀ v, (w.inner input st).1 = .ok v →
      w.validate (n + 1) input st = .done (.ok v) (w.inner input st).2) ∧
    (∀ e, (w.inner input st).1 = .error e → w.onError = .omitIt →
      w.validate (n + 1) input st = .done (.error .omitted) (w.inner input st).2) ∧
    (∀ e, (w.inner input st).1 = .error e → w.onError = .raise →
      w.validate (n + 1) input st = .done (.error e) (w.inner input st).2) := by
  unfold WithDefault.usesDefault at h
  simp only [not_or, not_and, Bool.not_eq_true] at h
  obtain ⟨h1, h2, h3⟩ := h
  refine ⟨?_, ?_, ?_⟩
  · intro v hv
    simp [WithDefault.validate, h1, hv]
  · intro e he ho
    rw [WithDefault.validate]
    simp only [h1, he, ho]
    cases e with
    | useDefault => exact absurd he h2
    | _ => rfl
  · intro e he ho
    rw [WithDefault.validate]
    simp only [h1, he, ho]
    cases e with
    | useDefault => exact absurd he h2
    | _ => rfl

/-- The state in which the default is computed. -/
def WithDefault.stateForDefault (w : WithDefault α) (input : α) (st : VState α) : VState α :=
  if w.isUndefined input then st else (w.inner input st).2

/-- **C27** (the default is used, and not validated): the value is the default, an exception of
the factory or copy propagates, and when there is no default the error that asked for it is
reported. -/
theorem default_used_unvalidated (w : WithDefault α) (input : α) (st : VState α) (n : Nat)
    (hv : w.validateDefault = false) (h : w.usesDefault input st) :
    (∀ d, w.produced (w.stateForDefault input st) = .ok (some d) →
      w.validate (n + 2) input st = .done (.ok d) (w.stateForDefault input st)) ∧
    (∀ e, w.produced (w.stateForDefault input st) = .error e →
      w.validate (n + 2) input st = .done (.error (.internal e)) (w.stateForDefault input st)) ∧
    (w.produced (w.stateForDefault input st) = .ok none → w.isUndefined input = false →
      ∃ e, (w.inner input st).1 = .error e ∧
      w.validate (n + 2) input st = .done (.error e) (w.stateForDefault input st)) := by
  unfold WithDefault.stateForDefault
  cases hu : w.isUndefined input with
  | true =>
    simp only [if_true]
    refine ⟨?_, ?_, by simp⟩
    · intro d hd
      simp [WithDefault.validate, hu, defaultValue_eq, hd, hv]
    · intro e he
      simp [WithDefault.validate, hu, defaultValue_eq, he]
  | false =>
    have hd : ∃ e, (w.inner input st).1 = .error e ∧
        (e = .useDefault ∨ w.onError = .default) := by
      rcases h with h | h | ⟨⟨e, h⟩, h'⟩
      · rw [hu] at h; cases h
      · exact ⟨_, h, .inl rfl⟩
      · exact ⟨e, h, .inr h'⟩
    obtain ⟨e, he, hor⟩ := hd
    simp only [Bool.false_eq_true, if_false]
    have hval : ∀ m, w.validate (m + 1) input st =
        (match w.defaultValue m none (w.inner input st).2 with
          | .done (.ok (some v)) st => .done (.ok v) st
          | .done (.ok none) st => .done (.error e) st
          | .done (.error e') st => .done (.error e') st
          | .panic => .panic
          | .outOfFuel => .outOfFuel) := by
      intro m
      rw [WithDefault.validate]
      simp only [hu, he, Bool.false_eq_true, if_false]
      cases e with
      | useDefault => rfl
      | _ =>
        simp only [reduceCtorEq, false_or] at hor
        simp only [hor]
        split <;> simp_all
    refine ⟨?_, ?_, ?_⟩
    · intro d hd
      rw [hval, defaultValue_eq]; simp [hd, hv]
    · intro x hx
      rw [hval, defaultValue_eq]; simp [hx]
    · intro hn _
      exact ⟨e, he, by rw [hval, defaultValue_eq]; simp [hn]⟩

/-- **C27** (the default is used and validated).  With `validate_default`, the default goes
through the inner validator: an accepted default gives the validated value, a rejected one (with
`on_error='raise'`) the validator's error. -/
theorem default_used_validated (w : WithDefault α) (input : α) (st : VState α) (n : Nat) (d : α)
    (hv : w.validateDefault = true) (h : w.usesDefault input st)
    (hd : w.produced (w.stateForDefault input st) = .ok (some d))
    (hdu : w.isUndefined d = false) :
    (∀ v, (w.inner d (w.stateForDefault input st)).1 = .ok v →
      w.validate (n + 3) input st = .done (.ok v) (w.inner d (w.stateForDefault input st)).2) ∧
    (∀ e, (w.inner d (w.stateForDefault input st)).1 = .error e → e ≠ .useDefault →
      w.onError = .raise →
      w.validate (n + 3) input st = .done (.error e) (w.inner d (w.stateForDefault input st)).2) := by
  have key : w.validate (n + 3) input st = (match w.validate (n + 1) d (w.stateForDefault input st)
      with
      | .done (.ok v) st => .done (.ok v) st
      | .done (.error e) st => .done (.error e) st
      | .panic => .panic
      | .outOfFuel => .outOfFuel) := by
    unfold WithDefault.stateForDefault at hd ⊢
    rw [WithDefault.validate]
    cases hu : w.isUndefined input with
    | true =>
      simp only [hu, if_true] at hd ⊢
      rw [defaultValue_eq]
      simp only [hd, hv, if_true]
      cases w.validate (n + 1) d st with
      | done r s => cases r <;> rfl
      | _ => rfl
    | false =>
      simp only [hu, Bool.false_eq_true, if_false] at hd ⊢
      have hde : ∃ e, (w.inner input st).1 = .error e ∧
          (e = .useDefault ∨ w.onError = .default) := by
        rcases h with h | h | ⟨⟨e, h⟩, h'⟩
        · rw [hu] at h; cases h
        · exact ⟨_, h, .inl rfl⟩
        · exact ⟨e, h, .inr h'⟩
      obtain ⟨e, he, hor⟩ := hde
      simp only [he]
      rw [defaultValue_eq]
      simp only [hd, hv, if_true]
      cases e with
      | useDefault =>
        simp only
        cases w.validate (n + 1) d (w.inner input st).2 with
        | done r s => cases r <;> rfl
        | _ => rfl
      | _ =>
        simp only [reduceCtorEq, false_or] at hor
        simp only [hor]
        cases w.validate (n + 1) d (w.inner input st).2 with
        | done r s => cases r <;> rfl
        | _ => rfl
  constructor
  · intro v hv'
    rw [key, WithDefault.validate]; simp [hdu, hv']
  · intro e he hne ho
    rw [key, WithDefault.validate]; simp only [hdu, he, ho]
    cases e with
    | useDefault => exact absurd rfl hne
    | _ => rfl

/-- **C27, a case the code does not handle.**  With `validate_default`, `on_error='default'` and
a default the inner validator rejects, validation of any rejected input never ends: it runs out
of every bound on the nesting (in the code: unbounded recursion). -/
theorem default_invalid_diverges (w : WithDefault α) (hv : w.validateDefault = true)
    (ho : w.onError = .default) (d : α) (hd : ∀ st, w.produced st = .ok (some d))
    (hu : w.isUndefined d = false)
    (hrej : ∀ st, ∃ e, (w.inner d st).1 = .error e) (input : α) (st : VState α)
    (hin : w.usesDefault input st) : ∀ n, w.validate n input st = .outOfFuel := by
  have key : ∀ n st, w.validate n d st = .outOfFuel := by
    intro n
    induction n using Nat.strongRecOn with
    | _ n ih =>
      intro st
      match n with
      | 0 => simp [WithDefault.validate]
      | 1 =>
        obtain ⟨e, he⟩ := hrej st
        rw [WithDefault.validate]
        simp only [hu, he, ho]
        cases e <;> simp [WithDefault.defaultValue]
      | n + 2 =>
        obtain ⟨e, he⟩ := hrej st
        rw [WithDefault.validate]
        simp only [hu, he, ho, defaultValue_eq, hd, hv, if_true, ih n (by omega)]
        cases e <;> simp
  intro n
  match n with
  | 0 => simp [WithDefault.validate]
  | 1 =>
    rw [WithDefault.validate]
    rcases hin with h | h | ⟨⟨e, h⟩, _⟩
    · simp [h, WithDefault.defaultValue]
    · cases hx : w.isUndefined input <;> simp [h, WithDefault.defaultValue]
    · cases hx : w.isUndefined input
      · simp only [h, ho]; cases e <;> simp [WithDefault.defaultValue]
      · simp [WithDefault.defaultValue]
  | n + 2 =>
    rw [WithDefault.validate]
    rcases hin with h | h | ⟨⟨e, h⟩, _⟩
    · simp [h, defaultValue_eq, hd, hv, key]
    · cases hx : w.isUndefined input <;> simp [h, defaultValue_eq, hd, hv, key]
    · cases hx : w.isUndefined input
      · simp only [h, ho, defaultValue_eq, hd, hv, if_true, key]; cases e <;> simp
      · simp [defaultValue_eq, hd, hv, key]

/-- **C27, another such case.**  An undefined input without a default panics. -/
theorem default_missing_panics (w : WithDefault α) (input : α) (st : VState α) (n : Nat)
    (hu : w.isUndefined input = true) (hd : w.default = .absent) :
    w.validate (n + 2) input st = .panic := by
  simp [WithDefault.validate, hu, defaultValue_eq, WithDefault.produced, hd]

/-- Without `validate_default` two levels of nesting always suffice: validation never diverges. -/
theorem default_terminates_partial (w : WithDefault α) (input : α) (st : VState α) (n : Nat)
    (hv : w.validateDefault = false) : w.validate (n + 2) input st ≠ .outOfFuel := by
  have hdv : ∀ st, w.defaultValue (n + 1) none st ≠ .outOfFuel ∧
      w.defaultValue (n + 1) none st ≠ .panic := by
    intro st
    rw [defaultValue_eq]
    rcases w.produced st with e | (_ | d) <;> simp [hv]
  rw [WithDefault.validate]
  have h1 := hdv st
  have h2 := hdv (w.inner input st).2
  cases hu : w.isUndefined input with
  | true =>
    simp only [if_true]
    rcases hx : w.defaultValue (n + 1) none st with ⟨r, s⟩ | _ | _
    · rcases r with e | (_ | v) <;> simp
    · simp
    · exact absurd hx h1.1
  | false =>
    simp only [Bool.false_eq_true, if_false]
    cases he : (w.inner input st).1 with
    | ok v => simp
    | error e =>
      simp only
      rcases hx : w.defaultValue (n + 1) none (w.inner input st).2 with ⟨r, s⟩ | _ | _
      · rcases r with e' | (_ | v) <;> cases e <;> cases w.onError <;> simp
      · cases e <;> cases w.onError <;> simp
      · exact absurd hx h2.1

/-- A sample: rejects everything but `"ok"`. -/
def exDefault (onError : OnError) (vd : Bool) (d : DefaultType String) : WithDefault String where
  default := d
  onError := onError
  inner := fun i st => if i = "ok" then (.ok "OK", st) else (.error (ValError.new .missing i), st)
  validateDefault := vd
  copyDefault := false
  copy := .ok
  isUndefined := (· == "<undefined>")

/-- Non-vacuity of the theorems above, one case each. -/
example : ¬ (exDefault .raise false (.value "d")).usesDefault "ok" Union.st0 := by
  simp [WithDefault.usesDefault, exDefault]
example : (exDefault .default false (.value "d")).usesDefault "bad" Union.st0 ∧
    (exDefault .default false (.value "d")).produced Union.st0 = .ok (some "d") := by
  refine ⟨.inr (.inr ⟨⟨_, rfl⟩, rfl⟩), rfl⟩
example : (exDefault .raise true (.value "ok")).usesDefault "<undefined>" Union.st0 ∧
    (exDefault .raise true (.value "ok")).isUndefined "ok" = false := by
  refine ⟨.inl rfl, rfl⟩
example : ∀ n, (exDefault .default true (.value "d")).validate n "bad" Union.st0 = .outOfFuel :=
  default_invalid_diverges _ rfl rfl "d" (fun _ => rfl) rfl (fun _ => ⟨_, rfl⟩) "bad" Union.st0
    (.inr (.inr ⟨⟨_, rfl⟩, rfl⟩))
example : (exDefault .raise false (.factory true fun | .dict [] => .ok "{}" | .emptyTuple => .ok "()" | _ => .ok "?")).validate 2
    "<undefined>" (Union.st0) = .done (.ok "()") Union.st0 := rfl
example : ({ Union.st0 with extra := { Union.st0.extra with data := some [] } } : VState String).extra.data = some [] := rfl
example : (exDefault .raise false .absent).isUndefined "<undefined>" = true := rfl

/-! ## C51: option scoping -/

/-- A validator gives back the options it was called with. -/
def KeepsOptions (v : Validator α α) : Prop := ∀ input st, (v input st).2.extra = st.extra

/-- **C51** (scoping).  Whatever the body does, and whatever it does to the options, they are
what they were before when the override ends; and the body sees exactly the override. -/
theorem rebind_restores {β : Type} (f : Extra α → Extra α) (body : VState α → β × VState α)
    (st : VState α) :
    (rebindExtra f body st).2.extra = st.extra ∧
    (rebindExtra f body st).1 = (body { st with extra := f st.extra }).1 ∧
    (rebindExtra f body st).2.exactness = (body { st with extra := f st.extra }).2.exactness ∧
    (rebindExtra f body st).2.guard = (body { st with extra := f st.extra }).2.guard := by
  simp [rebindExtra]

/-- **C51** (scoping, combinators).  Every combining validator gives back the options as it
found them if its parts do. -/
theorem combinators_keep_options (a b : Validator α α) (ha : KeepsOptions a)
    (hb : KeepsOptions b) :
    (∀ isNone noneV, KeepsOptions (nullable isNone noneV a)) ∧
    KeepsOptions (andThen a b) ∧
    (∀ s, KeepsOptions (laxOrStrict s a b)) ∧
    (∀ t, KeepsOptions (customError t a)) ∧
    (∀ f, KeepsOptions (functionBefore f a)) ∧ (∀ f, KeepsOptions (functionAfter f a)) ∧
    (∀ f : PyFunc α, KeepsOptions (functionPlain f)) ∧
    (∀ p, KeepsOptions (functionWrap p a)) := by
  refine ⟨?_, ?_, ?_, ?_, ?_, ?_, ?_, ?_⟩
  · intro isNone noneV input st
    unfold nullable; split
    · rfl
    · exact ha input st
  · intro input st
    unfold andThen
    rcases h : a input st with ⟨r, s⟩
    have := ha input st
    rw [h] at this
    cases r with
    | ok v => simp only; rw [hb v s, this]
    | error e => exact this
  · intro s input st
    have hfl : ∀ s : VState α, (s.floorExactness .lax).extra = s.extra := by
      intro s; unfold VState.floorExactness; split <;> simp
    unfold laxOrStrict
    split
    · exact hb input st
    · split
      · simp only
        split
        · exact hb input st
        · rw [ha, hfl, hb]
      · exact ha input st
  · intro t input st
    simp only [customError]; split <;> exact ha input st
  · intro f input st
    simp only [functionBefore]; split
    · rfl
    · exact ha _ st
  · intro f input st
    simp only [functionAfter]
    split
    · exact ha input st
    · split <;> exact ha input st
  · intro f input st
    simp only [functionPlain]; split <;> rfl
  · intro p input st
    simp only [functionWrap]; split <;> rfl

/-- The first of the given settings, in order of precedence. -/
def firstGiven (settings : List (Option Bool)) (fallback : Bool) : Bool :=
  match settings.filterMap id with
  | [] => fallback
  | b :: _ => b

/-- **C51** (precedence).  The effective strictness is the call-time setting, else the schema's,
else the configuration's, else lax. -/
theorem strict_precedence (st : VState α) (schema config : Option Bool) :
    st.strictOr (isStrict schema config) = firstGiven [st.extra.strict, schema, config] false := by
  unfold VState.strictOr isStrict schemaOrConfig firstGiven
  rcases st.extra.strict with _ | s <;> rcases schema with _ | s' <;> rcases config with _ | s'' <;>
    simp

/-- **C51** (precedence of by_alias / by_name): call time, else schema or configuration, else
by alias only. -/
theorem alias_precedence (st : VState α) (d : Option Bool) :
    st.validateByAliasOr d = firstGiven [st.extra.byAlias, d] true ∧
    st.validateByNameOr d = firstGiven [st.extra.byName, d] false := by
  unfold VState.validateByAliasOr VState.validateByNameOr firstGiven
  constructor
  · rcases st.extra.byAlias with _ | s <;> rcases d with _ | s' <;> simp
  · rcases st.extra.byName with _ | s <;> rcases d with _ | s' <;> simp

example : KeepsOptions (appendStep "a") := fun _ _ => rfl

/-! ## C50: exactness -/

/-- `x` is no more exact than `y` (and tracked iff `y` is). -/
def NoMoreExact : Option Exactness → Option Exactness → Prop
  | none, none => True
  | some a, some b => a.rank ≤ b.rank
  | _, _ => False

/-- A validator never raises the recorded exactness. -/
def NeverRaises (v : Validator α α) : Prop :=
  ∀ input st, NoMoreExact (v input st).2.exactness st.exactness

/-- The least exact of a starting value and a list of steps. -/
def leastExact (start : Exactness) (steps : List Exactness) : Nat :=
  steps.foldl (fun m e => min m e.rank) start.rank

/-- **C50** (minimum).  After any sequence of conversion steps, the recorded exactness is the
minimum of what it was and the exactness of every step. -/
theorem exactness_is_minimum (st : VState α) (steps : List Exactness) (start : Exactness)
    (h : st.exactness = some start) :
    ∃ e, (steps.foldl VState.floorExactness st).exactness = some e ∧
      e.rank = leastExact start steps := by
  induction steps generalizing st start with
  | nil => exact ⟨start, h, rfl⟩
  | cons s steps ih =>
    have hstep : ∃ e', (st.floorExactness s).exactness = some e' ∧
        e'.rank = min start.rank s.rank := by
      unfold VState.floorExactness
      rw [h]
      cases start <;> cases s <;> simp [Exactness.rank, h]
    obtain ⟨e', h1, h2⟩ := hstep
    obtain ⟨e, h3, h4⟩ := ih (st.floorExactness s) e' h1
    refine ⟨e, h3, ?_⟩
    simp only [leastExact, List.foldl_cons] at h4 ⊢
    rw [h4, h2]

/-- Outside unions exactness is not tracked and stays untracked. -/
theorem exactness_untracked (st : VState α) (steps : List Exactness) (h : st.exactness = none) :
    (steps.foldl VState.floorExactness st).exactness = none := by
  induction steps generalizing st with
  | nil => exact h
  | cons s steps ih =>
    apply ih
    unfold VState.floorExactness
    rw [h]
    exact h

theorem NoMoreExact.refl (x : Option Exactness) : NoMoreExact x x := by
  cases x <;> simp [NoMoreExact]

theorem NoMoreExact.trans {x y z : Option Exactness} (h1 : NoMoreExact x y)
    (h2 : NoMoreExact y z) : NoMoreExact x z := by
  cases x <;> cases y <;> cases z <;> simp_all [NoMoreExact]; omega

private theorem floor_noMore (st : VState α) (e : Exactness) :
    NoMoreExact (st.floorExactness e).exactness st.exactness := by
  unfold VState.floorExactness
  rcases h : st.exactness with _ | x
  · simp [h, NoMoreExact]
  · cases x <;> cases e <;> simp [h, NoMoreExact, Exactness.rank]

/-- **C50** (functions and combinators do not raise exactness). -/
theorem combinators_never_raise (a b : Validator α α) (ha : NeverRaises a) (hb : NeverRaises b) :
    (∀ isNone noneV, NeverRaises (nullable isNone noneV a)) ∧
    NeverRaises (andThen a b) ∧
    (∀ s, NeverRaises (laxOrStrict s a b)) ∧
    (∀ t, NeverRaises (customError t a)) ∧
    (∀ f, NeverRaises (functionBefore f a)) ∧ (∀ f, NeverRaises (functionAfter f a)) ∧
    (∀ f : PyFunc α, NeverRaises (functionPlain f)) ∧
    (∀ p, NeverRaises (functionWrap p a)) := by
  refine ⟨?_, ?_, ?_, ?_, ?_, ?_, ?_, ?_⟩
  · intro isNone noneV input st
    unfold nullable; split
    · exact .refl _
    · exact ha input st
  · intro input st
    unfold andThen
    rcases h : a input st with ⟨r, s⟩
    have := ha input st
    rw [h] at this
    cases r with
    | ok v => exact (hb v s).trans this
    | error e => exact this
  · intro s input st
    unfold laxOrStrict
    split
    · exact hb input st
    · split
      · simp only
        split
        · exact hb input st
        · exact (ha _ _).trans ((floor_noMore _ _).trans (hb _ _))
      · exact ha input st
  · intro t input st
    simp only [customError]; split <;> exact ha input st
  · intro f input st
    simp only [functionBefore]; split
    · exact .refl _
    · exact ha _ st
  · intro f input st
    simp only [functionAfter]
    split
    · exact ha input st
    · split <;> exact ha input st
  · intro f input st
    simp only [functionPlain]; split <;> exact .refl _
  · intro p input st
    have key : ∀ (q : WrapProg α) (h : Internal α),
        NoMoreExact (runWrap a q h).2.exactness h.exactness := by
      intro q
      induction q with
      | done r => intro h; exact .refl _
      | call x outer k ih =>
        intro h
        simp only [runWrap]
        refine (ih _ _).trans ?_
        have := ha x h.state
        unfold Internal.validate
        simp only
        split <;> exact this
    have := key (p st.extra input) (Internal.new st)
    simp only [functionWrap]; split <;> exact this

/-- **C50** (unions do not raise exactness).  A left-to-right union never raises it; a smart
union does not when its members end in a value or ordinary errors.

Full claim: a smart union never raises it; `Union.smart_union_state_not_restored_on_omit` shows
the code does when a member omits the value. -/
theorem unions_never_raise_partial (choices : List (Union.Choice α)) (ce : Option ErrType)
    (h : ∀ c ∈ choices, NeverRaises c.run) :
    NeverRaises (Union.validateLeftToRight choices ce) ∧
    (∀ input st, (∀ a ∈ Union.attempts input choices st, a.Ordinary) →
      NoMoreExact (Union.validateSmart choices ce input st).2.exactness st.exactness) := by
  constructor
  · intro input st
    have key : ∀ (cs : List (Union.Choice α)) (m : Union.MaybeErrors α) (s : VState α),
        (∀ c ∈ cs, NeverRaises c.run) →
        NoMoreExact (Union.leftToRightLoop input cs m s).2.exactness s.exactness := by
      intro cs
      induction cs with
      | nil => intro m s _; exact .refl _
      | cons c cs ih =>
        intro m s hc
        simp only [Union.leftToRightLoop]
        split
        · exact (ih _ _ fun c' h' => hc c' (List.mem_cons_of_mem _ h')).trans
            (hc c List.mem_cons_self input s)
        · exact hc c List.mem_cons_self input s
    exact key choices _ st h
  · intro input st hord
    rcases Union.smart_union_state choices ce input st hord with ⟨h1, _⟩ | ⟨e, f, h1, _⟩
    · rw [h1]; exact .refl _
    · rw [h1]
      cases st.exactness with
      | none => trivial
      | some o => simp only [Option.map_some, NoMoreExact]; split <;> omega

/-- A converting validator for the examples: lowers exactness by one lax step. -/
def laxStep : Validator String String := fun i st => (.ok i, st.floorExactness .lax)

example : NeverRaises laxStep := fun _ st => floor_noMore st _
example : ({ Union.st0 with exactness := some .exact } : VState String).exactness = some .exact :=
  rfl
example : ∀ c ∈ [(⟨"a", none, laxStep⟩ : Union.Choice String)], NeverRaises c.run := by
  simp only [List.mem_singleton, forall_eq]
  exact fun _ st => floor_noMore st _

/-- A failed member of a left-to-right union does lower the exactness recorded for the accepted
one: the accepted member alone is exact, the union reports lax. -/
theorem left_to_right_failed_member_lowers :
    ∃ (failing accepting : Union.Choice String) (st : VState String),
      (accepting.run "x" st).2.exactness = some .exact ∧
      (Union.validateLeftToRight [failing, accepting] none "x" st).1 = (accepting.run "x" st).1 ∧
      (Union.validateLeftToRight [failing, accepting] none "x" st).2.exactness = some .lax :=
  ⟨⟨"f", none, fun i st => (.error (ValError.new .missing i), st.floorExactness .lax)⟩,
   ⟨"a", none, fun i st => (.ok i, st)⟩, { Union.st0 with exactness := some .exact },
   rfl, rfl, rfl⟩

/-! ## C31: locations -/

/-- Wrapping an error in its enclosing containers, innermost first. -/
def wrapAll (e : ValError α) (outer : List LocItem) : ValError α :=
  outer.foldl ValError.withOuterLocation e

/-- **C31** (outermost first).  An error created at a value (with or without its own location
item) and then passed up through containers `outer` (innermost first) shows the location
outermost container first. -/
theorem location_outermost_first (t : ErrType) (input : α) (outer : List LocItem) :
    (∃ l, wrapAll (ValError.new t input) outer = .lineErrors [⟨t, l, input⟩] ∧
      l.toPy = outer.reverse) ∧
    (∀ item, ∃ l, wrapAll (ValError.newWithLoc t input item) outer = .lineErrors [⟨t, l, input⟩] ∧
      l.toPy = outer.reverse ++ [item]) := by
  have key : ∀ (outer : List LocItem) (l : Location),
      ∃ l', wrapAll (.lineErrors [(⟨t, l, input⟩ : LineError α)]) outer =
        .lineErrors [⟨t, l', input⟩] ∧ l'.toPy = outer.reverse ++ l.toPy := by
    intro outer
    induction outer with
    | nil => intro l; exact ⟨l, rfl, rfl⟩
    | cons o outer ih =>
      intro l
      obtain ⟨l', h1, h2⟩ := ih (l.withOuter o)
      refine ⟨l', ?_, ?_⟩
      · rw [← h1]; rfl
      · rw [h2]
        cases l <;> simp [Location.withOuter, Location.toPy, Location.newSome]
  constructor
  · obtain ⟨l, h1, h2⟩ := key outer .empty
    exact ⟨l, h1, by simpa [Location.toPy] using h2⟩
  · intro item
    obtain ⟨l, h1, h2⟩ := key outer (.newSome item)
    exact ⟨l, h1, by simpa [Location.toPy, Location.newSome] using h2⟩

/-- **C31** (round trip).  A location built by the validators survives the conversion to a
Python tuple and back, and so does any tuple of location items. -/
theorem location_round_trip :
    (∀ items, (Location.ofPy items).toPy = items) ∧
    (∀ l, l ≠ Location.list [] → Location.ofPy l.toPy = l) := by
  constructor
  · intro items
    unfold Location.ofPy
    cases items <;> simp [Location.toPy]
  · intro l hl
    cases l with
    | empty => rfl
    | list r =>
      cases hr : r with
      | nil => rw [hr] at hl; exact absurd rfl hl
      | cons a b => simp [Location.ofPy, Location.toPy]

/-- No validator builds the location excluded above: prepending never gives an empty list. -/
theorem location_never_empty_list (l : Location) (item : LocItem) :
    l.withOuter item ≠ .list [] := by
  cases l <;> simp [Location.withOuter, Location.newSome]

example : ∃ l, wrapAll (ValError.newWithLoc .missing "x" (.s "name")) [.i 3, .s "users"] =
    .lineErrors [⟨.missing, l, "x"⟩] ∧ l.toPy = [.s "users", .i 3, .s "name"] :=
  ⟨.list [.s "name", .i 3, .s "users"], rfl, rfl⟩

end PC.Comb
