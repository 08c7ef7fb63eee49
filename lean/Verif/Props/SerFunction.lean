import Verif.Lemmas.SerFunction

/-
C84: serialisers that call a Python function.

A custom serialisation function is called when `when_used` says, with the arguments it asks for; what is written then
comes from what it returned, and from nothing else; exceptions are reported; a wrap function's handler does what the
schema without the function would do.
-/

namespace PC.SerFunction
open PC.Filter (FVal)

variable {V J G ε : Type}

/-! ### A small world for the examples: objects with numbers, strings and `None` -/

/-- Values of the examples. -/
inductive D where
  | none
  | str (t : String)
  | obj (es : List (String × Nat))
deriving DecidableEq

/-- The entries of an object that the filters leave. -/
def demoKeep (incl excl : Option FVal) (es : List (String × Nat)) : List (String × Nat) :=
  es.filter fun e =>
    match Filter.filter .any (.s e.1) 0 incl excl with
    | .ok (some _) => true
    | _ => false

/-- Inference of the examples: filters the entries of objects. -/
def demoInfer : Ser D D Unit String where
  py _ v incl excl st :=
    match v with
    | .obj es => (.ok (.obj (demoKeep incl excl es)), st)
    | v => (.ok v, st)
  key _ v st :=
    match v with
    | .str t => (.ok t.toList, st)
    | _ => (.err (.user "bad key"), st)
  json _ v incl excl st :=
    match v with
    | .obj es => (.ok (.obj (demoKeep incl excl es)), st)
    | v => (.ok v, st)
  retry := false

/-- A serialiser of strings, which warns of anything else and goes on. -/
def demoStr : Ser D D Unit String where
  py x v _ _ st :=
    match v with
    | .str t => (.ok (.str t), st)
    | v => (.ok v, registerWarning x.warnMode "Expected `str`".toList st)
  key _ v st :=
    match v with
    | .str t => (.ok t.toList, st)
    | _ => (.err (.user "bad key"), st)
  json x v _ _ st :=
    match v with
    | .str t => (.ok (.str t), st)
    | v => (.ok v, registerWarning x.warnMode "Expected `str`".toList st)
  retry := false

/-- The environment of the examples. -/
def demo : Env D D Unit String where
  isNone v := v == .none
  infer := demoInfer
  str v := match v with
    | .obj _ => .error (.user "no str")
    | .none => .ok (.str "None")
    | .str t => .ok (.str t)
  format v _ := .ok v
  strJson v := match v with
    | .str t => if t = "\\ud800" then .error "lone".toList else .ok (.str t)
    | _ => .error "not a str".toList
  null := .none
  strKey v := match v with
    | .str t => .ok t.toList
    | _ => .error (.user "not a str")
  lossyKey v := match v with
    | .str "\\ud800" => "?".toList
    | .str "\\udfff" => "?".toList
    | .str t => t.toList
    | _ => []
  display e := match e with
    | .user s => s.toList
    | .serError m => "PydanticSerializationError: ".toList ++ m
    | .runtime m => "RuntimeError: ".toList ++ m
    | _ => "?".toList
  warnRaises _ := Option.none
  warningText ws := "Pydantic serializer warnings:".toList ++ ws.flatten

/-- The settings of the examples. -/
def demoX (m : Mode) (w : WarnMode) : Extra D :=
  ⟨m, w, false, some (.str "the model"), some "field".toList, Option.none, Option.none, false, false, false, false,
    false⟩

/-- The start of a serialisation. -/
def st0 : St Unit := ⟨[], (), []⟩

/-- A function that hides its value. -/
def redact : Fn D String := ⟨"redact".toList, fun _ => .ret (.str "***"), false, false⟩

/-- A function that passes its value to the handler. -/
def through : Fn D String := ⟨"through".toList, transparent, false, false⟩

/-- A secret. -/
def secret : D := .obj [("user", 1), ("password", 42)]

/-- `exclude={'password'}`. -/
def noPassword : Option FVal := some (.set [.s "password"])

/-! ### When the function is used -/

/-- `when_used` is read from exactly its four documented names, and anything else is refused. -/
theorem when_used_names (s : String) (d w : WhenUsed) :
    (WhenUsed.parse (some s) d = some w ↔ s = w.text) ∧ WhenUsed.parse Option.none d = some d := by
  refine ⟨?_, rfl⟩
  unfold WhenUsed.parse
  constructor
  · intro h
    split at h <;> first | (injection h with h; subst h; simp_all [WhenUsed.text]) | cases h | skip
    all_goals simp_all
  · rintro rfl
    cases w <;> rfl

example : WhenUsed.parse (some "json-unless-none") .always = some .jsonUnlessNone ∧
    WhenUsed.parse (some "never") .always = Option.none := ⟨rfl, rfl⟩

/-- A function that is not to be used is not consulted: any other function in its place gives the same results, the same
warnings, in all three outputs. -/
theorem unused_not_consulted (E : Env V J G ε) (w : WhenUsed) (f g : Fn V ε) (ret ret' s : Ser V J G ε) (x : Extra V)
    (v : V) (h : ¬ Used E w x v) (incl excl : Option FVal) (st : St G) :
    ((plainSer E w f ret s).py x v incl excl st = (plainSer E w g ret' s).py x v incl excl st ∧
      (plainSer E w f ret s).json x v incl excl st = (plainSer E w g ret' s).json x v incl excl st ∧
      (plainSer E w f ret s).key x v st = (plainSer E w g ret' s).key x v st) ∧
    ((wrapSer E w f ret s).py x v incl excl st = (wrapSer E w g ret' s).py x v incl excl st ∧
      (wrapSer E w f ret s).json x v incl excl st = (wrapSer E w g ret' s).json x v incl excl st ∧
      (wrapSer E w f ret s).key x v st = (wrapSer E w g ret' s).key x v st) := by
  simp only [plainSer, wrapSer, functionSer, call_not_used h, and_self]

example : ¬ Used demo .json (demoX .python .warn) secret ∧
    (plainSer demo .json redact demoInfer demoInfer).py (demoX .python .warn) secret Option.none Option.none st0 =
      (.ok secret, st0) := ⟨by simp [Used, Applies, demoX], rfl⟩

/-- A function that is not to be used leaves the value to the schema without it. Missing: the `include` and `exclude`
of the call, which are dropped, see `unused_filters_lost`. Keys have none: for them this is the whole. -/
theorem unused_as_without_partial (E : Env V J G ε) (w : WhenUsed) (f : Fn V ε) (ret s : Ser V J G ε) (x : Extra V)
    (v : V) (h : ¬ Used E w x v) (st : St G) :
    ((plainSer E w f ret s).py x v Option.none Option.none st = s.py x v Option.none Option.none st ∧
      (plainSer E w f ret s).json x v Option.none Option.none st = s.json x v Option.none Option.none st ∧
      (plainSer E w f ret s).key x v st = s.key x v st) ∧
    ((wrapSer E w f ret s).py x v Option.none Option.none st = s.py x v Option.none Option.none st ∧
      (wrapSer E w f ret s).json x v Option.none Option.none st = s.json x v Option.none Option.none st ∧
      (wrapSer E w f ret s).key x v st = s.key x v st) := by
  have hw := not_used_always h
  simp only [plainSer, wrapSer, functionSer, call_not_used h, if_neg hw, expectPy, expectJson, expectKey, and_self]

example : ¬ Used demo .unlessNone (demoX .json .warn) .none := by simp [Used, Applies, demo]

/-- With `exclude={'password'}` the schema leaves the password out; the same schema with a function that is only for
JSON, and so not used, writes it, in mode `python`. The same for `None`-dependent use, and for wrap functions. -/
theorem unused_filters_lost :
    (demoInfer.py (demoX .python .warn) secret Option.none noPassword st0).1 = .ok (.obj [("user", 1)]) ∧
    ((plainSer demo .json redact demoInfer demoInfer).py (demoX .python .warn) secret Option.none noPassword st0).1 =
      .ok secret ∧
    ((wrapSer demo .json through demoInfer demoInfer).py (demoX .python .warn) secret Option.none noPassword st0).1 =
      .ok secret ∧
    ((wrapSer demo .json through demoInfer demoInfer).py (demoX .json .warn) secret Option.none noPassword st0).1 =
      .ok (.obj [("user", 1)]) := by
  refine ⟨?_, ?_, ?_, ?_⟩ <;> rfl

/-! ### What it is called with, and what becomes of its result -/

/-- A plain function that is to be used is run with the arguments it asks for, and if it returns, the result of the
serialisation is that of the return schema for the value returned, without filters. -/
theorem plain_used_exact (E : Env V J G ε) (w : WhenUsed) (f : Fn V ε) (ret s : Ser V J G ε) (x : Extra V) (v : V)
    (h : Used E w x v) (hc : HasContext f x) (incl excl : Option FVal) (a a' : Args V)
    (ha : ArgsFor f x v incl excl a) (ha' : ArgsFor f x v Option.none Option.none a') (o : V) (st : St G) :
    (f.body a = .ret o →
      (plainSer E w f ret s).py x v incl excl st = ret.py x o Option.none Option.none st ∧
      (plainSer E w f ret s).json x v incl excl st = ret.json x o Option.none Option.none st) ∧
    (f.body a' = .ret o → (plainSer E w f ret s).key x v st = ret.key x o st) := by
  constructor
  · intro hb
    simp only [plainSer, functionSer, call_used h _ _ hc ha, hb, runPlain, run, and_self]
  · intro hb
    simp only [plainSer, functionSer, call_used h _ _ hc ha', hb, runPlain, run]

example : Used demo .json (demoX .json .warn) secret ∧ HasContext redact (demoX .json .warn) ∧
    ArgsFor redact (demoX .json .warn) secret Option.none Option.none ⟨Option.none, secret, Option.none⟩ ∧
    ((plainSer demo .json redact demoInfer demoInfer).json (demoX .json .warn) secret Option.none Option.none st0).1 =
      .ok (.str "***") :=
  ⟨rfl, by simp [HasContext, redact], ⟨rfl, rfl, fun _ => rfl, by simp [redact]⟩, rfl⟩

/-- There are arguments for a function just if it is not a field serialiser, or there is a model and, if it asks for the
info, a field name; and they are the only ones. -/
theorem arguments_exist_iff (f : Fn V ε) (x : Extra V) (v : V) (incl excl : Option FVal) (kind : Text) :
    ((∃ a, mkArgs kind f x v incl excl = .ok a) ↔ HasContext f x) ∧
    ∀ a, mkArgs kind f x v incl excl = .ok a → ∀ b, ArgsFor f x v incl excl b ↔ b = a := by
  refine ⟨mkArgs_ok_iff kind f x v incl excl, ?_⟩
  intro a ha b
  constructor
  · intro hb
    exact hb.unique (mkArgs_for ha)
  · rintro rfl
    exact mkArgs_for ha

example : ∃ a, mkArgs "plain".toList (⟨"f".toList, fun _ => .ret .none, true, true⟩ : Fn D String)
    (demoX .json .warn) secret Option.none noPassword = .ok a ∧ a.model = some (.str "the model") ∧
    a.value = secret ∧ ∃ i, a.info = some i ∧ i.fieldName = some "field".toList ∧ i.mode = .json :=
  ⟨_, rfl, rfl, rfl, _, rfl, rfl, rfl⟩

/-- A field serialiser outside a model is reported, and nothing is written. -/
theorem no_context_reported (E : Env V J G ε) (w : WhenUsed) (f : Fn V ε) (ret s : Ser V J G ε) (x : Extra V) (v : V)
    (h : Used E w x v) (hc : ¬ HasContext f x) (incl excl : Option FVal) (st : St G) :
    (∃ t, (plainSer E w f ret s).py x v incl excl st = (.err (.serError t), st)) ∧
    (∃ t, (plainSer E w f ret s).json x v incl excl st = (.err (E.display (.serError t)), st)) ∧
    (∃ t, (wrapSer E w f ret s).py x v incl excl st = (.err (.serError t), st)) ∧
    (∃ t, (wrapSer E w f ret s).json x v incl excl st = (.err (E.display (.serError t)), st)) := by
  have key : ∀ kind exec, ∃ e, ¬ IsUnexpected e ∧
      call E w kind f exec x v incl excl st = (.err e, st) := by
    intro kind exec
    cases hm : mkArgs kind f x v incl excl with
    | ok a => exact absurd ((mkArgs_ok_iff kind f x v incl excl).1 ⟨a, hm⟩) hc
    | error e =>
      refine ⟨e, (mkArgs_error_blind hm v).2, ?_⟩
      unfold call
      rw [if_pos ((shouldUse_iff E w x v).2 h), hm]
  refine ⟨?_, ?_, ?_, ?_⟩
  all_goals
    simp only [plainSer, wrapSer, functionSer]
    first
      | (obtain ⟨e, he, hcall⟩ := key "plain".toList (fun _ _ _ p => runPlain p)
         obtain ⟨t, _, ho⟩ := onError_reported (E := E) (name := f.name) x he st
         exact ⟨t, by rw [hcall]; dsimp only; rw [ho]⟩)
      | (obtain ⟨e, he, hcall⟩ := key "wrap".toList (fun x incl excl p => runWrap E s x incl excl p)
         obtain ⟨t, _, ho⟩ := onError_reported (E := E) (name := f.name) x he st
         exact ⟨t, by rw [hcall]; dsimp only; rw [ho]⟩)

example : ¬ HasContext (⟨"f".toList, fun _ => .ret .none, true, false⟩ : Fn D String)
    { demoX .json .warn with model := Option.none } := by simp [HasContext]

/-! ### The value itself is hidden -/

/-- Two values a plain function does not tell apart are serialised alike, to Python, to JSON and as keys: nothing of
the value is written but through the function. Missing: a function that raises
`PydanticSerializationUnexpectedValue`, see `unexpected_leaks`. -/
theorem plain_hides_partial (E : Env V J G ε) (w : WhenUsed) (f : Fn V ε) (ret s : Ser V J G ε) (x : Extra V)
    (v v' : V) (h : Used E w x v) (h' : Used E w x v')
    (hb : ∀ m i, f.body ⟨m, v, i⟩ = f.body ⟨m, v', i⟩)
    (hu : ∀ m i e st1 st2, run (G := G) noHandler (f.body ⟨m, v, i⟩) st1 = (.err e, st2) → ¬ IsUnexpected e)
    (incl excl : Option FVal) (st : St G) :
    (plainSer E w f ret s).py x v incl excl st = (plainSer E w f ret s).py x v' incl excl st ∧
    (plainSer E w f ret s).json x v incl excl st = (plainSer E w f ret s).json x v' incl excl st ∧
    (plainSer E w f ret s).key x v st = (plainSer E w f ret s).key x v' st :=
  functionSer_blind h h' hb (fun m i _ _ e st1 st2 hr => hu m i e st1 st2 hr) incl excl st

example : (∀ m i, redact.body ⟨m, secret, i⟩ = redact.body ⟨m, .str "other", i⟩) ∧
    (∀ m i e st1 st2, run (G := Unit) noHandler (redact.body ⟨m, secret, i⟩) st1 = (.err e, st2) → ¬ IsUnexpected e) ∧
    (plainSer demo .always redact demoInfer demoInfer).py (demoX .json .warn) secret Option.none Option.none st0 =
      (plainSer demo .always redact demoInfer demoInfer).py (demoX .json .warn) (.str "other") Option.none Option.none
        st0 :=
  ⟨fun _ _ => rfl, fun _ _ _ _ _ h => by simp [redact, run] at h, rfl⟩

/-- The same for a wrap function: it is what the function passes to its handler that may be seen. -/
theorem wrap_hides_partial (E : Env V J G ε) (w : WhenUsed) (f : Fn V ε) (ret s : Ser V J G ε) (x : Extra V)
    (v v' : V) (h : Used E w x v) (h' : Used E w x v')
    (hb : ∀ m i, f.body ⟨m, v, i⟩ = f.body ⟨m, v', i⟩)
    (hu : ∀ m i inc exc e st1 st2, runWrap E s x inc exc (f.body ⟨m, v, i⟩) st1 = (.err e, st2) → ¬ IsUnexpected e)
    (incl excl : Option FVal) (st : St G) :
    (wrapSer E w f ret s).py x v incl excl st = (wrapSer E w f ret s).py x v' incl excl st ∧
    (wrapSer E w f ret s).json x v incl excl st = (wrapSer E w f ret s).json x v' incl excl st ∧
    (wrapSer E w f ret s).key x v st = (wrapSer E w f ret s).key x v' st :=
  functionSer_blind h h' hb hu incl excl st

example : (∀ m i, (⟨"f".toList, fun _ => .call (.str "***") Option.none fun _ => .ret .none, false, false⟩ :
      Fn D String).body ⟨m, secret, i⟩ = .call (.str "***") Option.none fun _ => .ret .none) ∧
    (∀ m i inc exc e st1 st2, runWrap demo demoStr (demoX .json .warn) inc exc
      ((⟨"f".toList, fun _ => .call (.str "***") Option.none fun _ => .ret .none, false, false⟩ :
        Fn D String).body ⟨m, secret, i⟩) st1 = (.err e, st2) → ¬ IsUnexpected e) := by
  refine ⟨fun _ _ => rfl, ?_⟩
  intro m i inc exc e st1 st2 h
  simp only [runWrap, run, handler, checked, demoStr] at h
  unfold finalCheck at h
  simp only [demoX, demo] at h
  cases hw : st1.warnings <;> simp [hw] at h

/-- A function that raises `PydanticSerializationUnexpectedValue` for a value it should hide gives the value away: it
is serialised by inference, with a warning. -/
theorem unexpected_leaks :
    (plainSer demo .always ⟨"f".toList, fun _ => .raise (.unexpected "no".toList), false, false⟩ demoInfer demoInfer).py
      (demoX .json .warn) secret Option.none Option.none st0 = (.ok secret, ⟨["no".toList], (), []⟩) := rfl

/-! ### Exceptions -/

/-- An exception of the function, other than `PydanticSerializationUnexpectedValue`, makes the serialisation fail with
a `PydanticSerializationError` that reports it. -/
theorem exception_reported (E : Env V J G ε) (w : WhenUsed) (f : Fn V ε) (ret s : Ser V J G ε) (x : Extra V) (v : V)
    (h : Used E w x v) (hc : HasContext f x) (incl excl : Option FVal) (a : Args V) (ha : ArgsFor f x v incl excl a)
    (e : Exc ε) (he : ¬ IsUnexpected e) (st : St G) :
    (∀ st1, runPlain (f.body a) st = (.err e, st1) → ∃ t, Reported E f.name e t ∧
      (plainSer E w f ret s).py x v incl excl st = (.err (.serError t), st1) ∧
      (plainSer E w f ret s).json x v incl excl st = (.err (E.display (.serError t)), st1)) ∧
    (∀ st1, runWrap E s x incl excl (f.body a) st = (.err e, st1) → ∃ t, Reported E f.name e t ∧
      (wrapSer E w f ret s).py x v incl excl st = (.err (.serError t), st1) ∧
      (wrapSer E w f ret s).json x v incl excl st = (.err (E.display (.serError t)), st1)) := by
  constructor
  · intro st1 hr
    obtain ⟨t, ht, ho⟩ := onError_reported (E := E) (name := f.name) x he st1
    refine ⟨t, ht, ?_, ?_⟩
    all_goals
      simp only [plainSer, functionSer, call_used h _ _ hc ha, hr]
      rw [ho]
  · intro st1 hr
    obtain ⟨t, ht, ho⟩ := onError_reported (E := E) (name := f.name) x he st1
    refine ⟨t, ht, ?_, ?_⟩
    all_goals
      simp only [wrapSer, functionSer, call_used h _ _ hc ha, hr]
      rw [ho]

example : (plainSer demo .always ⟨"f".toList, fun _ => .raise (.user "boom"), false, false⟩ demoInfer demoInfer).py
      (demoX .json .warn) secret Option.none Option.none st0 =
    (.err (.serError "Error calling function `f`: boom".toList), st0) := rfl

/-- `PydanticSerializationUnexpectedValue` from the function: while a union tries its choices it is passed on;
otherwise it becomes a warning, and the value is serialised by inference, with the filters of the call. -/
theorem unexpected_warns (E : Env V J G ε) (w : WhenUsed) (f : Fn V ε) (ret s : Ser V J G ε) (x : Extra V) (v : V)
    (h : Used E w x v) (hc : HasContext f x) (incl excl : Option FVal) (a : Args V) (ha : ArgsFor f x v incl excl a)
    (u : Unexp) (st st1 : St G) (hr : runPlain (f.body a) st = (.err (.unexpected u), st1)) :
    (x.checking = true → (plainSer E w f ret s).py x v incl excl st = (.err (.unexpected u), st1)) ∧
    (x.checking = false → x.warnMode ≠ .none →
      (plainSer E w f ret s).py x v incl excl st =
        E.infer.py x v incl excl { st1 with warnings := st1.warnings ++ [u] } ∧
      (plainSer E w f ret s).json x v incl excl st =
        E.infer.json x v incl excl { st1 with warnings := st1.warnings ++ [u] }) ∧
    (x.checking = false → x.warnMode = .none →
      (plainSer E w f ret s).py x v incl excl st = E.infer.py x v incl excl st1 ∧
      (plainSer E w f ret s).json x v incl excl st = E.infer.json x v incl excl st1) := by
  refine ⟨fun hk => ?_, fun hk hw => ⟨?_, ?_⟩, fun hk hw => ⟨?_, ?_⟩⟩
  · simp [plainSer, functionSer, call_used h _ _ hc ha, hr, onError, hk]
  all_goals simp [plainSer, functionSer, call_used h _ _ hc ha, hr, onError, hk, registerWarning, hw]

example : (plainSer demo .always ⟨"f".toList, fun _ => .raise (.unexpected "no".toList), false, false⟩ demoInfer
      demoInfer).py (demoX .json .warn) secret Option.none noPassword st0 =
    (.ok (.obj [("user", 1)]), ⟨["no".toList], (), []⟩) := rfl

/-- `to_json` fails only with the exceptions of serialisation, unless Python makes an exception of the warning. -/
theorem to_json_errors (E : Env V J G ε) (s : Ser V J G ε) (x : Extra V) (v : V) (incl excl : Option FVal)
    (st st1 : St G) (e : Exc ε) (h : toJson E s x v incl excl st = (.err e, st1)) :
    (∃ m, e = .serError m) ∨ (∃ u, e = .unexpected u) ∨ (∃ ws, E.warnRaises ws = some e) := by
  unfold toJson at h
  cases hs : s.json x v incl excl st with
  | mk r st2 =>
    rw [hs] at h
    cases r with
    | panic => simp at h
    | err t =>
      simp only [Prod.mk.injEq, Res.err.injEq] at h
      rw [← h.1]
      unfold seErrPyErr
      split
      · exact Or.inr (Or.inl ⟨_, rfl⟩)
      · split
        · exact Or.inl ⟨_, rfl⟩
        · exact Or.inl ⟨_, rfl⟩
    | ok o =>
      dsimp only at h
      unfold finalCheck at h
      by_cases h1 : x.warnMode = .none
      · simp [h1] at h
      · by_cases h2 : st2.warnings.isEmpty
        · simp [h1, h2] at h
        · by_cases h3 : x.warnMode = .warn
          · rw [if_neg h1, if_neg h2, if_pos h3] at h
            cases hw : E.warnRaises st2.warnings with
            | none => rw [hw] at h; simp at h
            | some e' =>
              rw [hw] at h
              simp only [Prod.mk.injEq, Res.err.injEq] at h
              exact Or.inr (Or.inr ⟨_, h.1 ▸ hw⟩)
          · rw [if_neg h1, if_neg h2, if_neg h3] at h
            simp only [Prod.mk.injEq, Res.err.injEq] at h
            exact Or.inl ⟨_, h.1.symm⟩

example : (toJson demo (toStringSer demo .always) (demoX .json .warn) secret Option.none Option.none st0).1 =
    .err (.serError "Error serializing to JSON: no str".toList) := rfl

/-- The same is not true of `to_python`: the exception of a `__str__` comes through `to-string` as it is. -/
theorem to_string_error_escapes :
    (toPython demo (toStringSer demo .always) (demoX .json .warn) secret Option.none Option.none st0).1 =
      .err (.user "no str") := rfl

/-! ### The handler of a wrap function -/

/-- Called with a key, under an `exclude` that is a set of keys: an excluded key raises `PydanticOmit`, any other value
is serialised by the schema, without filters. -/
theorem handler_excludes (E : Env V J G ε) (s : Ser V J G ε) (x : Extra V) (ks : List Filter.Key) (k : String) (v : V)
    (st : St G) :
    (Filter.Key.s k ∈ ks ∨ Filter.Key.all ∈ ks →
      handler E s x Option.none (some (.set ks)) v (some (.s k)) st = (.err .omitted, st)) ∧
    (Filter.Key.s k ∉ ks → Filter.Key.all ∉ ks →
      handler E s x Option.none (some (.set ks)) v (some (.s k)) st =
        toPython E s x v Option.none Option.none st) := by
  constructor
  · rintro (h | h) <;>
      simp [handler, handlerFilter, Filter.filter, Filter.excludeStep, h]
  · intro h1 h2
    simp [handler, handlerFilter, Filter.filter, Filter.excludeStep, Filter.includeStep, h1, h2,
      Filter.Filt.defaultFilter, toPython]

example : (handler demo demoInfer (demoX .json .warn) Option.none noPassword secret (some (.s "password")) st0).1 =
      .err .omitted ∧
    (handler demo demoInfer (demoX .json .warn) Option.none noPassword secret (some (.s "user")) st0).1 = .ok secret :=
  ⟨rfl, rfl⟩

/-- Called without a key the handler serialises as the schema would, with the filters of the call, and checks the
warnings. -/
theorem handler_is_schema (E : Env V J G ε) (s : Ser V J G ε) (x : Extra V) (incl excl : Option FVal) (v : V)
    (st : St G) : handler E s x incl excl v Option.none st = toPython E s x v incl excl st := rfl

/-- A list serialiser takes `exclude={-1}` for the last item; the handler called with an index does not know the
length, and raises. -/
theorem handler_negative_index :
    (handler demo demoInfer (demoX .json .warn) Option.none (some (.set [.i (-1)])) secret (some (.i 0)) st0).1 =
      .err (.filter .value) := rfl

/-- The function `lambda v, handler: handler(v)` changes nothing but that the output goes through the return schema:
its filters are those of the call, in every mode. If the schema records warnings the handler issues them, see
`earlier_warning_issued_again`; so this is for a schema that records none, or with warnings off. -/
theorem transparent_wrap (E : Env V J G ε) (w : WhenUsed) (f : Fn V ε) (ret s : Ser V J G ε) (x : Extra V) (v o : V)
    (h : Used E w x v) (hc : HasContext f x) (hf : f.body = transparent) (incl excl : Option FVal) (a : Args V)
    (ha : ArgsFor f x v incl excl a) (st st1 : St G)
    (hs : s.py x v incl excl st = (.ok o, st1)) (hq : x.warnMode = .none ∨ st1.warnings = []) :
    (wrapSer E w f ret s).py x v incl excl st =
      ret.py x o Option.none Option.none { st with issued := st1.issued } ∧
    (wrapSer E w f ret s).json x v incl excl st =
      ret.json x o Option.none Option.none { st with issued := st1.issued } := by
  have hrun : runWrap E s x incl excl (f.body a) st = (.ok o, { st with issued := st1.issued }) := by
    simp only [runWrap, hf, transparent, run, handler, checked, ha.value, hs, finalCheck_quiet E x.warnMode st1 hq]
  constructor
  · simp only [wrapSer, functionSer, call_used h _ _ hc ha, hrun]
  · simp only [wrapSer, functionSer, call_used h _ _ hc ha, hrun]

example : (wrapSer demo .always through demoInfer demoInfer).json (demoX .json .warn) secret Option.none noPassword st0 =
    (.ok (.obj [("user", 1)]), st0) := rfl

/-- Built from a schema: the handler is the inner schema (here one of strings, which warns of an object and keeps it),
the result goes through the return schema (here `to-string`, which fails for an object). -/
example : (toPython demo (build demo (fun _ => demoStr) (.wrap .always through (.toStr .always) (.base 0)))
      (demoX .json .warn) secret Option.none Option.none st0) =
    (.err (.user "no str"), ⟨[], (), [["Expected `str`".toList]]⟩) := rfl

/-- The warnings and the recursion guard of the serialisation are out of reach of a wrap function: whatever it does with
its handler, they are as before. -/
theorem wrap_keeps_state (E : Env V J G ε) (s : Ser V J G ε) (x : Extra V) (incl excl : Option FVal) (p : Prog V ε)
    (st : St G) :
    (runWrap E s x incl excl p st).2.warnings = st.warnings ∧ (runWrap E s x incl excl p st).2.guard = st.guard :=
  ⟨rfl, rfl⟩

/-- So a mismatch found by the handler is not in the warnings of the serialisation: with `warnings='error'` the handler
raises, and a function that catches that makes the serialisation succeed. -/
theorem handler_error_swallowed :
    (toPython demo (wrapSer demo .always ⟨"f".toList, fun a => .call a.value Option.none fun r =>
        match r with
        | .ok v => .ret v
        | .error _ => .ret a.value, false, false⟩ demoInfer demoStr) (demoX .json .error) secret Option.none
        Option.none st0).1 = .ok secret ∧
    (toPython demo demoStr (demoX .json .error) secret Option.none Option.none st0).1 =
      .err (.serError "Pydantic serializer warnings:Expected `str`".toList) := ⟨rfl, rfl⟩

/-- With `warnings='error'`, a function that does not catch what the handler raises makes the serialisation fail when
the schema has recorded a warning. -/
theorem transparent_error_mode (E : Env V J G ε) (w : WhenUsed) (f : Fn V ε) (ret s : Ser V J G ε) (x : Extra V)
    (v o : V) (h : Used E w x v) (hc : HasContext f x) (hf : f.body = transparent) (incl excl : Option FVal)
    (a : Args V) (ha : ArgsFor f x v incl excl a) (st st1 : St G) (hs : s.py x v incl excl st = (.ok o, st1))
    (hq : x.warnMode = .error) (hw : st1.warnings ≠ []) :
    ((wrapSer E w f ret s).py x v incl excl st).1 = .err (.serError (E.warningText st1.warnings)) := by
  have hrun : runWrap E s x incl excl (f.body a) st =
      (.err (.serError (E.warningText st1.warnings)), { st with issued := st1.issued }) := by
    have hwe : st1.warnings.isEmpty = false := by
      cases hl : st1.warnings with
      | nil => exact absurd hl hw
      | cons _ _ => rfl
    simp [runWrap, hf, transparent, run, handler, checked, ha.value, hs, finalCheck, hq, hwe]
  simp only [wrapSer, functionSer, call_used h _ _ hc ha, hrun, onError]

example : ((wrapSer demo .always through demoInfer demoStr).py (demoX .json .error) secret Option.none Option.none
    st0).1 = .err (.serError "Pydantic serializer warnings:Expected `str`".toList) := rfl

/-- The handler starts from the warnings of the serialisation so far, and issues them: a mismatch in an earlier field is
shown once by each call of a handler, though the handler's own value is as expected, and again at the end. -/
theorem earlier_warning_issued_again :
    (toPython demo (wrapSer demo .always ⟨"f".toList, fun a => .call a.value Option.none fun _ =>
        transparent a, false, false⟩ demoInfer demoStr) (demoX .json .warn) (.str "fine") Option.none Option.none
        ⟨["earlier".toList], (), []⟩) =
      (.ok (.str "fine"), ⟨["earlier".toList], (), [["earlier".toList], ["earlier".toList], ["earlier".toList]]⟩) := rfl

/-- And with `warnings='error'` such a mismatch in an earlier field makes the handler raise inside the function. -/
theorem earlier_warning_raises :
    (handler demo demoStr (demoX .json .error) Option.none Option.none (.str "fine") Option.none
      ⟨["earlier".toList], (), []⟩).1 = .err (.serError "Pydantic serializer warnings:earlier".toList) := rfl

/-! ### Whole schemas -/

/-- What `to_json` writes under a schema built of functions, format strings and `to-string` is what
`to_python(mode='json')` gives, with the same warnings, if that is so of the schemas they are built on. (`hs`: a string
stands for the JSON string of it; `hn`: `None` for `null`.) -/
theorem json_agrees_with_python (E : Env V J G ε) (base : Nat → Ser V J G ε) (rel : V → J → Prop)
    (hi : JsonAgrees rel E.infer) (hb : ∀ n, JsonAgrees rel (base n))
    (hs : ∀ v j, E.strJson v = .ok j → rel v j) (hn : ∀ v, E.isNone v = true → rel v E.null) (s : Schema V ε)
    (x : Extra V) (v : V) (incl excl : Option FVal) (st st' : St G) (hm : x.mode = .json) (j : J)
    (h : toJson E (build E base s) x v incl excl st = (.ok j, st')) :
    ∃ o, toPython E (build E base s) x v incl excl st = (.ok o, st') ∧ rel o j := by
  have ha := build_agrees E base rel hi hb hs hn s x v incl excl st hm
  unfold toJson at h
  unfold toPython checked
  cases hj : (build E base s).json x v incl excl st with
  | mk r st1 =>
    rw [hj] at h
    cases r with
    | panic => simp at h
    | err t => simp at h
    | ok b =>
      obtain ⟨o, ho, hr⟩ := ha b st1 hj
      rw [ho]
      dsimp only at h ⊢
      cases hf : finalCheck E x.warnMode st1 with
      | mk r2 st2 =>
        rw [hf] at h
        cases r2 with
        | panic => simp at h
        | err e => simp at h
        | ok u =>
          simp only [Prod.mk.injEq, Res.ok.injEq] at h ⊢
          exact ⟨o, ⟨rfl, h.2⟩, h.1 ▸ hr⟩

/-- The schemas of the examples agree: here the relation is equality. -/
theorem demo_agrees : JsonAgrees (· = ·) demo.infer ∧ JsonAgrees (· = ·) demoStr ∧
    (∀ v j, demo.strJson v = .ok j → v = j) ∧ (∀ v, demo.isNone v = true → v = demo.null) := by
  refine ⟨?_, ?_, ?_, ?_⟩
  · intro x v incl excl st hm b st' h
    refine ⟨b, ?_, rfl⟩
    cases v <;> simpa [demo, demoInfer] using h
  · intro x v incl excl st hm b st' h
    refine ⟨b, ?_, rfl⟩
    cases v <;> simpa [demoStr] using h
  · intro v j h
    cases v with
    | none => simp [demo] at h
    | obj es => simp [demo] at h
    | str t =>
      simp only [demo] at h
      split at h
      · cases h
      · injection h
  · intro v h
    simpa [demo] using h

example : ∃ o, toPython demo (build demo (fun _ => demoStr) (.wrap .unlessNone through .any (.toStr .json)))
      (demoX .json .warn) (.str "a") Option.none Option.none st0 = (.ok o, st0) ∧ o = .str "a" :=
  json_agrees_with_python demo (fun _ => demoStr) (· = ·) demo_agrees.1 (fun _ => demo_agrees.2.1) demo_agrees.2.2.1
    demo_agrees.2.2.2 (.wrap .unlessNone through .any (.toStr .json)) (demoX .json .warn) (.str "a") Option.none
    Option.none st0 st0 rfl (.str "a") rfl

/-- The other way round fails for a string that is not UTF-8: `to_python(mode='json')` gives it, `to_json` fails. -/
theorem json_may_fail_alone :
    (toPython demo (toStringSer demo .always) (demoX .json .warn) (.str "\\ud800") Option.none Option.none st0).1 =
      .ok (.str "\\ud800") ∧
    (toJson demo (toStringSer demo .always) (demoX .json .warn) (.str "\\ud800") Option.none Option.none st0).1 =
      .err (.serError "Error serializing to JSON: lone".toList) := ⟨rfl, rfl⟩

/-- As keys such strings do not fail, but lose what they are: two keys become one. -/
theorem to_string_keys_collide :
    ((toStringSer demo .always).key (demoX .json .warn) (.str "\\ud800") st0).1 =
      ((toStringSer demo .always).key (demoX .json .warn) (.str "\\udfff") st0).1 := rfl

/-- Serialisers built from schemas never reach the `expect` on a missing fallback, and panic only if those they are built
on do. -/
theorem no_panic (E : Env V J G ε) (base : Nat → Ser V J G ε) (hi : NoPanic E.infer) (hb : ∀ n, NoPanic (base n))
    (s : Schema V ε) (x : Extra V) (v : V) (incl excl : Option FVal) (st : St G) :
    (toPython E (build E base s) x v incl excl st).1 ≠ .panic ∧
    (toJson E (build E base s) x v incl excl st).1 ≠ .panic ∧ ((build E base s).key x v st).1 ≠ .panic := by
  have h := build_no_panic E base hi hb s
  refine ⟨checked_no_panic E h x v incl excl st, ?_, h.key x v st⟩
  unfold toJson
  have h1 := h.json x v incl excl st
  cases hj : (build E base s).json x v incl excl st with
  | mk r st1 =>
    cases r with
    | panic => rw [hj] at h1; exact absurd rfl h1
    | err t => simp
    | ok o =>
      dsimp only
      have h2 := finalCheck_no_panic E x.warnMode st1
      cases hf : finalCheck E x.warnMode st1 with
      | mk r2 st2 =>
        cases r2 with
        | panic => rw [hf] at h2; exact absurd rfl h2
        | err e => simp
        | ok u => simp

example : NoPanic demo.infer ∧ NoPanic demoStr := by
  refine ⟨⟨?_, ?_, ?_⟩, ⟨?_, ?_, ?_⟩⟩ <;> intro x v <;> cases v <;> intros <;> simp [demo, demoInfer, demoStr]

/-- The hypothesis that a plain function used always needs no fallback cannot be dropped: with one missing for another
`when_used`, the call panics. -/
theorem panic_without_fallback :
    ((functionSer demo .json "plain".toList redact (fun _ _ _ p => runPlain p) demoInfer Option.none).py
      (demoX .python .warn) secret Option.none Option.none st0).1 = .panic := rfl

/-! ### Format strings and `to-string` -/

/-- In mode `python`, with the default `when_used`, a format string or `to-string` gives the object itself, unchanged
(not serialised in any other way). -/
theorem format_python_identity (E : Env V J G ε) (s : Text) (x : Extra V) (v : V) (incl excl : Option FVal)
    (hm : x.mode ≠ .json) (st : St G) :
    (formatSer E .jsonUnlessNone s).py x v incl excl st = (.ok v, st) ∧
    (toStringSer E .jsonUnlessNone).py x v incl excl st = (.ok v, st) := by
  have : WhenUsed.jsonUnlessNone.shouldUse E v x = false := by
    rw [shouldUse_false_iff]
    exact fun h => hm h.1
  simp [formatSer, toStringSer, this]

example : (toStringSer demo .jsonUnlessNone).py (demoX .python .warn) secret Option.none noPassword st0 =
    (.ok secret, st0) := rfl

/-- To JSON, with the default, `None` is `null`, and as a key `"None"`; anything else its `str`, or its format, as a
string. -/
theorem format_json_exact (E : Env V J G ε) (s : Text) (x : Extra V) (v : V) (incl excl : Option FVal) (st : St G) :
    (E.isNone v = true →
      (formatSer E .jsonUnlessNone s).json x v incl excl st = (.ok E.null, st) ∧
      (toStringSer E .jsonUnlessNone).json x v incl excl st = (.ok E.null, st) ∧
      (formatSer E .jsonUnlessNone s).key x v st = (.ok "None".toList, st) ∧
      (toStringSer E .jsonUnlessNone).key x v st = (.ok "None".toList, st)) ∧
    (E.isNone v = false →
      (∀ o j, E.format v s = .ok o → E.strJson o = .ok j →
        (formatSer E .jsonUnlessNone s).json x v incl excl st = (.ok j, st)) ∧
      (∀ o j, E.str v = .ok o → E.strJson o = .ok j →
        (toStringSer E .jsonUnlessNone).json x v incl excl st = (.ok j, st))) := by
  constructor
  · intro h
    simp [formatSer, toStringSer, WhenUsed.shouldUseJson, h]
  · intro h
    constructor <;> intro o j h1 h2 <;>
      simp [formatSer, toStringSer, WhenUsed.shouldUseJson, h, formatCall, h1, h2, lift]

example : (toStringSer demo .jsonUnlessNone).json (demoX .json .warn) (.str "a") Option.none Option.none st0 =
    (.ok (.str "a"), st0) ∧
    (toStringSer demo .jsonUnlessNone).json (demoX .json .warn) .none Option.none Option.none st0 = (.ok .none, st0) :=
  ⟨rfl, rfl⟩

/-- An empty format string is `to-string`. -/
theorem empty_format (E : Env V J G ε) (base : Nat → Ser V J G ε) (w : WhenUsed) :
    build E base (.format w []) = build E base (.toStr w) := rfl

/-- A schema's validator functions do not change how it is serialised; the schema of a plain validator function is
serialised by inference. -/
theorem validators_ignored (E : Env V J G ε) (base : Nat → Ser V J G ε) (s : Schema V ε) :
    build E base (.validator s) = build E base s ∧ build E base (.validatorPlain) = E.infer := ⟨rfl, rfl⟩

/-- A union tries again laxly, because of a member that is a function, just if the return schema, or the schema for when
the function is not used, would make it. -/
theorem retry_exact (E : Env V J G ε) (w : WhenUsed) (f : Fn V ε) (ret s : Ser V J G ε) :
    ((plainSer E w f ret s).retry = true ↔ ret.retry = true ∨ (w ≠ .always ∧ s.retry = true)) ∧
    ((wrapSer E w f ret s).retry = true ↔ ret.retry = true ∨ s.retry = true) := by
  constructor
  · by_cases hw : w = .always
    · simp [plainSer, functionSer, hw]
    · simp [plainSer, functionSer, hw, or_comm]
  · simp [wrapSer, functionSer, or_comm]

example : (plainSer demo .always redact demoInfer { demoStr with retry := true }).retry = false ∧
    (plainSer demo .json redact demoInfer { demoStr with retry := true }).retry = true := ⟨rfl, rfl⟩

end PC.SerFunction
