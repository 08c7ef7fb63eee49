import Verif.Spec.JsonSchema

/-
C88: `Json[T]` validates text as `T` validates the JSON in it, and writes with `round_trip=True`
what it reads.
-/

namespace PC.JsonSchema
open PC.In
open PC.Uuid (InputType)

variable {I V D Err A : Type}

theorem floor_partial (st : VState I) (e : Exactness) :
    (st.floorExactness e).allowPartial = st.allowPartial := by
  unfold VState.floorExactness
  split
  · rfl
  · rfl
  · split <;> rfl
  · rfl

theorem floor_extra (st : VState I) (e : Exactness) :
    (st.floorExactness e).extra = st.extra := by
  unfold VState.floorExactness
  split
  · rfl
  · rfl
  · split <;> rfl
  · rfl

/-! ### A world for the examples -/

/-- Documents: numbers and text. -/
inductive Doc where
  | num (n : Nat)
  | str (s : List Char)
  deriving DecidableEq, Repr

/-- A code of text in bytes. -/
def code (t : List Char) : List UInt8 := t.flatMap fun c => List.replicate c.toNat 0 ++ [1]

def decode : Nat → List UInt8 → List Char
  | _, [] => []
  | k, b :: r => if b = 0 then decode (k + 1) r else Char.ofNat k :: decode 0 r

theorem decode_char (m k : Nat) (r : List UInt8) :
    decode k (List.replicate m 0 ++ 1 :: r) = Char.ofNat (k + m) :: decode 0 r := by
  induction m generalizing k with
  | zero => rfl
  | succ m ih =>
    rw [List.replicate_succ, List.cons_append, decode, if_pos rfl, ih]
    congr 2; omega

theorem decode_code (t : List Char) : decode 0 (code t) = t := by
  induction t with
  | nil => rfl
  | cons c t ih =>
    have : code (c :: t) = List.replicate c.toNat 0 ++ 1 :: code t := by
      simp [code, List.flatMap_cons, List.append_assoc]
    rw [this, decode_char, ih, Nat.zero_add, Char.ofNat_toNat]

def docOf : List Char → Except String Doc
  | '"' :: t => .ok (.str t)
  | t => .ok (.num t.length)

def sampleOut : Out Doc Doc :=
  ⟨fun d => match d with | .num n => List.replicate n '1' | .str t => '"' :: t, .str, .str⟩

def sampleEnv : Env Doc Doc := ⟨fun _ b => docOf (decode 0 b), fun _ b => docOf (decode 0 b)⟩

def sampleBytes : Doc → Match (List UInt8)
  | .str t => .ok (code t, .strict)
  | .num _ => .error (.other "bytes_type")

theorem sample_faithful : Faithful sampleEnv sampleOut code sampleBytes sampleBytes where
  parse_render d := by
    change docOf (decode 0 (code (sampleOut.render d))) = _
    rw [decode_code]
    cases d with
    | num n =>
      cases n with
      | zero => rfl
      | succ n =>
        change docOf (List.replicate (n + 1) '1') = _
        rw [List.replicate_succ]
        change Except.ok (Doc.num (('1' :: List.replicate n '1').length)) = _
        simp
    | str t => rfl
  bytes_doc t := ⟨_, rfl⟩
  bytes_str t := ⟨_, rfl⟩

/-- A schema for numbers. -/
def numVal : Val Doc Doc Doc := fun d s =>
  match d with
  | .num n => (.ok (.num n), s)
  | d => (.error (.new (.other "int_type") d), s)

def numSer : Ser Doc Doc Unit := ⟨fun _ v => .ok v, fun _ _ => .error (), fun _ v => .ok v⟩

def st0 : St Doc := ⟨.python, VState.new {} .init .off⟩

/-! ### Validation -/

/-- `Json[T].validate_python(x)` is `T.validate_json(x)`: the same value or the same errors, for
every option of the call. -/
theorem python_is_validate_json (validator : Val D I V) (E : Env D V)
    (bytes : A → Match (List UInt8)) (shown : A → I) (extra : Extra I) (guard : Guard.State)
    (p : PartialMode) (input : A) :
    validatePython ((JsonV.mk (some validator)).validate E bytes shown) extra guard p input =
      validateJson validator E bytes shown extra guard p input := by
  unfold validatePython validateJson JsonV.validate
  cases validateJsonBytes (bytes input) with
  | error t => rfl
  | ok m =>
    obtain ⟨b, e⟩ := m
    dsimp only
    have hf : (VState.new extra guard p).floorExactness e = VState.new extra guard p := rfl
    rw [hf]
    change (match E.parse p b with | .error d => _ | .ok doc => _ : ValResult I V × St I).1 = _
    cases E.parse p b with
    | error d => rfl
    | ok doc => rfl

example : validatePython ((JsonV.mk (some numVal)).validate sampleEnv sampleBytes id) {} .init .off
    (.str ['1', '1']) = .ok (.num 2) := rfl
example : validatePython ((JsonV.mk (some numVal)).validate sampleEnv sampleBytes id) {} .init .off
    (.num 2) = .error (.new (.other "json_type") (.num 2)) := rfl

/-- An input is accepted exactly if it is text or bytes that are JSON which the inner schema
accepts as JSON input; the result is that of the inner schema. -/
theorem accepted_iff (validator : Val D I V) (E : Env D V) (bytes : A → Match (List UInt8))
    (shown : A → I) (input : A) (s : St I) (v : V) :
    ((JsonV.mk (some validator)).validate E bytes shown input s).1 = .ok v ↔
      ∃ b e d, bytes input = .ok (b, e) ∧ E.parse s.st.allowPartial b = .ok d ∧
        (validator d ⟨.json, s.st.floorExactness e⟩).1 = .ok v := by
  unfold JsonV.validate
  cases hb : bytes input with
  | error t =>
    simp only [validateJsonBytes, reduceCtorEq, false_and, exists_false]
  | ok m =>
    obtain ⟨b, e⟩ := m
    simp only [validateJsonBytes, floor_partial]
    cases hp : E.parse s.st.allowPartial b with
    | error d =>
      simp only [reduceCtorEq, false_iff, not_exists, not_and, Except.ok.injEq, Prod.mk.injEq]
      rintro b' e' d' ⟨rfl, rfl⟩ h
      rw [hp] at h
      cases h
    | ok d =>
      simp only [withInputType, Except.ok.injEq, Prod.mk.injEq]
      constructor
      · intro h
        exact ⟨b, e, d, ⟨rfl, rfl⟩, hp, h⟩
      · rintro ⟨b', e', d', ⟨rfl, rfl⟩, hd, h⟩
        rw [hp] at hd
        cases hd
        exact h

example : ((JsonV.mk (some numVal)).validate sampleEnv sampleBytes id (.str ['1']) st0).1
    = .ok (.num 1) := rfl

/-- Why an input is refused: it is no text (`json_type`), it is no JSON (`json_invalid`), both
about the whole input, or the inner schema refuses it, whose errors are passed on. -/
theorem refused_why (validator : Val D I V) (E : Env D V) (bytes : A → Match (List UInt8))
    (shown : A → I) (input : A) (s : St I) (e : ValError I)
    (h : ((JsonV.mk (some validator)).validate E bytes shown input s).1 = .error e) :
    (∃ t, bytes input = .error t ∧ (t = .other "bytes_type" → e = .new (.other "json_type") (shown input)) ∧
        (t ≠ .other "bytes_type" → e = .new t (shown input))) ∨
    (∃ b x d, bytes input = .ok (b, x) ∧ E.parse s.st.allowPartial b = .error d ∧
      e = .new (.other ("json_invalid: " ++ d)) (shown input)) ∨
    (∃ b x d, bytes input = .ok (b, x) ∧ E.parse s.st.allowPartial b = .ok d ∧
      (validator d ⟨.json, s.st.floorExactness x⟩).1 = .error e) := by
  unfold JsonV.validate at h
  cases hb : bytes input with
  | error t =>
    left
    rw [hb] at h
    simp only [validateJsonBytes, Except.error.injEq] at h
    refine ⟨t, rfl, ?_, ?_⟩
    · rintro rfl; exact h.symm
    · intro ht
      rw [← h]
      congr 1
      unfold mapBytesError
      split
      · exact absurd rfl ht
      · rfl
  | ok m =>
    right
    obtain ⟨b, x⟩ := m
    rw [hb] at h
    simp only [validateJsonBytes, floor_partial] at h
    cases hp : E.parse s.st.allowPartial b with
    | error d =>
      rw [hp] at h
      simp only [Except.error.injEq] at h
      exact Or.inl ⟨b, x, d, rfl, hp, h.symm⟩
    | ok d =>
      rw [hp] at h
      exact Or.inr ⟨b, x, d, rfl, hp, h⟩

example : ((JsonV.mk (some numVal)).validate sampleEnv sampleBytes id (.str ['"']) st0).1
    = .error (.new (.other "int_type") (.str [])) := rfl

/-- A Python object that is neither text nor bytes nor a bytearray is refused as `json_type`. -/
theorem python_not_text (deser : List Char → Except ErrType (List UInt8)) (x : PyObj)
    (h : ∀ s b t, x.kind ≠ .str s ∧ x.kind ≠ .strSub s ∧ x.kind ≠ .bytes b t ∧
      x.kind ≠ .bytesSub b t ∧ x.kind ≠ .bytearray b t) :
    validateJsonBytes (x.validateBytes deser false) = .error (.other "json_type") := by
  have hx : x.validateBytes deser false = .error (.other "bytes_type") := by
    unfold PyObj.validateBytes
    cases hk : x.kind with
    | str s => exact absurd hk (h s [] none).1
    | strSub s => exact absurd hk (h s [] none).2.1
    | bytes b t => exact absurd hk (h none b t).2.2.1
    | bytesSub b t => exact absurd hk (h none b t).2.2.2.1
    | bytearray b t => exact absurd hk (h none b t).2.2.2.2
    | _ => rfl
  rw [hx]
  rfl

example : ∀ s b t, (Kind.int 5) ≠ .str s ∧ (Kind.int 5) ≠ .strSub s ∧ (Kind.int 5) ≠ .bytes b t ∧
    (Kind.int 5) ≠ .bytesSub b t ∧ (Kind.int 5) ≠ .bytearray b t := by
  intro s b t; refine ⟨?_, ?_, ?_, ?_, ?_⟩ <;> (intro h; cases h)

/-- Whatever the inner schema does, the mode of the input and the options are as before. -/
theorem extra_restored (v : JsonV D I V) (E : Env D V) (bytes : A → Match (List UInt8))
    (shown : A → I) (input : A) (s : St I) :
    (v.validate E bytes shown input s).2.it = s.it ∧
    (v.validate E bytes shown input s).2.st.extra = s.st.extra := by
  unfold JsonV.validate
  cases validateJsonBytes (bytes input) with
  | error t => exact ⟨rfl, rfl⟩
  | ok m =>
    dsimp only
    cases v.validator with
    | none =>
      dsimp only
      split <;> exact ⟨rfl, floor_extra _ _⟩
    | some validator =>
      dsimp only
      split
      · exact ⟨rfl, floor_extra _ _⟩
      · exact ⟨rfl, floor_extra _ _⟩

/-- `Json[Any]` gives what `Json` without a schema gives, if `jiter`'s two parsers agree. -/
theorem any_is_no_schema (toObject : D → V) (E : Env D V) (bytes : A → Match (List UInt8))
    (shown : A → I) (input : A) (s : St I)
    (hE : ∀ p b, E.pythonParse p b = (E.parse p b).map toObject) :
    build (some (.any toObject : Built D I V)) = build none ∧
    ((build (some (.any toObject))).validate E bytes shown input s).1 =
      ((JsonV.mk (some (Built.any toObject).val)).validate E bytes shown input s).1 := by
  refine ⟨rfl, ?_⟩
  unfold JsonV.validate build
  cases validateJsonBytes (bytes input) with
  | error t => rfl
  | ok m =>
    dsimp only
    rw [hE]
    cases E.parse (s.st.floorExactness m.2).allowPartial m.1 <;> rfl

example : ∀ p b, sampleEnv.pythonParse p b = (sampleEnv.parse p b).map id := by
  intro p b
  change docOf _ = (docOf _).map id
  cases docOf (decode 0 b) <;> rfl

/-- Any other schema is used. -/
theorem build_uses_schema (v : Val D I V) : build (some (.other v)) = ⟨some v⟩ := rfl

/-! ### Serialisation -/

theorem json_reads_back (E : Env D V) (O : Out V D) (utf8 : List Char → List UInt8)
    (bytesD : D → Match (List UInt8)) (bytesV : V → Match (List UInt8))
    (hF : Faithful E O utf8 bytesD bytesV) (shownD : D → I)
    (inferKey : Mode → V → Except Err (List Char)) (val : Val D I V) (ser : Ser V D Err)
    (mode : Mode) (v : V) (h : ReadsBack val ser mode v) :
    ReadsBack ((JsonV.mk (some val)).validate E bytesD shownD) (jsonSer O inferKey true ser)
      mode v := by
  obtain ⟨d, hd, hv⟩ := h
  refine ⟨O.doc (O.render d), by simp [jsonSer, hd], fun s hs => ?_⟩
  obtain ⟨e, he⟩ := hF.bytes_doc (O.render d)
  refine (accepted_iff val E bytesD shownD _ s v).2 ⟨_, e, d, he, ?_, ?_⟩
  · rw [show s.st.allowPartial = .off from hs]
    exact hF.parse_render d
  · exact hv _ ((floor_partial _ _).trans hs)

/-- With `round_trip=True`, however often `Json` is nested, what is written in JSON is read back
as the same value if the innermost schema reads back what it writes. -/
theorem nested_reads_back (E : Env D V) (O : Out V D) (utf8 : List Char → List UInt8)
    (bytesD : D → Match (List UInt8)) (bytesV : V → Match (List UInt8))
    (hF : Faithful E O utf8 bytesD bytesV) (shownD : D → I)
    (inferKey : Mode → V → Except Err (List Char)) (val : Val D I V) (ser : Ser V D Err)
    (mode : Mode) (v : V) (h : ReadsBack val ser mode v) (n : Nat) :
    ReadsBack (nestVal E bytesD shownD val n) (nestSer O inferKey ser n) mode v := by
  induction n with
  | zero => exact h
  | succ n ih => exact json_reads_back E O utf8 bytesD bytesV hF shownD inferKey _ _ mode v ih

example : ReadsBack numVal numSer .json (.num 7) := ⟨.num 7, rfl, fun _ _ => rfl⟩

/-- The same for `to_python(round_trip=True)` and `validate_python`. -/
theorem nested_reads_back_python (E : Env D V) (O : Out V D) (utf8 : List Char → List UInt8)
    (bytesD : D → Match (List UInt8)) (bytesV : V → Match (List UInt8))
    (hF : Faithful E O utf8 bytesD bytesV) (shownD : D → I) (shownV : V → I)
    (inferKey : Mode → V → Except Err (List Char)) (val : Val D I V) (ser : Ser V D Err)
    (mode : Mode) (v : V) (h : ReadsBack val ser mode v) (n : Nat) (s : St I) (hs : Whole s) :
    ∃ t, (nestSer O inferKey ser (n + 1)).toPython mode v = .ok (O.str t) ∧
      (nestSer O inferKey ser (n + 1)).jsonKey mode v = .ok t ∧
      ((JsonV.mk (some (nestVal E bytesD shownD val n))).validate E bytesV shownV (O.str t) s).1
        = .ok v := by
  obtain ⟨d, hd, hv⟩ := nested_reads_back E O utf8 bytesD bytesV hF shownD inferKey val ser mode v h n
  obtain ⟨e, he⟩ := hF.bytes_str (O.render d)
  refine ⟨O.render d, by simp [nestSer, jsonSer, hd], by simp [nestSer, jsonSer, hd], ?_⟩
  refine (accepted_iff _ E bytesV shownV _ s v).2 ⟨_, e, d, he, ?_, ?_⟩
  · rw [show s.st.allowPartial = .off from hs]
    exact hF.parse_render d
  · exact hv _ ((floor_partial _ _).trans hs)

example : Faithful sampleEnv sampleOut code sampleBytes sampleBytes ∧ Whole st0 :=
  ⟨sample_faithful, rfl⟩

/-- Without `round_trip` values and JSON are those of the inner schema. -/
theorem without_round_trip (O : Out V D) (inferKey : Mode → V → Except Err (List Char))
    (ser : Ser V D Err) :
    (jsonSer O inferKey false ser).toPython = ser.toPython ∧
    (jsonSer O inferKey false ser).serde = ser.serde := ⟨rfl, rfl⟩

/-- What the code does not do.  A key without `round_trip` is written by inference, not by the
inner schema; and the text that `to_python(round_trip=True)` makes is written in Python mode, so
what an inner schema does only in JSON mode is left out of it, though it is JSON. -/
theorem json_witnesses :
    (∃ (ser : Ser Doc Doc Unit) (infer : Mode → Doc → Except Unit (List Char)),
      (jsonSer sampleOut infer false ser).jsonKey .json (.num 1) ≠ ser.jsonKey .json (.num 1)) ∧
    (∃ (ser : Ser Doc Doc Unit) (infer : Mode → Doc → Except Unit (List Char)),
      (jsonSer sampleOut infer true ser).toPython .python (.num 1) ≠
        (jsonSer sampleOut infer true ser).toPython .json (.num 1)) := by
  refine ⟨⟨numSer, fun _ _ => .ok ['1'], ?_⟩,
    ⟨⟨fun _ v => .ok v, fun _ _ => .error (), fun m v => match m with
      | .json => .ok (.num 2) | _ => .ok v⟩, fun _ _ => .error (), ?_⟩⟩
  · intro h; cases h
  · intro h
    exact absurd h (by decide)

end PC.JsonSchema
