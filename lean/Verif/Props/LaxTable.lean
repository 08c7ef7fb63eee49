import Verif.Lemmas.LaxTable

/-
C105: what lax mode accepts.
-/

namespace PC.In
open PC.Num PC.IntParse PC.Float

/-- **C105.** Lax mode takes for an int exactly what the table says, with that value. -/
theorem lax_int_iff (x : PyObj) (v : IntOut) (e : Exactness) :
    PyObj.validateInt false x = .ok (v, e) ↔ AsInt x v e := by
  obtain ⟨⟨k, fl, ix, so⟩, en⟩ := x
  have numberCase : ∀ f : F64, intOut (floatAsInt f) = .ok (v, e) ↔
      ∃ n : Int, f.value = some (n : Rat) ∧ -2 ^ 63 < n ∧ n < 2 ^ 63 ∧ v = .int n ∧ e = .lax := by
    intro f
    rw [intOut_ok]
    constructor
    · rintro ⟨n, h, rfl, rfl⟩
      obtain ⟨a, b, c⟩ := (float_as_int_exact f n).1 h
      exact ⟨n, a, b, c, rfl, rfl⟩
    · rintro ⟨n, a, b, c, rfl, rfl⟩
      exact ⟨n, (float_as_int_exact f n).2 ⟨a, b, c⟩, rfl, rfl⟩
  constructor
  · intro h
    cases k with
    | bool b => simp [PyObj.validateInt] at h; obtain ⟨rfl, rfl⟩ := h; exact .bool rfl
    | int n => simp [PyObj.validateInt] at h; obtain ⟨rfl, rfl⟩ := h; exact .int rfl
    | intSub n => simp [PyObj.validateInt] at h; obtain ⟨rfl, rfl⟩ := h; exact .intSub rfl
    | float f =>
      simp only [PyObj.validateInt, intLax, maybeAsString, Bool.false_eq_true, if_false, numberCase] at h
      obtain ⟨n, a, b, c, rfl, rfl⟩ := h
      exact .float rfl rfl rfl a b c
    | floatSub f =>
      cases fl with
      | none =>
        cases en with
        | none => simp [PyObj.validateInt, intLax, maybeAsString] at h
        | some v =>
          simp [PyObj.validateInt, intLax, maybeAsString] at h
          obtain ⟨rfl, rfl⟩ := h
          exact .enum rfl rfl rfl rfl
      | some g =>
        simp only [PyObj.validateInt, intLax, maybeAsString, Bool.false_eq_true, if_false, numberCase] at h
        obtain ⟨n, a, b, c, rfl, rfl⟩ := h
        exact .float rfl rfl rfl a b c
    | str s =>
      cases s with
      | none => simp [PyObj.validateInt, intLax, maybeAsString] at h
      | some s =>
        simp only [PyObj.validateInt, intLax, maybeAsString, Bool.false_eq_true, if_false, intOut_ok] at h
        obtain ⟨n, a, rfl, rfl⟩ := h
        exact .text rfl a
    | strSub s =>
      cases s with
      | none => simp [PyObj.validateInt, intLax, maybeAsString] at h
      | some s =>
        simp only [PyObj.validateInt, intLax, maybeAsString, Bool.false_eq_true, if_false, intOut_ok] at h
        obtain ⟨n, a, rfl, rfl⟩ := h
        exact .text rfl a
    | bytes b s =>
      cases s with
      | none => simp [PyObj.validateInt, intLax, maybeAsString] at h
      | some s =>
        simp only [PyObj.validateInt, intLax, maybeAsString, Bool.false_eq_true, if_false, intOut_ok] at h
        obtain ⟨n, a, rfl, rfl⟩ := h
        exact .text rfl a
    | bytesSub b s =>
      cases s with
      | none => simp [PyObj.validateInt, intLax, maybeAsString] at h
      | some s =>
        simp only [PyObj.validateInt, intLax, maybeAsString, Bool.false_eq_true, if_false, intOut_ok] at h
        obtain ⟨n, a, rfl, rfl⟩ := h
        exact .text rfl a
    | decimal fin num den =>
      simp only [PyObj.validateInt, intLax, maybeAsString, Bool.false_eq_true, if_false, intOut_ok] at h
      obtain ⟨n, a, rfl, rfl⟩ := h
      obtain ⟨rfl, rfl, rfl⟩ := (decimal_as_int_exact _ _ _ _).1 a
      exact .decimal (.inl rfl)
    | decimalSub fin num den =>
      simp only [PyObj.validateInt, intLax, maybeAsString, Bool.false_eq_true, if_false, intOut_ok] at h
      obtain ⟨n, a, rfl, rfl⟩ := h
      obtain ⟨rfl, rfl, rfl⟩ := (decimal_as_int_exact _ _ _ _).1 a
      exact .decimal (.inr rfl)
    | bytearray b s =>
      cases fl with
      | none =>
        cases en with
        | none => simp [PyObj.validateInt, intLax, maybeAsString] at h
        | some v =>
          simp [PyObj.validateInt, intLax, maybeAsString] at h
          obtain ⟨rfl, rfl⟩ := h
          exact .enum rfl rfl rfl rfl
      | some g =>
        simp only [PyObj.validateInt, intLax, maybeAsString, Bool.false_eq_true, if_false, numberCase] at h
        obtain ⟨n, a, b, c, rfl, rfl⟩ := h
        exact .float rfl rfl rfl a b c
    | other =>
      cases fl with
      | none =>
        cases en with
        | none => simp [PyObj.validateInt, intLax, maybeAsString] at h
        | some v =>
          simp [PyObj.validateInt, intLax, maybeAsString] at h
          obtain ⟨rfl, rfl⟩ := h
          exact .enum rfl rfl rfl rfl
      | some g =>
        simp only [PyObj.validateInt, intLax, maybeAsString, Bool.false_eq_true, if_false, numberCase] at h
        obtain ⟨n, a, b, c, rfl, rfl⟩ := h
        exact .float rfl rfl rfl a b c
  · intro h
    cases h with
    | int h => dsimp only at h; subst h; rfl
    | intSub h => dsimp only at h; subst h; rfl
    | bool h => dsimp only at h; subst h; rfl
    | text h hs =>
      cases k <;> simp only [Kind.text, reduceCtorEq] at h <;> subst h <;>
        simp only [PyObj.validateInt, intLax, maybeAsString, Bool.false_eq_true, if_false, hs, intOut]
    | decimal h =>
      rcases h with h | h <;> dsimp only at h <;> subst h <;>
        simp only [PyObj.validateInt, intLax, maybeAsString, Bool.false_eq_true, if_false,
          (decimal_as_int_exact _ _ _ _).2 ⟨rfl, rfl, rfl⟩, intOut]
    | @float f n hk ht hf h h1 h2 =>
      have hfl := (float_as_int_exact f n).2 ⟨h, h1, h2⟩
      cases k <;> simp only [Kind.isWhole, Kind.isText, reduceCtorEq] at hk ht <;>
        simp only [PyObj.number, Option.some.injEq] at hf <;> subst hf <;>
        simp only [PyObj.validateInt, intLax, maybeAsString, Bool.false_eq_true, if_false, hfl, intOut]
    | enum hk ht hf h =>
      dsimp only at h
      subst h
      cases k <;> simp only [Kind.isWhole, Kind.isText, reduceCtorEq] at hk ht <;>
        simp only [PyObj.number, reduceCtorEq] at hf <;> subst hf <;>
        simp only [PyObj.validateInt, intLax, maybeAsString, Bool.false_eq_true, if_false]

example : AsInt ⟨⟨.str (some " 1_000.0".toList), none, none, none⟩, none⟩ (.int 1000) .lax :=
  .text rfl (by decide)
example : AsInt ⟨⟨.other, some (.fin 6 1), none, none⟩, none⟩ (.int 3) .lax :=
  .float rfl rfl rfl (f := .fin 6 1) rfl (by decide) (by decide)

/-- **C105.** Lax mode takes for a bool exactly what the table says, with that value. -/
theorem lax_bool_iff (x : PyObj) (b : Bool) (e : Exactness) :
    PyObj.validateBool false x = .ok (b, e) ↔ AsBool x b e := by
  have words : ∀ s, lax (strAsBool s) = .ok (b, e) ↔ (∃ w ∈ boolWords b, s.map asciiLower = w.toList) ∧ e = .lax := by
    intro s
    rw [lax_ok, str_as_bool_exact]
    rfl
  obtain ⟨⟨k, fl, ix, so⟩, en⟩ := x
  constructor
  · intro h
    cases k with
    | bool b => simp [PyObj.validateBool] at h; obtain ⟨rfl, rfl⟩ := h; exact .bool rfl
    | str s | strSub s | bytes _ s | bytesSub _ s =>
      cases s with
      | none => simp [PyObj.validateBool, maybeAsString] at h
      | some s =>
        simp only [PyObj.validateBool, maybeAsString, Bool.false_eq_true, if_false, words] at h
        obtain ⟨⟨w, hw, hs⟩, rfl⟩ := h
        exact .word rfl hw hs
    | _ =>
      simp only [PyObj.validateBool, maybeAsString, Bool.false_eq_true, if_false, boolOfNumber_ok] at h
      obtain ⟨rfl, h | ⟨hno, f, hf, hv⟩⟩ := h
      · exact .int (by simp) rfl h
      · exact .float (by simp) rfl hno hf hv
  · intro h
    cases h with
    | bool h => dsimp only at h; subst h; rfl
    | word h hw hs =>
      cases k <;> simp only [Kind.text, reduceCtorEq] at h <;> subst h <;>
        simp only [PyObj.validateBool, maybeAsString, Bool.false_eq_true, if_false, words] <;>
        exact ⟨⟨_, hw, hs⟩, trivial⟩
    | int hk ht h =>
      cases k <;> simp only [Kind.isText, reduceCtorEq] at ht <;>
        first
        | exact absurd rfl (hk _)
        | (simp only [PyObj.validateBool, maybeAsString, Bool.false_eq_true, if_false, boolOfNumber_ok]
           exact ⟨trivial, .inl h⟩)
    | float hk ht hi hf h =>
      cases k <;> simp only [Kind.isText, reduceCtorEq] at ht <;>
        first
        | exact absurd rfl (hk _)
        | (simp only [PyObj.validateBool, maybeAsString, Bool.false_eq_true, if_false, boolOfNumber_ok]
           exact ⟨trivial, .inr ⟨hi, _, hf, h⟩⟩)

example : AsBool ⟨⟨.bytes [] (some "Off".toList), none, none, none⟩, none⟩ false .lax :=
  .word rfl (w := "off") (by decide) (by decide)
example : AsBool ⟨⟨.float (.fin 2 1), some (.fin 2 1), none, none⟩, none⟩ true .lax :=
  .float (by simp) rfl (by simp) rfl rfl

/-- **C105.** Lax mode takes for a string exactly what the table says, with that text. -/
theorem lax_str_iff (coerce : Bool) (x : PyObj) (s : StrOut) (e : Exactness) :
    PyObj.validateStr false coerce x = .ok (s, e) ↔ AsStr coerce x s e := by
  obtain ⟨⟨k, fl, ix, so⟩, en⟩ := x
  constructor
  · intro h
    cases k with
    | str t =>
      cases t with
      | none => simp [PyObj.validateStr] at h; obtain ⟨rfl, rfl⟩ := h; exact .lone rfl
      | some t => simp [PyObj.validateStr] at h; obtain ⟨rfl, rfl⟩ := h; exact .str rfl
    | strSub t =>
      cases t with
      | none => simp [PyObj.validateStr] at h
      | some t => simp [PyObj.validateStr] at h; obtain ⟨rfl, rfl⟩ := h; exact .strSub rfl
    | bytes b t =>
      cases t with
      | none => simp [PyObj.validateStr] at h
      | some t => simp [PyObj.validateStr] at h; obtain ⟨rfl, rfl⟩ := h; exact .bytes (.inl rfl)
    | bytesSub b t =>
      cases t with
      | none => simp [PyObj.validateStr] at h
      | some t => simp [PyObj.validateStr] at h; obtain ⟨rfl, rfl⟩ := h; exact .bytes (.inr (.inl rfl))
    | bytearray b t =>
      cases t with
      | none => simp [PyObj.validateStr] at h
      | some t => simp [PyObj.validateStr] at h; obtain ⟨rfl, rfl⟩ := h; exact .bytes (.inr (.inr rfl))
    | int _ | intSub _ | float _ | floatSub _ | decimal _ _ _ | decimalSub _ _ _ =>
      cases coerce with
      | true =>
        cases so with
        | none => simp [PyObj.validateStr, strOfNumber] at h
        | some t =>
          simp [PyObj.validateStr, strOfNumber] at h
          obtain ⟨rfl, rfl⟩ := h
          exact .number rfl rfl rfl
      | false =>
        cases en with
        | none => simp [PyObj.validateStr, strOfNumber] at h
        | some v =>
          cases hv : v.strOf with
          | none => simp [PyObj.validateStr, strOfNumber, hv] at h
          | some t =>
            simp [PyObj.validateStr, strOfNumber, hv] at h
            obtain ⟨rfl, rfl⟩ := h
            exact .enum (.inl rfl) rfl (by simp) rfl hv
    | _ =>
      cases en with
      | none => simp [PyObj.validateStr, strOfNumber] at h
      | some v =>
        cases hv : v.strOf with
        | none => simp [PyObj.validateStr, strOfNumber, hv] at h
        | some t =>
          simp [PyObj.validateStr, strOfNumber, hv] at h
          obtain ⟨rfl, rfl⟩ := h
          exact .enum (.inr rfl) rfl (by simp) rfl hv
  · intro h
    cases h with
    | str h => dsimp only at h; subst h; rfl
    | lone h => dsimp only at h; subst h; rfl
    | strSub h => dsimp only at h; subst h; rfl
    | bytes h => rcases h with h | h | h <;> dsimp only at h <;> subst h <;> rfl
    | number hc hk h =>
      dsimp only at h
      subst hc h
      cases k <;> simp only [Kind.isNumber, reduceCtorEq] at hk <;> rfl
    | @enum v s hc ht hb hv h =>
      dsimp only at hv
      subst hv
      have key : strOfNumber coerce ⟨⟨k, fl, ix, so⟩, some v⟩ = .ok (.text s, .lax) := by
        unfold strOfNumber
        dsimp only
        rw [if_neg (by rcases hc with hc | hc <;> cases k <;> simp_all [Kind.isNumber]), h]
      cases k <;> simp only [Kind.isText, reduceCtorEq] at ht <;>
        first
        | exact absurd rfl (hb _ _)
        | exact key

example : AsStr true ⟨⟨.int 12, none, some 12, some "12".toList⟩, none⟩ (.text "12".toList) .lax := .number rfl rfl rfl

/-- **C105.** Lax mode takes for a float exactly what the table says, with that value. -/
theorem lax_float_iff (parse : List Char → Option F64) (x : PyObj) (f : F64) (e : Exactness) :
    PyObj.validateFloat parse false x = .ok (f, e) ↔ AsFloat parse x f e := by
  have text : ∀ s, lax (strAsFloat parse s) = .ok (f, e) ↔ e = .lax ∧ (parse (trim s) = some f ∨
      parse (trim s) = none ∧ ∃ s', stripUnderscores s = some s' ∧ parse s' = some f) := by
    intro s
    rw [lax_ok]
    unfold strAsFloat
    cases h1 : parse (trim s) with
    | some g => simp [and_comm]
    | none =>
      dsimp only
      cases h2 : stripUnderscores s with
      | none => simp
      | some s' =>
        rw [Option.bind_some]
        cases h3 : parse s' with
        | none => simp [h3]
        | some g => simp [h3, and_comm]
  obtain ⟨⟨k, fl, ix, so⟩, en⟩ := x
  constructor
  · intro h
    cases k with
    | float g => simp [PyObj.validateFloat] at h; obtain ⟨rfl, rfl⟩ := h; exact .float rfl
    | str s | strSub s | bytes _ s | bytesSub _ s =>
      cases s with
      | none => simp [PyObj.validateFloat, maybeAsString] at h
      | some s =>
        simp only [PyObj.validateFloat, maybeAsString, Bool.false_eq_true, if_false, text] at h
        obtain ⟨rfl, h | ⟨hn, s', hu, hs⟩⟩ := h
        · exact .text rfl h
        · exact .underscores rfl hn hu hs
    | bool b =>
      cases fl with
      | none => simp [PyObj.validateFloat, maybeAsString, floatOfNumber] at h
      | some g =>
        simp [PyObj.validateFloat, maybeAsString, floatOfNumber] at h
        obtain ⟨rfl, rfl⟩ := h
        exact .bool rfl rfl
    | _ =>
      cases fl with
      | none => simp [PyObj.validateFloat, maybeAsString, floatOfNumber] at h
      | some g =>
        simp [PyObj.validateFloat, maybeAsString, floatOfNumber] at h
        obtain ⟨rfl, rfl⟩ := h
        exact .other (by simp) (by simp) rfl rfl
  · intro h
    cases h with
    | float h => dsimp only at h; subst h; rfl
    | text h hs =>
      cases k <;> simp only [Kind.text, reduceCtorEq] at h <;> subst h <;>
        simp only [PyObj.validateFloat, maybeAsString, Bool.false_eq_true, if_false, text] <;>
        exact ⟨trivial, .inl hs⟩
    | underscores h hn hu hs =>
      cases k <;> simp only [Kind.text, reduceCtorEq] at h <;> subst h <;>
        simp only [PyObj.validateFloat, maybeAsString, Bool.false_eq_true, if_false, text] <;>
        exact ⟨trivial, .inr ⟨hn, _, hu, hs⟩⟩
    | bool h hf => dsimp only at h hf; subst h hf; rfl
    | other hk he ht hf =>
      dsimp only at hf
      subst hf
      cases k <;> simp only [Kind.isText, reduceCtorEq] at ht <;>
        first
        | exact absurd rfl (hk _)
        | exact absurd rfl (he _)
        | rfl

example (parse : List Char → Option F64) (h : parse "1.5".toList = some (.fin 3 1)) :
    AsFloat parse ⟨⟨.str (some " 1.5\n".toList), none, none, none⟩, none⟩ (.fin 3 1) .lax :=
  .text rfl (show parse (trim " 1.5\n".toList) = _ from h)

/-- **C105.** Lax mode takes for bytes exactly what the table says. -/
theorem lax_bytes_iff (deser : List Char → Except ErrType (List UInt8)) (x : PyObj) (b : List UInt8) (e : Exactness) :
    PyObj.validateBytes deser false x = .ok (b, e) ↔ AsBytes deser x b e := by
  obtain ⟨⟨k, fl, ix, so⟩, en⟩ := x
  constructor
  · intro h
    cases k with
    | bytes c t => simp [PyObj.validateBytes] at h; obtain ⟨rfl, rfl⟩ := h; exact .bytes rfl
    | bytesSub c t => simp [PyObj.validateBytes] at h; obtain ⟨rfl, rfl⟩ := h; exact .bytesSub rfl
    | bytearray c t => simp [PyObj.validateBytes] at h; obtain ⟨rfl, rfl⟩ := h; exact .bytearray rfl
    | str s =>
      cases s with
      | none => simp [PyObj.validateBytes] at h
      | some s =>
        cases hd : deser s with
        | error t => simp [PyObj.validateBytes, hd, Except.map] at h
        | ok c =>
          simp [PyObj.validateBytes, hd, Except.map] at h
          obtain ⟨rfl, rfl⟩ := h
          exact .str (.inl rfl) hd
    | strSub s =>
      cases s with
      | none => simp [PyObj.validateBytes] at h
      | some s =>
        cases hd : deser s with
        | error t => simp [PyObj.validateBytes, hd, Except.map] at h
        | ok c =>
          simp [PyObj.validateBytes, hd, Except.map] at h
          obtain ⟨rfl, rfl⟩ := h
          exact .str (.inr rfl) hd
    | _ => simp [PyObj.validateBytes] at h
  · intro h
    cases h with
    | bytes h => dsimp only at h; subst h; rfl
    | bytesSub h => dsimp only at h; subst h; rfl
    | bytearray h => dsimp only at h; subst h; rfl
    | str h hs =>
      rcases h with h | h <;> dsimp only at h <;> subst h <;>
        simp [PyObj.validateBytes, hs, Except.map]

example : AsBytes (fun _ => .ok [7]) ⟨⟨.str (some "x".toList), none, none, none⟩, none⟩ [7] .lax := .str (.inl rfl) rfl

/-- **C105.** What is not taken is reported by one of the documented errors: nothing panics. -/
theorem lax_errors (parse : List Char → Option F64) (x : PyObj) (strict : Bool) (t : ErrType) :
    (PyObj.validateInt strict x = .error t → ∃ n ∈ intErrors, t = .other n) ∧
    (PyObj.validateBool strict x = .error t → ∃ n ∈ boolErrors, t = .other n) ∧
    (PyObj.validateFloat parse strict x = .error t → ∃ n ∈ floatErrors, t = .other n) := by
  obtain ⟨⟨k, fl, ix, so⟩, en⟩ := x
  have fi : ∀ f, intOut (floatAsInt f) = .error t → ∃ n ∈ intErrors, t = .other n := by
    intro f h
    cases f with
    | fin num m =>
      unfold floatAsInt at h
      dsimp only at h
      split at h
      · cases h; exact ⟨_, by decide, rfl⟩
      · split at h
        · cases h
        · cases h; exact ⟨_, by decide, rfl⟩
    | _ => cases h; exact ⟨_, by decide, rfl⟩
  have di : ∀ a b c, intOut (decimalAsInt a b c) = .error t → ∃ n ∈ intErrors, t = .other n := by
    intro a b c h
    unfold decimalAsInt at h
    split at h
    · cases h; exact ⟨_, by decide, rfl⟩
    · split at h
      · split at h
        · cases h; exact ⟨_, by decide, rfl⟩
        · cases h
      · cases h; exact ⟨_, by decide, rfl⟩
  have si : ∀ s, intOut (strAsInt s) = .error t → ∃ n ∈ intErrors, t = .other n := by
    intro s h
    unfold strAsInt at h
    split at h
    · cases h
    · cases h; exact ⟨_, by decide, rfl⟩
    · split at h
      · split at h
        · cases h
        · cases h; exact ⟨_, by decide, rfl⟩
      · cases h; exact ⟨_, by decide, rfl⟩
  have sb : ∀ s, lax (strAsBool s) = .error t → ∃ n ∈ boolErrors, t = .other n := by
    intro s h
    unfold strAsBool at h
    split at h
    · cases h
    · split at h
      · cases h
      · cases h; exact ⟨_, by decide, rfl⟩
  have nb : ∀ x, boolOfNumber x = .error t → ∃ n ∈ boolErrors, t = .other n := by
    intro x h
    unfold boolOfNumber at h
    split at h
    · unfold intAsBool at h
      split at h
      · cases h
      · split at h
        · cases h
        · cases h; exact ⟨_, by decide, rfl⟩
    · split at h
      · split at h
        · split at h
          · cases h
          · cases h; exact ⟨_, by decide, rfl⟩
        · cases h; exact ⟨_, by decide, rfl⟩
      · cases h; exact ⟨_, by decide, rfl⟩
  have sf : ∀ s, lax (strAsFloat parse s) = .error t → ∃ n ∈ floatErrors, t = .other n := by
    intro s h
    unfold strAsFloat at h
    split at h
    · cases h
    · split at h
      · cases h
      · cases h; exact ⟨_, by decide, rfl⟩
  have nf : ∀ x, floatOfNumber strict x = .error t → ∃ n ∈ floatErrors, t = .other n := by
    intro x h
    unfold floatOfNumber at h
    split at h
    · split at h
      · split at h
        · cases h; exact ⟨_, by decide, rfl⟩
        · cases h
      · cases h
    · cases h; exact ⟨_, by decide, rfl⟩
  refine ⟨?_, ?_, ?_⟩
  · intro h
    unfold PyObj.validateInt at h
    split at h
    · cases h
    · split at h
      · cases h; exact ⟨_, by decide, rfl⟩
      · cases h
    · cases h
    · split at h
      · cases h; exact ⟨_, by decide, rfl⟩
      · unfold intLax at h
        split at h
        · rename_i t' hm
          cases h
          rcases maybeAsString_error _ _ _ hm with rfl | rfl <;> exact ⟨_, by decide, rfl⟩
        · exact si _ h
        · split at h
          · exact fi _ h
          · exact di _ _ _ h
          · exact di _ _ _ h
          · split at h
            · exact fi _ h
            · split at h
              · cases h
              · cases h; exact ⟨_, by decide, rfl⟩
  · intro h
    unfold PyObj.validateBool at h
    split at h
    · cases h
    · split at h
      · cases h; exact ⟨_, by decide, rfl⟩
      · split at h
        · rename_i t' hm
          cases h
          rcases maybeAsString_error _ _ _ hm with rfl | rfl <;> exact ⟨_, by decide, rfl⟩
        · exact sb _ h
        · exact nb _ h
  · intro h
    unfold PyObj.validateFloat at h
    split at h
    · cases h
    · split at h
      · exact nf _ h
      · split at h
        · rename_i t' hm
          cases h
          rcases maybeAsString_error _ _ _ hm with rfl | rfl <;> exact ⟨_, by decide, rfl⟩
        · exact sf _ h
        · exact nf _ h

example : PyObj.validateInt false ⟨⟨.str (some "1e5".toList), none, none, none⟩, none⟩ =
    .error (.other "int_parsing") := by decide

/-- **C105.** A text of a mapping of texts (`validate_strings`) is read in both modes as lax mode reads the same `str`
object: same value, same error. It counts as a strict match. A mapping in its place is an error of type. -/
theorem strings_as_lax_text (parse : List Char → Option F64) (strict : Bool) (s : Option (List Char)) (x : PyObj)
    (hx : x.kind = .str s) :
    (∀ n e, StrMap.validateInt strict (.string s) = .ok (n, e) ↔
      PyObj.validateInt false x = .ok (.int n, .lax) ∧ e = .strict) ∧
    (∀ t, StrMap.validateInt strict (.string s) = .error t ↔ PyObj.validateInt false x = .error t) ∧
    (∀ b e, StrMap.validateBool strict (.string s) = .ok (b, e) ↔
      PyObj.validateBool false x = .ok (b, .lax) ∧ e = .strict) ∧
    (∀ t, StrMap.validateBool strict (.string s) = .error t ↔ PyObj.validateBool false x = .error t) ∧
    (∀ f e, StrMap.validateFloat parse strict (.string s) = .ok (f, e) ↔
      PyObj.validateFloat parse false x = .ok (f, .lax) ∧ e = .strict) ∧
    (∀ t, StrMap.validateFloat parse strict (.string s) = .error t ↔ PyObj.validateFloat parse false x = .error t) ∧
    StrMap.validateInt strict .mapping = .error (.other "int_type") ∧
    StrMap.validateBool strict .mapping = .error (.other "bool_type") ∧
    StrMap.validateFloat parse strict .mapping = .error (.other "float_type") := by
  obtain ⟨⟨k, fl, ix, so⟩, en⟩ := x
  dsimp only at hx
  subst hx
  cases s with
  | none =>
    simp [StrMap.validateInt, StrMap.validateBool, StrMap.validateFloat, StrMap.read, PyObj.validateInt,
      PyObj.validateBool, PyObj.validateFloat, intLax, maybeAsString]
  | some s =>
    simp only [StrMap.validateInt, StrMap.validateBool, StrMap.validateFloat, StrMap.read, PyObj.validateInt,
      PyObj.validateBool, PyObj.validateFloat, intLax, maybeAsString, Bool.false_eq_true, if_false]
    refine ⟨?_, ?_, ?_, ?_, ?_, ?_, trivial, trivial, trivial⟩
    · cases strAsInt s <;> simp [strict', intOut, eq_comm]
    · cases strAsInt s <;> simp [strict', intOut]
    · cases strAsBool s <;> simp [strict', lax, eq_comm]
    · cases strAsBool s <;> simp [strict', lax]
    · cases strAsFloat parse s <;> simp [strict', lax, eq_comm]
    · cases strAsFloat parse s <;> simp [strict', lax]

example : StrMap.validateInt true (.string (some "12".toList)) = .ok (12, .strict) ∧
    PyObj.validateInt false ⟨⟨.str (some "12".toList), none, none, none⟩, none⟩ = .ok (.int 12, .lax) := by decide

end PC.In
