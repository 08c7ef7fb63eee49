import Verif.Model.Inputs
import Verif.Lemmas.Numbers
import Verif.Props.Literal
import Verif.Props.Floats

/-
C28: what strict mode accepts, lax mode accepts with the same value.
C60: JSON and Python inputs agree on scalars.
C61: strict mode does not convert.
-/

namespace PC.In
open PC.Num PC.IntParse PC.Float

/-- Strict acceptance implies lax acceptance, with the same value and exactness. -/
def StrictImpliesLax {ι β : Type} (validate : Bool → ι → Match β) : Prop :=
  ∀ x m, validate true x = .ok m → validate false x = .ok m

/-- C28 for ints read from Python objects. -/
theorem strict_lax_int : StrictImpliesLax PyObj.validateInt := by
  rintro ⟨⟨k, fl, ix, so⟩, en⟩ m h
  cases k <;> simp_all [PyObj.validateInt]

/-- C28 for bools read from Python objects. -/
theorem strict_lax_bool : StrictImpliesLax PyObj.validateBool := by
  rintro ⟨⟨k, fl, ix, so⟩, en⟩ m h
  cases k <;> simp_all [PyObj.validateBool]

/-- C28 for strings read from Python objects. -/
theorem strict_lax_str (coerce : Bool) :
    StrictImpliesLax fun strict x => PyObj.validateStr strict coerce x := by
  rintro ⟨⟨k, fl, ix, so⟩, en⟩ m h
  cases k with
  | str s => cases s <;> simp_all [PyObj.validateStr]
  | strSub s => cases s <;> simp_all [PyObj.validateStr]
  | _ => simp_all [PyObj.validateStr]

/-- C28 for bytes read from Python objects. -/
theorem strict_lax_bytes (deser : List Char → Except ErrType (List UInt8)) :
    StrictImpliesLax (PyObj.validateBytes deser) := by
  rintro ⟨⟨k, fl, ix, so⟩, en⟩ m h
  cases k <;> simp_all [PyObj.validateBytes]

/-- C28 for decimals read from Python objects. -/
theorem strict_lax_decimal {D : Type} (d : DecimalOps D) :
    StrictImpliesLax (PyObj.validateDecimal d) := by
  rintro ⟨⟨k, fl, ix, so⟩, en⟩ m h
  cases k <;> simp_all [PyObj.validateDecimal]

/-- The object is a `str` or `bytes` (or an instance of a subclass). -/
def Textual : Kind → Prop
  | .str _ | .strSub _ | .bytes .. | .bytesSub .. => True
  | _ => False

/-- C28 for floats read from Python objects other than strings and bytes.  What is missing: a
subclass of `str` or `bytes` that defines `__float__`, see `strict_float_str`. -/
theorem strict_lax_float_partial (parse : List Char → Option F64) (x : PyObj) (m : F64 × Exactness)
    (hx : ¬ Textual x.kind) (h : PyObj.validateFloat parse true x = .ok m) :
    PyObj.validateFloat parse false x = .ok m := by
  obtain ⟨⟨k, fl, ix, so⟩, en⟩ := x
  cases k <;>
    first
    | exact absurd trivial hx
    | (cases fl <;> simp_all [PyObj.validateFloat, maybeAsString, floatOfNumber])

namespace Demo

/-- An int. -/
def int (n : Int) : PyObj := ⟨⟨.int n, some (.fin n 0), some n, none⟩, none⟩

/-- A string subclass with text `s` and a `__float__` returning 1.0. -/
def floatyStr (s : List Char) : PyObj := ⟨⟨.strSub (some s), some (.fin 1 0), none, some s⟩, none⟩

/-- A member of a plain enum with a string value. -/
def member : PyObj := ⟨⟨.other, none, none, none⟩, some ⟨.str (some ['x']), none, none, some ['x']⟩⟩

/-- A parser of floats that knows no number. -/
def noFloat (_ : List Char) : Option F64 := none

end Demo

example : PyObj.validateInt true (Demo.int 3) = .ok (.int 3, .exact) := rfl
example : ¬ Textual (Demo.int 3).kind ∧
    PyObj.validateFloat Demo.noFloat true (Demo.int 3) = .ok (.fin 3 0, .strict) :=
  ⟨fun h => h, rfl⟩

/-- C28 fails for floats: strict mode takes the value of `__float__` of any object, whereas lax
mode parses the text of strings. -/
theorem strict_float_str :
    PyObj.validateFloat Demo.noFloat true (Demo.floatyStr ['x']) = .ok (.fin 1 0, .strict) ∧
    PyObj.validateFloat Demo.noFloat false (Demo.floatyStr ['x'])
      = .error (.other "float_parsing") := by
  constructor <;> decide

theorem strict_not_lax_float : ¬ StrictImpliesLax (PyObj.validateFloat Demo.noFloat) := by
  intro h
  have := h _ _ strict_float_str.1
  rw [strict_float_str.2] at this
  cases this

/-- C28 for JSON inputs. -/
theorem strict_lax_json (j : JsonOps) (parse : List Char → Option F64) (coerce : Bool) :
    StrictImpliesLax Json.validateInt ∧ StrictImpliesLax Json.validateBool ∧
    (StrictImpliesLax fun strict x => Json.validateStr j strict coerce x) ∧
    StrictImpliesLax (Json.validateFloat j parse) := by
  refine ⟨?_, ?_, ?_, ?_⟩ <;> intro x m h <;> cases x <;>
    simp_all [Json.validateInt, Json.validateBool, Json.validateStr, Json.validateFloat]

/-- C28 for string mappings: strictness makes no difference. -/
theorem strict_lax_string (parse : List Char → Option F64) :
    StrictImpliesLax StrMap.validateInt ∧ StrictImpliesLax StrMap.validateBool ∧
    StrictImpliesLax (StrMap.validateFloat parse) :=
  ⟨fun _ _ h => h, fun _ _ h => h, fun _ _ h => h⟩

example : Json.validateInt true (.int 5) = .ok (.int 5, .exact) := rfl
example : StrMap.validateInt true (.string (some "12".toList)) = .ok (12, .strict) := by decide

/-! ### Strict mode does not convert -/

/-- C61: strict int accepts exactly the ints and instances of subclasses other than bool; the
value is that of the int. -/
theorem strict_int_exact (x : PyObj) (v : IntOut) :
    (∃ e, PyObj.validateInt true x = .ok (v, e)) ↔
      ∃ n, v = .int n ∧ (x.kind = .int n ∨ x.kind = .intSub n) := by
  obtain ⟨⟨k, fl, ix, so⟩, en⟩ := x
  cases k <;> simp [PyObj.validateInt, eq_comm]

/-- C61: strict bool accepts exactly the two bools. -/
theorem strict_bool_exact (x : PyObj) (b : Bool) :
    (∃ e, PyObj.validateBool true x = .ok (b, e)) ↔ x.kind = .bool b := by
  obtain ⟨⟨k, fl, ix, so⟩, en⟩ := x
  cases k <;> simp [PyObj.validateBool]

/-- C61: strict str accepts exactly strings, with their text. -/
theorem strict_str_exact (coerce : Bool) (x : PyObj) (s : List Char) :
    (∃ e, PyObj.validateStr true coerce x = .ok (.text s, e)) ↔
      x.kind = .str (some s) ∨ x.kind = .strSub (some s) := by
  obtain ⟨⟨k, fl, ix, so⟩, en⟩ := x
  cases k with
  | str t => cases t <;> simp [PyObj.validateStr]
  | strSub t => cases t <;> simp [PyObj.validateStr]
  | _ => simp [PyObj.validateStr]

/-- C61: strict bytes accepts exactly bytes. -/
theorem strict_bytes_exact (deser : List Char → Except ErrType (List UInt8)) (x : PyObj)
    (b : List UInt8) :
    (∃ e, PyObj.validateBytes deser true x = .ok (b, e)) ↔
      ∃ t, x.kind = .bytes b t ∨ x.kind = .bytesSub b t := by
  obtain ⟨⟨k, fl, ix, so⟩, en⟩ := x
  cases k <;> simp [PyObj.validateBytes]

/-- C61: no strict match is reported as `Lax`. -/
theorem strict_never_lax {D : Type} (d : DecimalOps D) (parse : List Char → Option F64)
    (deser : List Char → Except ErrType (List UInt8)) (coerce : Bool) (x : PyObj) :
    (∀ v e, PyObj.validateInt true x = .ok (v, e) → e ≠ .lax) ∧
    (∀ v e, PyObj.validateBool true x = .ok (v, e) → e ≠ .lax) ∧
    (∀ v e, PyObj.validateStr true coerce x = .ok (v, e) → e ≠ .lax) ∧
    (∀ v e, PyObj.validateBytes deser true x = .ok (v, e) → e ≠ .lax) ∧
    (∀ v e, PyObj.validateFloat parse true x = .ok (v, e) → e ≠ .lax) ∧
    (∀ v e, PyObj.validateDecimal d true x = .ok (v, e) → e ≠ .lax) := by
  obtain ⟨⟨k, fl, ix, so⟩, en⟩ := x
  refine ⟨?_, ?_, ?_, ?_, ?_, ?_⟩ <;> intro v e h he <;> subst he
  · cases k <;> simp [PyObj.validateInt] at h
  · cases k <;> simp [PyObj.validateBool] at h
  · cases k with
    | str t => cases t <;> simp [PyObj.validateStr] at h
    | strSub t => cases t <;> simp [PyObj.validateStr] at h
    | _ => simp [PyObj.validateStr] at h
  · cases k <;> simp [PyObj.validateBytes] at h
  · cases k <;> cases fl <;> simp [PyObj.validateFloat, floatOfNumber] at h
  · cases k <;> simp [PyObj.validateDecimal] at h
    case decimalSub f n m =>
      cases hd : d.create ⟨⟨.decimalSub f n m, fl, ix, so⟩, en⟩ <;> simp [hd, Except.map] at h

example : PyObj.validateInt true (Demo.int 3) = .ok (.int 3, .exact) ∧
    PyObj.validateInt true ⟨⟨.intSub 3, none, some 3, none⟩, none⟩ = .ok (.int 3, .strict) ∧
    PyObj.validateInt true ⟨⟨.bool true, none, some 1, none⟩, none⟩
      = .error (.other "int_type") := ⟨rfl, rfl, rfl⟩

/-- In lax mode the int validator returns the value of an enum member without looking at it: here
a string. -/
theorem lax_int_returns_string :
    PyObj.validateInt false Demo.member
      = .ok (.obj ⟨.str (some ['x']), none, none, some ['x']⟩, .lax) := by decide

/-- C61, continued: apart from enum members, the int validator returns ints. -/
theorem int_returns_int_partial (strict : Bool) (x : PyObj) (v : IntOut) (e : Exactness)
    (hx : x.enumValue = none) (h : PyObj.validateInt strict x = .ok (v, e)) : ∃ n, v = .int n := by
  have hout : ∀ c : Checked Int, intOut c = .ok (v, e) → ∃ n, v = .int n := by
    intro c hc
    cases c with
    | ok n => simp only [intOut] at hc; injection hc with hc; injection hc with hc _; exact ⟨n, hc.symm⟩
    | err t => cases hc
    | panic => cases hc
  have hlax : intLax x = .ok (v, e) → ∃ n, v = .int n := by
    intro h
    unfold intLax at h
    cases hs : maybeAsString x.kind (.other "int_parsing") with
    | error e => rw [hs] at h; cases h
    | ok r =>
      rw [hs] at h
      cases r with
      | some s => exact hout _ h
      | none =>
        dsimp only at h
        rw [hx] at h
        obtain ⟨⟨k, fl, ix, so⟩, en⟩ := x
        cases k <;> cases fl <;>
          first
          | exact hout _ h
          | (dsimp only at h; cases h)
  unfold PyObj.validateInt at h
  obtain ⟨⟨k, fl, ix, so⟩, en⟩ := x
  cases k <;> dsimp only at h <;>
    first
    | (injection h with h; injection h with h _; exact ⟨_, h.symm⟩)
    | (cases strict
       · first
         | (rw [if_neg (by decide)] at h; exact hlax h)
         | (rw [if_neg (by decide)] at h; injection h with h; injection h with h _; exact ⟨_, h.symm⟩)
       · rw [if_pos rfl] at h; cases h)

example : (Demo.int 3).enumValue = none ∧
    PyObj.validateInt false ⟨⟨.float (.fin 6 1), some (.fin 6 1), none, none⟩, none⟩
      = .ok (.int 3, .lax) := by decide

/-! ### JSON and Python agree -/

/-- What is assumed of converting ints to floats: Python's conversion fails only for ints too
large for a double, and an int outside 64 bits does not become 0 or 1. -/
structure Conversions (j : JsonOps) (toFloat : Int → Option F64) : Prop where
  agree : ∀ n f, toFloat n = some f → j.ofInt n = f
  small : ∀ n, Lit.Small n → (toFloat n).isSome
  big : ∀ n f, ¬ Lit.Small n → toFloat n = some f → ∀ m, floatAsInt f ≠ .ok m

/-- The Python object corresponding to a JSON scalar; `toFloat` converts an int to a float, as
Python does. -/
def Json.toPy (j : JsonOps) (toFloat : Int → Option F64) : Json → PyObj
  | .null => ⟨⟨.other, none, none, some "None".toList⟩, none⟩
  | .bool b => ⟨⟨.bool b, some (.fin (if b then 1 else 0) 0), some (if b then 1 else 0), none⟩, none⟩
  | .int n => ⟨⟨.int n, toFloat n, some n, some (j.showInt n)⟩, none⟩
  | .float f => ⟨⟨.float f, some f, none, some (j.showFloat f)⟩, none⟩
  | .str s => ⟨⟨.str (some s), none, none, some s⟩, none⟩
  | .array | .object => ⟨⟨.other, none, none, none⟩, none⟩

/-- The value and whether it was accepted, or the error; exactness forgotten. -/
def value {β : Type} (m : Match β) : Except ErrType β := m.map (·.1)

/-- C60: a JSON scalar and the Python object it stands for give the same int, bool and string or
the same error, in strict and in lax mode. -/
theorem json_python_agree {j : JsonOps} {toFloat : Int → Option F64} (hj : Conversions j toFloat)
    (strict coerce : Bool) (x : Json) :
    value (Json.validateInt strict x) = value (PyObj.validateInt strict (x.toPy j toFloat)) ∧
    value (Json.validateBool strict x) = value (PyObj.validateBool strict (x.toPy j toFloat)) ∧
    value (Json.validateStr j strict coerce x)
      = value (PyObj.validateStr strict coerce (x.toPy j toFloat)) := by
  refine ⟨?_, ?_, ?_⟩
  · cases x <;> cases strict <;>
      simp [Json.validateInt, PyObj.validateInt, Json.toPy, intLax, maybeAsString]
  · cases x with
    | int n =>
      cases strict with
      | true => rfl
      | false =>
        simp only [Json.validateBool, PyObj.validateBool, Json.toPy, maybeAsString, boolOfNumber,
          Option.bind_some]
        cases hx : extractI64 n with
        | some i => rfl
        | none =>
          simp only [Bool.false_eq_true, if_false]
          cases hf : toFloat n with
          | none => rfl
          | some f =>
            dsimp only
            cases hc : floatAsInt f with
            | ok m => exact absurd hc (hj.big n f (Lit.extract_none.1 hx) hf m)
            | err t => rfl
            | panic => rfl
    | _ => cases strict <;>
        simp [Json.validateBool, PyObj.validateBool, Json.toPy, maybeAsString, boolOfNumber]
  · cases x <;> cases strict <;> cases coerce <;>
      simp [Json.validateStr, PyObj.validateStr, Json.toPy, strOfNumber, value, Except.map]

/-- C60 for floats, provided an int is not too large for a double. -/
theorem json_python_float_partial {j : JsonOps} {toFloat : Int → Option F64}
    (hj : Conversions j toFloat) (parse : List Char → Option F64) (strict : Bool) (x : Json)
    (hx : ∀ n, x = .int n → (toFloat n).isSome) :
    value (Json.validateFloat j parse strict x)
      = value (PyObj.validateFloat parse strict (x.toPy j toFloat)) := by
  cases x with
  | int n =>
    have := hx n rfl
    cases hf : toFloat n with
    | none => rw [hf] at this; cases this
    | some f =>
      cases strict <;>
        simp [Json.validateFloat, PyObj.validateFloat, Json.toPy, maybeAsString, floatOfNumber, hf,
          hj.agree n f hf, value, Except.map]
  | _ => cases strict <;>
      simp [Json.validateFloat, PyObj.validateFloat, Json.toPy, maybeAsString, floatOfNumber]

namespace Demo

/-- 2^1024, the first power of two too large for a double. -/
def limit : Nat := (2 ^ 256) ^ 4

/-- A conversion of ints to floats that is exact below 2^1024 and infinite (in Rust) or an error
(in Python) from there on; that doubles round large ints is not relevant here. -/
def j : JsonOps where
  showInt _ := []
  showFloat _ := []
  ofInt n := if n.natAbs < limit then .fin n 0 else .posInf

/-- See `j`. -/
def toFloat (n : Int) : Option F64 := if n.natAbs < limit then some (.fin n 0) else none

theorem conversions : Conversions j toFloat where
  agree n f h := by
    unfold toFloat at h
    by_cases hn : n.natAbs < limit
    · rw [if_pos hn] at h; injection h with h
      simp only [j]; rw [if_pos hn, h]
    · rw [if_neg hn] at h; cases h
  small n h := by
    unfold toFloat
    have : n.natAbs < limit := by
      have h2 : n.natAbs ≤ 2 ^ 63 := by unfold Lit.Small at h; omega
      exact Nat.lt_of_le_of_lt h2 (by decide)
    rw [if_pos this]; rfl
  big n f hs h m hm := by
    unfold toFloat at h
    by_cases hn : n.natAbs < limit
    · rw [if_pos hn] at h; injection h with h; subst h
      unfold floatAsInt at hm
      dsimp only at hm
      by_cases h1 : n.tmod (2 ^ 0) ≠ 0
      · rw [if_pos h1] at hm; cases hm
      · rw [if_neg h1] at hm
        by_cases h2 : -(2 ^ 63) * 2 ^ 0 < n ∧ n < 2 ^ 63 * 2 ^ 0
        · apply hs; unfold Lit.Small; omega
        · rw [if_neg h2] at hm; cases hm
    · rw [if_neg hn] at h; cases h

end Demo

example : value (Json.validateBool false (.int (2 ^ 70))) = .error (.other "bool_type") ∧
    value (PyObj.validateBool false ((Json.int (2 ^ 70)).toPy Demo.j Demo.toFloat))
      = .error (.other "bool_type") := by decide

/-- C60 fails for floats: a JSON int too large for a double is read as infinity, the same Python
int is rejected. -/
theorem json_big_int_is_infinite :
    value (Json.validateFloat Demo.j Demo.noFloat true (.int (Demo.limit : Nat))) = .ok .posInf ∧
    value (PyObj.validateFloat Demo.noFloat true ((Json.int (Demo.limit : Nat)).toPy Demo.j Demo.toFloat))
      = .error (.other "float_type") := by
  constructor <;> decide

/-- Literals see a JSON scalar as they see the Python object: the three questions asked of an
input (`LitInput`) get the same answers. -/
theorem json_literal_agrees (j : JsonOps) (toFloat : Int → Option F64) (x : Json) :
    (∀ b, (∃ e, Json.validateBool true x = .ok (b, e)) ↔
      ∃ e, PyObj.validateBool true (x.toPy j toFloat) = .ok (b, e)) ∧
    (∀ n, Json.validateInt true x = .ok (.int n, .exact) ↔ (x.toPy j toFloat).kind = .int n) ∧
    (∀ s, (∃ e, Json.validateStr j true false x = .ok (.text s, e)) ↔
      (x.toPy j toFloat).kind = .str (some s)) := by
  refine ⟨?_, ?_, ?_⟩ <;> intro v <;> cases x <;>
    simp [Json.validateBool, PyObj.validateBool, Json.validateInt, Json.validateStr, Json.toPy]

/-- C25 for Python objects: a decimal (or instance of a subclass) is accepted as an int iff it is
finite and whole, with exactly its value, however large; `num / den` is its value in lowest terms
with a positive denominator, as `as_integer_ratio` returns it. -/
theorem lax_int_decimal (x : PyObj) (fin : Bool) (num den : Int)
    (hx : x.kind = .decimal fin num den ∨ x.kind = .decimalSub fin num den) (v : IntOut) :
    (∃ e, PyObj.validateInt false x = .ok (v, e)) ↔ fin = true ∧ den = 1 ∧ v = .int num := by
  have key : PyObj.validateInt false x = intOut (decimalAsInt fin num den) := by
    rcases hx with hx | hx <;> simp [PyObj.validateInt, intLax, hx, maybeAsString]
  rw [key]
  cases hd : decimalAsInt fin num den with
  | ok n =>
    have := (decimal_as_int_exact fin num den n).1 hd
    simp only [intOut, Except.ok.injEq, Prod.mk.injEq, exists_and_left]
    constructor
    · rintro ⟨rfl, _⟩; exact ⟨this.1, this.2.1, by rw [this.2.2]⟩
    · rintro ⟨_, _, rfl⟩; exact ⟨by rw [this.2.2], _, rfl⟩
  | err t =>
    simp only [intOut]
    constructor
    · rintro ⟨_, h⟩; cases h
    · rintro ⟨hf, hden, _⟩
      rw [(decimal_as_int_exact fin num den num).2 ⟨hf, hden, rfl⟩] at hd; cases hd
  | panic =>
    simp only [intOut]
    constructor
    · rintro ⟨_, h⟩; cases h
    · rintro ⟨hf, hden, _⟩
      rw [(decimal_as_int_exact fin num den num).2 ⟨hf, hden, rfl⟩] at hd; cases hd

/-- C25 for Python objects: a float that is not a subclass instance is read as `float_as_int`
reads it. -/
theorem lax_int_float (x : PyObj) (f : F64) (hx : x.kind = .float f) :
    PyObj.validateInt false x = intOut (floatAsInt f) := by
  simp [PyObj.validateInt, intLax, hx, maybeAsString]

example : PyObj.validateInt false ⟨⟨.decimal true (10 ^ 30) 1, none, none, none⟩, none⟩
    = .ok (.int (10 ^ 30), .lax) := by decide

end PC.In
