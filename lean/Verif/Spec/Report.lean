import Verif.Model.Report
import Verif.Spec.JsonText
import Mathlib.Data.List.Forall2

/-
What the reports of a `ValidationError` should say, stated by looking keys up in them.
-/

namespace PC.Report
open PC.Infer (Text)
open PC.JsonText (Doc)

/-- A value is of the type of its field. -/
def HasType : Val → Ty → Prop
  | .text _, .text => True
  | .nat n, .nat => n < 2 ^ 64
  | .optNat n, .optNat => ∀ m, n = some m → m < 2 ^ 64
  | .int32 i, .int32 => isI32 i = true
  | .number (.int i), .number => isI64 i = true
  | .number _, .number => True
  | .object _, .object => True
  | _, _ => False

/-- The values fit the fields, one by one. -/
def Fit : List (Text × Val) → List (Text × Ty) → Prop
  | [], [] => True
  | (k, v) :: vs, (k', ty) :: tys => k = k' ∧ HasType v ty ∧ Fit vs tys
  | _, _ => False

/-- Errors that the Rust type `ErrorType` has values for. -/
def Error.Typed (E : Env) : Error → Prop
  | .known name fields _ => ∃ k, lookup E name = some k ∧ Fit fields k.fields
  | .custom .. => True

/-- The message can be made: the keys of a custom context are strings. -/
def Error.StrKeys (E : Env) : Error → Prop
  | .known .. => True
  | .custom _ _ ctx => ∀ p ∈ ctx.getD [], (asText E p.1).isSome = true

/-- The keys a dict of details may have. -/
def allKeys : List Text :=
  ["type".toList, "loc".toList, "msg".toList, "input".toList, "ctx".toList, "url".toList]

/-- The details of one error: what every key stands for, when it is there, and that there are no others. -/
structure Reports (E : Env) (t : InputType) (inclUrl inclCtx inclInput : Bool) (l : Line) (d : Details) : Prop where
  type : d.get "type".toList = some (.text l.error.typeString)
  loc : d.get "loc".toList = some (.loc l.location.toPy)
  msg : ∃ m, l.error.message E t = .ok m ∧ d.get "msg".toList = some (.text m)
  input : d.get "input".toList = if inclInput then some (.obj l.input) else none
  ctx : d.get "ctx".toList = if inclCtx then l.error.pyDict.map .dict else none
  url : d.get "url".toList =
    if inclUrl && !l.error.isCustom then some (.text (E.urlPrefix ++ l.error.typeString)) else none
  keys : ∀ k ∈ d.map Prod.fst, k ∈ allKeys
  once : (d.map Prod.fst).Nodup

/-- The value under a key of `errors()` and the one of `json()` say the same; inference is not modelled. -/
def SameValue (E : Env) : Shown → Doc → Prop
  | .text t, d => d = .str t
  | .loc items, d => ∃ n, d = .seq n (items.map locItemDoc)
  | .obj o, d => E.infer o = .ok d
  | .dict c, d => E.inferDict c = .ok d
  | .custom .., _ => False

/-- The object in the JSON text has the keys of the dict, in its order, with the same values. -/
def Mirrors (E : Env) (d : Details) (j : Doc) : Prop :=
  ∃ n es, j = .map n es ∧ List.Forall₂ (fun p q => p.1 = q.1 ∧ SameValue E p.2 q.2) d es

/-- What is left of the details when keys are not asked for. -/
def asked (inclUrl inclCtx inclInput : Bool) (p : Text × Shown) : Bool :=
  !(p.1 = "url".toList && !inclUrl || p.1 = "ctx".toList && !inclCtx || p.1 = "input".toList && !inclInput)

/-- The part of `str()` for one error: where, what, the type, the input (cut to 52 bytes) unless hidden, and where to read
on unless it is a custom error or URLs are switched off. -/
def Block (E : Env) (v : VErr) (l : Line) (b : List UInt8) : Prop :=
  ∃ msg input,
    (l.error.message E v.inputType = .ok msg ∨
      ∃ e, l.error.message E v.inputType = .error e ∧ msg = "(error rendering message: ".toList ++ e.text ++ ")".toList) ∧
    (if v.hideInput then input = [] else
      ∃ out, Trunc.writeTruncated (Trunc.encode (E.repr l.input)) 50 = some out ∧ out.length ≤ 52 ∧
        input = Trunc.encode ", input_value=".toList ++ out ++
          Trunc.encode ((E.qualname l.input).elim [] fun n => ", input_type=".toList ++ n)) ∧
    b = Trunc.encode (locText l.location ++ "  ".toList ++ msg ++ " [type=".toList ++ l.error.typeString) ++ input ++
      Trunc.encode (if E.includeUrlEnv && !l.error.isCustom
        then "]\n    For further information visit ".toList ++ E.urlPrefix ++ l.error.typeString else "]".toList)

/-- A field that Python gives back as it was: not an integer beyond 64 bits, and no `None` given as an object. -/
def Survives : Val → Prop
  | .number (.bigInt _) => False
  | .object (some .none) => False
  | _ => True

/-- The known errors that are made: by the validators, without a context, or from a name and a dict
(`PydanticKnownError`, `from_exception_data`). -/
inductive Made (E : Env) : Error → Prop
  | validator {name k fields} (h : lookup E name = some k) (hf : Fit fields k.fields)
      (hs : ∀ p ∈ fields, Survives p.2) : Made E (.known name fields none)
  | byName {name ctx e} (h : Error.new E name ctx = .ok e) (hn : ((ctx.getD []).map Prod.fst).Nodup) : Made E e

end PC.Report
