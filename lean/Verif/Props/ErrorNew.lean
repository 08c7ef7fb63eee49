import Verif.Lemmas.ErrorNew

/-
C108: errors made from a name and a context, and why a report fails.
-/

namespace PC.Report
open PC.Infer (Text)
open PC.JsonText (Doc)

/-- **C108**: an object of the context is read as a field exactly as the table `Reads` says. -/
theorem field_reads_iff (E : Env) (o : Obj) (ty : Ty) (v : Val) : ty.extract E o = some v ↔ Reads E o ty v := by
  cases ty with
  | text =>
    simp only [Ty.extract, Option.map_eq_some_iff, asText_iff]
    constructor
    · rintro ⟨t, h, rfl⟩; exact .text h
    · intro h; cases h with | text h => exact ⟨_, h, rfl⟩
  | nat =>
    have : Ty.extract E o .nat = ((asInt E isU64 o).map Int.toNat).map .nat := by
      simp only [Ty.extract, Option.map_map]; rfl
    rw [this, Option.map_eq_some_iff]
    constructor
    · rintro ⟨n, h, rfl⟩
      obtain ⟨h1, h2⟩ := (asU64_iff ..).1 h
      exact .nat h1 h2
    · intro h; cases h with | nat h1 h2 => exact ⟨_, (asU64_iff ..).2 ⟨h1, h2⟩, rfl⟩
  | optNat =>
    simp only [Ty.extract]
    by_cases ho : o = .none
    · rw [if_pos ho]
      constructor
      · intro h; injection h with h; subst h; exact .noNat ho
      · intro h
        cases h with
        | noNat => rfl
        | someNat h1 h2 => subst ho; rcases h1 with h | ⟨_, h, _⟩ <;> cases h
    · rw [if_neg ho]
      have : ((asInt E isU64 o).map fun i => Val.optNat (some i.toNat))
          = ((asInt E isU64 o).map Int.toNat).map fun n => .optNat (some n) := by
        simp only [Option.map_map]; rfl
      rw [this, Option.map_eq_some_iff]
      constructor
      · rintro ⟨n, h, rfl⟩
        obtain ⟨h1, h2⟩ := (asU64_iff ..).1 h
        exact .someNat h1 h2
      · intro h
        cases h with
        | noNat h => exact absurd h ho
        | someNat h1 h2 => exact ⟨_, (asU64_iff ..).2 ⟨h1, h2⟩, rfl⟩
  | int32 =>
    simp only [Ty.extract, Option.map_eq_some_iff, asInt_iff, isI32_iff]
    constructor
    · rintro ⟨i, ⟨h1, h2, h3⟩, rfl⟩; exact .int32 h1 h2 h3
    · intro h; cases h with | int32 h1 h2 h3 => exact ⟨_, ⟨h1, h2, h3⟩, rfl⟩
  | number =>
    simp only [Ty.extract, Option.map_eq_some_iff]
    unfold Num.extract
    cases h1 : asI64 E o with
    | some i =>
      have h1' := h1
      rw [asI64_eq, asInt_iff, isI64_iff] at h1'
      dsimp only
      constructor
      · rintro ⟨n, h, rfl⟩; injection h with h; subst h; exact .int h1'.1 h1'.2.1 h1'.2.2
      · intro h
        cases h with
        | int a b c =>
          have := (asInt_iff E isI64 o _).2 ⟨a, (isI64_iff _).2 ⟨b, c⟩⟩
          rw [← asI64_eq, h1] at this
          injection this with this; subst this
          exact ⟨_, rfl, rfl⟩
        | float a _ => have := (asI64_none ..).2 a; rw [h1] at this; cases this
        | string a _ _ => have := (asI64_none ..).2 a; rw [h1] at this; cases this
    | none =>
      have hn := (asI64_none ..).1 h1
      dsimp only
      cases h2 : asF64 E o with
      | some f =>
        dsimp only
        constructor
        · rintro ⟨n, h, rfl⟩; injection h with h; subst h; exact .float hn ((asF64_iff ..).1 h2)
        · intro h
          cases h with
          | int a b c => have := hn _ a; omega
          | float _ hf =>
            rw [← asF64_iff, h2] at hf; injection hf with hf; subst hf; exact ⟨_, rfl, rfl⟩
          | string _ hf _ => exact absurd ((asF64_iff ..).1 h2) (hf f)
      | none =>
        dsimp only
        have hf : ∀ f, ¬ GivesFloat E o f := by
          intro f hf; rw [← asF64_iff, h2] at hf; cases hf
        constructor
        · rintro ⟨n, h, rfl⟩
          obtain ⟨t, ht, rfl⟩ := Option.map_eq_some_iff.1 h
          exact .string hn hf ((asText_iff ..).1 ht)
        · intro h
          cases h with
          | int a b c => have := hn _ a; omega
          | float _ h => exact absurd h (hf _)
          | string _ _ ht => exact ⟨_, by rw [(asText_iff ..).2 ht]; rfl, rfl⟩
  | object =>
    simp only [Ty.extract, Option.some.injEq]
    by_cases ho : o = .none
    · rw [if_pos ho]
      constructor
      · rintro rfl; exact .noObject ho
      · intro h
        cases h with
        | noObject => rfl
        | object h => exact absurd ho h
    · rw [if_neg ho]
      constructor
      · rintro rfl; exact .object ho
      · intro h
        cases h with
        | noObject h => exact absurd h ho
        | object => rfl

theorem fields_iff (E : Env) (ctx : Option Dict) (fs : List (Text × Ty)) (vs : List (Text × Val)) :
    fieldsFromContext E ctx fs = .ok vs ↔ List.Forall₂ (FieldOf E ctx) fs vs := by
  induction fs generalizing vs with
  | nil =>
    simp only [fieldsFromContext, List.forall₂_nil_left_iff]
    constructor
    · intro h; injection h with h; exact h.symm
    · rintro rfl; rfl
  | cons f rest ih =>
    obtain ⟨k, ty⟩ := f
    unfold fieldsFromContext
    constructor
    · intro h
      cases h1 : fieldFromContext E ctx k ty with
      | error x => rw [h1] at h; cases h
      | ok v =>
        rw [h1] at h
        dsimp only at h
        cases h2 : fieldsFromContext E ctx rest with
        | error x => rw [h2] at h; cases h
        | ok ws =>
          rw [h2] at h
          injection h with h; subst h
          obtain ⟨d, o, hd, ho, he⟩ := (fieldFromContext_iff ..).1 h1
          exact .cons ⟨rfl, d, o, hd, ho, (field_reads_iff ..).1 he⟩ ((ih ws).1 h2)
    · intro h
      cases h with
      | @cons _ v _ ws h1 h2 =>
        obtain ⟨vk, vv⟩ := v
        obtain ⟨rfl, d, o, hd, ho, he⟩ := h1
        rw [(fieldFromContext_iff E ctx _ ty vv).2 ⟨d, o, hd, ho, (field_reads_iff ..).2 he⟩]
        dsimp only
        rw [(ih ws).2 h2]

/-- **C108**: an error is made from a name and a context exactly if there is an error type of that name and
the context has all its fields, each readable as the type of the field; the context is kept. -/
theorem known_error_iff (E : Env) (name : Text) (ctx : Option Dict) (e : Error) :
    Error.new E name ctx = .ok e ↔
      ∃ k fs, lookup E name = some k ∧ List.Forall₂ (FieldOf E ctx) k.fields fs ∧ e = .known name fs ctx := by
  unfold Error.new
  constructor
  · intro h
    cases hl : lookup E name with
    | none => rw [hl] at h; cases h
    | some k =>
      rw [hl] at h
      dsimp only at h
      cases hf : fieldsFromContext E ctx k.fields with
      | error x => rw [hf] at h; cases h
      | ok fs =>
        rw [hf] at h
        injection h with h
        exact ⟨k, fs, rfl, (fields_iff ..).1 hf, h.symm⟩
  · rintro ⟨k, fs, hl, hf, rfl⟩
    rw [hl]
    dsimp only
    rw [(fields_iff ..).2 hf]

/-- **C108**: otherwise a `KeyError` names the unknown error type, or a `TypeError` names the first field
that the context does not have in readable form. -/
theorem known_error_refused (E : Env) (name : Text) (ctx : Option Dict) (x : Exc) :
    Error.new E name ctx = .error x ↔
      (lookup E name = none ∧ x = .keyError name) ∨
      ∃ k pre key ty post vs, lookup E name = some k ∧ k.fields = pre ++ (key, ty) :: post ∧
        List.Forall₂ (FieldOf E ctx) pre vs ∧ (∀ v, ¬ FieldOf E ctx (key, ty) (key, v)) ∧ x = .typeError key := by
  have key : ∀ fs : List (Text × Ty), fieldsFromContext E ctx fs = .error x ↔
      ∃ pre key ty post vs, fs = pre ++ (key, ty) :: post ∧
        List.Forall₂ (FieldOf E ctx) pre vs ∧ (∀ v, ¬ FieldOf E ctx (key, ty) (key, v)) ∧ x = .typeError key := by
    intro fs
    induction fs with
    | nil => simp [fieldsFromContext]
    | cons f rest ih =>
      obtain ⟨k, ty⟩ := f
      have field : ∀ v, fieldFromContext E ctx k ty = .ok v ↔ FieldOf E ctx (k, ty) (k, v) := by
        intro v
        rw [fieldFromContext_iff]
        simp only [FieldOf, field_reads_iff, true_and]
      unfold fieldsFromContext
      constructor
      · intro h
        cases h1 : fieldFromContext E ctx k ty with
        | error y =>
          rw [h1] at h
          injection h with h; subst h
          refine ⟨[], k, ty, rest, [], rfl, .nil, ?_, fieldFromContext_error _ _ _ _ _ h1⟩
          intro v hv
          rw [← field, h1] at hv; cases hv
        | ok v =>
          rw [h1] at h
          dsimp only at h
          cases h2 : fieldsFromContext E ctx rest with
          | ok ws => rw [h2] at h; cases h
          | error y =>
            rw [h2] at h
            injection h with h; subst h
            obtain ⟨pre, k', ty', post, vs, rfl, hp, hv, hx⟩ := ih.1 h2
            exact ⟨(k, ty) :: pre, k', ty', post, (k, v) :: vs, rfl, .cons ((field v).1 h1) hp, hv, hx⟩
      · rintro ⟨pre, k', ty', post, vs, he, hp, hv, rfl⟩
        cases pre with
        | nil =>
          injection he with he1 he2
          injection he1 with he3 he4
          subst he3; subst he4
          cases h1 : fieldFromContext E ctx k ty with
          | error y => rw [fieldFromContext_error _ _ _ _ _ h1]
          | ok v => exact absurd ((field v).1 h1) (hv v)
        | cons p pre =>
          injection he with he1 he2
          subst he1
          cases hp with
          | @cons _ w _ ws hw hws =>
            obtain ⟨wk, wv⟩ := w
            have : wk = k := hw.1
            subst this
            rw [(field wv).2 hw]
            dsimp only
            rw [ih.2 ⟨pre, k', ty', post, ws, he2, hws, hv, rfl⟩]
  unfold Error.new
  cases hl : lookup E name with
  | none =>
    constructor
    · intro h; injection h with h; exact Or.inl ⟨rfl, h.symm⟩
    · rintro (⟨_, rfl⟩ | ⟨_, _, _, _, _, _, h, _⟩)
      · rfl
      · cases h
  | some k =>
    simp only [reduceCtorEq, false_and, false_or, Option.some.injEq]
    constructor
    · intro h
      cases hf : fieldsFromContext E ctx k.fields with
      | ok fs => rw [hf] at h; cases h
      | error y =>
        rw [hf] at h
        injection h with h; subst h
        obtain ⟨pre, k', ty, post, vs, h1, h2, h3, h4⟩ := (key _).1 hf
        exact ⟨k, pre, k', ty, post, vs, rfl, h1, h2, h3, h4⟩
    · rintro ⟨k0, pre, k', ty, post, vs, rfl, h1, h2, h3, h4⟩
      rw [(key k.fields).2 ⟨pre, k', ty, post, vs, h1, h2, h3, h4⟩]

/-- **C108**: the message is the one for Python if the input is Python, and the one for JSON if it is JSON or
strings. -/
theorem message_by_input (E : Env) (name : Text) (fields : List (Text × Val)) (ctx : Option Dict) (k : Kind)
    (e : Msg.Err) (hl : lookup E name = some k) (hm : k.make (fields.map Prod.snd) = some e) :
    (Error.known name fields ctx).message E .python = .ok (Msg.renderMessage e .python) ∧
    (Error.known name fields ctx).message E .json = .ok (Msg.renderMessage e .json) ∧
    (Error.known name fields ctx).message E .string = .ok (Msg.renderMessage e .json) := by
  simp only [Error.message, hl, Option.bind_some, hm, InputType.msg, and_self]

/-- **C108**: one error is not written as JSON exactly for the reasons `LineFails`. -/
theorem line_fails_iff (E : Env) (u : Option Text) (c i : Bool) (t : InputType) (l : Line) (e : Text) :
    l.doc E u c t i = .error e ↔ LineFails E c i t l e := by
  unfold Line.doc
  dsimp only
  constructor
  · intro h
    cases hm : l.error.message E t with
    | error x => rw [hm] at h; injection h with h; exact .message hm ((excShown_iff ..).1 h)
    | ok m =>
      rw [hm] at h
      dsimp only at h
      have rest : ∀ inp, (if i = true then (E.infer l.input).map fun x => [("input".toList, x)] else .ok []) = Except.ok inp →
          (i = true → ∃ d, E.infer l.input = .ok d) := by
        intro inp h1 hi
        rw [if_pos hi] at h1
        cases hx : E.infer l.input with
        | ok d => exact ⟨d, rfl⟩
        | error y => rw [hx] at h1; cases h1
      cases h1 : (if i = true then (E.infer l.input).map fun x => [("input".toList, x)] else .ok [] : Except Text (List (Text × Doc))) with
      | error y =>
        rw [h1] at h
        injection h with h; subst h
        by_cases hi : i = true
        · rw [if_pos hi] at h1
          cases hx : E.infer l.input with
          | ok d => rw [hx] at h1; cases h1
          | error z => rw [hx] at h1; injection h1 with h1; subst h1; exact .input hm hi hx
        · rw [if_neg hi] at h1; cases h1
      | ok inp =>
        rw [h1] at h
        dsimp only at h
        cases c with
        | false => simp at h
        | true =>
          rw [if_pos rfl] at h
          cases hd : l.error.pyDict with
          | none => rw [hd] at h; cases h
          | some d =>
            rw [hd] at h
            dsimp only at h
            cases hx : E.inferDict d with
            | ok z => rw [hx] at h; cases h
            | error z =>
              rw [hx] at h
              injection h with h; subst h
              exact .context hm (rest inp h1) rfl hd hx
  · intro h
    cases h with
    | message hm hx => rw [hm]; dsimp only; rw [(excShown_iff ..).2 hx]
    | input hm hi hx => rw [hm]; dsimp only; rw [if_pos hi, hx]; rfl
    | context hm hin hc hd hx =>
      rw [hm]
      dsimp only
      have : ∃ inp, (if i = true then (E.infer l.input).map fun x => [("input".toList, x)] else .ok [] : Except Text (List (Text × Doc))) = .ok inp := by
        by_cases hi : i = true
        · obtain ⟨d, hd⟩ := hin hi
          rw [if_pos hi, hd]; exact ⟨_, rfl⟩
        · rw [if_neg hi]; exact ⟨_, rfl⟩
      obtain ⟨inp, hinp⟩ := this
      rw [hinp, if_pos hc, hd]
      dsimp only
      rw [hx]
      rfl

/-- **C108**: `json()` fails exactly if some error cannot be written, with the text of the first such. -/
theorem json_fails_iff (E : Env) (u c i : Bool) (v : VErr) (e : Text) :
    v.doc E u c i = .error e ↔
      ∃ pre l post, v.lines = pre ++ l :: post ∧ LineFails E c i v.inputType l e ∧
        ∀ l' ∈ pre, ∀ e', ¬ LineFails E c i v.inputType l' e' := by
  have ok_or : ∀ l : Line, (∃ d, l.doc E (urlPrefix E u) c v.inputType i = .ok d) →
      ∀ e', ¬ LineFails E c i v.inputType l e' := by
    rintro l ⟨d, hd⟩ e' h
    rw [← line_fails_iff E (urlPrefix E u), hd] at h
    cases h
  have key : ∀ ls : List Line, VErr.doc.go E u c i v ls = .error e ↔
      ∃ pre l post, ls = pre ++ l :: post ∧ LineFails E c i v.inputType l e ∧
        ∀ l' ∈ pre, ∀ e', ¬ LineFails E c i v.inputType l' e' := by
    intro ls
    induction ls with
    | nil => simp [VErr.doc.go]
    | cons l ls ih =>
      unfold VErr.doc.go
      constructor
      · intro h
        cases h1 : l.doc E (urlPrefix E u) c v.inputType i with
        | error y =>
          rw [h1] at h
          injection h with h; subst h
          exact ⟨[], l, ls, rfl, (line_fails_iff ..).1 h1, by simp⟩
        | ok d =>
          rw [h1] at h
          dsimp only at h
          cases h2 : VErr.doc.go E u c i v ls with
          | ok ds => rw [h2] at h; cases h
          | error y =>
            rw [h2] at h
            injection h with h; subst h
            obtain ⟨pre, l', post, rfl, hf, hp⟩ := ih.1 h2
            refine ⟨l :: pre, l', post, rfl, hf, ?_⟩
            intro x hx
            rcases List.mem_cons.1 hx with rfl | hx
            · exact ok_or _ ⟨d, h1⟩
            · exact hp x hx
      · rintro ⟨pre, l', post, he, hf, hp⟩
        cases pre with
        | nil =>
          injection he with he1 he2
          subst he1
          rw [(line_fails_iff ..).2 hf]
        | cons p pre =>
          injection he with he1 he2
          subst he1
          cases h1 : l.doc E (urlPrefix E u) c v.inputType i with
          | error y => exact absurd ((line_fails_iff ..).1 h1) (hp l (List.mem_cons_self ..) y)
          | ok d =>
            dsimp only
            rw [ih.2 ⟨pre, l', post, he2, hf, fun x hx => hp x (List.mem_cons_of_mem _ hx)⟩]
  unfold VErr.doc
  rw [← key]
  cases VErr.doc.go E u c i v v.lines with
  | ok d => simp [Except.map]
  | error y => simp [Except.map]

/-! ### Concrete cases -/

/-- `greater_than` needs `gt`: an int of 64 bits stays one, a larger one becomes a float, a missing one is
named. -/
example :
    Error.new world "greater_than".toList (some [(.str "gt".toList, .int (-9223372036854775808))])
      = .ok (.known "greater_than".toList [("gt".toList, .number (.int (-9223372036854775808)))]
          (some [(.str "gt".toList, .int (-9223372036854775808))])) ∧
    Error.new world "greater_than".toList (some []) = .error (.typeError "gt".toList) ∧
    Error.new world "greater".toList none = .error (.keyError "greater".toList) := ⟨rfl, rfl, rfl⟩

/-- The messages for Python and for JSON differ. -/
example : (Error.known "dict_type".toList [] none).message world .python = .ok "Input should be a valid dictionary".toList ∧
    (Error.known "dict_type".toList [] none).message world .string = .ok "Input should be an object".toList :=
  ⟨rfl, rfl⟩

/-- `json()` of an error with a custom context with a key that is not a string fails. -/
example : LineFails world true true .python broken "TypeError: ".toList := .message rfl .type

end PC.Report
