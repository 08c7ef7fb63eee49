import Verif.Props.Models

/-
Typed dicts: C10, C12-C14, C19 (`TypedDictValidator::validate`).
-/

namespace PC.Fields
open PC.Lookup
variable {α : Type}

/-- A concrete typed dict for the examples: required `a` (alias `b`), optional `c`. -/
def Demo.typedDict (extra : ExtraBehavior) : TypedDict Demo.V where
  fields := [Demo.fieldA, { Demo.fieldC with dflt := Demo.noDefault }]
  extra := extra
  extrasV := none
  strict := false
  locByAlias := true
  byAlias := none
  byName := none
  asDict := fun _ => Demo.asDict
  keyOps := Demo.keyOps
  build := fun d => .dict (d.map fun kv => (kv.1, match kv.2 with
    | .num n => n
    | _ => 0))

/-! ### C10 -/

/-- **C10.** When a typed-dict validation accepts and extras are not kept, the output is built from
the fields' own results: each field's validated value, its default, or nothing; in declared order. -/
theorem typed_dict_output (t : TypedDict α) (input : α) (st : VState α) (view : DictView α)
    (hv : t.Reads input st view) (hd : DistinctNames t.fields)
    (hx : t.extra ≠ .allow ∨ view.isPyGetAttr = true) (out : α)
    (hok : (t.validate input st).1 = .ok out) :
    out = t.build ((t.visits view st).1.flatMap FieldVisit.output) := by
  obtain ⟨-, -, ⟨-, h⟩ | ⟨ha, he, -⟩⟩ := dict_ok t input st view hv hd out hok
  · exact h
  · rcases hx with hx | hx
    · exact absurd he hx
    · rw [ha] at hx; cases hx

example : ((Demo.typedDict .ignore).validate (.dict [("b", 1), ("z", 3)]) Demo.st).1 =
    .ok (.dict [("a", 1)]) := by decide

/-- **C10, missing part.** A required field is present in the output or was asked to be left out,
*provided its value could be read* (see `typed_dict_required_lost`). -/
theorem typed_dict_required_partial (t : TypedDict α) (input : α) (st : VState α)
    (view : DictView α) (hv : t.Reads input st view) (hd : DistinctNames t.fields)
    (hw : WellKeyed t.fields) (out : α) (hok : (t.validate input st).1 = .ok out)
    (x : FieldVisit α) (hx : x ∈ (t.visits view st).1) (hreq : x.field.required = true)
    (hread : ∀ ls, x.outcome ≠ .unreadable ls) :
    (∃ v, x.output = [(x.field.name, v)]) ∨
      ∃ e, Dropped e ∧ ((∃ p v, x.outcome = .validated p v (.error e)) ∨
        ∃ k, x.outcome = .defaulted k (.error e)) := by
  obtain ⟨hp, he, -⟩ := dict_ok t input st view hv hd out hok
  have hxp := hp x hx
  rw [List.flatMap_eq_nil_iff] at he
  have hxe := he x hx
  have hxm : ∀ key, x.outcome = .defaulted key (.ok none) → False := by
    intro key hkey
    have hmem : x.field ∈ t.fields := by
      have hf := fieldVisits_fields view.get (st.validateByAliasOr t.byAlias)
        (st.validateByNameOr t.byName)
        (fun path => lastOnly (t.lastKey view st) st.allowPartial (.s path.first)) t.fields [] st
      rw [← hf]
      exact List.mem_map.2 ⟨x, hx, rfl⟩
    obtain ⟨alias?, hc⟩ := hw _ hmem
    have hsel : x.field.keys.select (st.validateByAliasOr t.byAlias) (st.validateByNameOr t.byName) =
        .ok key := by
      have hvis : ∀ (fs : List (Field α)) (data : Dict α) (s : VState α),
          x ∈ (fieldVisits view.get (st.validateByAliasOr t.byAlias) (st.validateByNameOr t.byName)
            (fun path => lastOnly (t.lastKey view st) st.allowPartial (.s path.first)) fs data s).1 →
          x.field.keys.select (st.validateByAliasOr t.byAlias) (st.validateByNameOr t.byName) =
            .ok key := by
        intro fs
        induction fs with
        | nil => intro data s h; cases h
        | cons f fs ih =>
          intro data s h
          simp only [fieldVisits] at h
          rcases List.mem_cons.1 h with h | h
          · subst h
            unfold fieldVisit at hkey ⊢
            cases hk : f.keys.select (st.validateByAliasOr t.byAlias)
                (st.validateByNameOr t.byName) with
            | error e => rw [hk] at hkey; cases hkey
            | ok key' =>
              rw [hk] at hkey
              dsimp only at hkey ⊢
              cases hg : view.get key' with
              | error e => rw [hg] at hkey; cases e <;> cases hkey
              | ok o =>
                rw [hg] at hkey
                cases o with
                | some pv => cases hkey
                | none => simp only [Outcome.defaulted.injEq] at hkey ⊢; rw [hk, hkey.1]
          · exact ih _ _ h
      exact hvis _ _ _ hx
    obtain ⟨e, -, -, hke, -⟩ := missing_error_location alias? x.field.name _ _ x.field.keys key hc
      hsel .missing input t.locByAlias
    unfold FieldVisit.dictErrors at hxe
    rw [hkey] at hxe
    simp [hreq, hke] at hxe
  unfold FieldVisit.Plain at hxp
  unfold FieldVisit.dictErrors at hxe
  unfold FieldVisit.output
  cases ho : x.outcome with
  | raised e => rw [ho] at hxp; exact hxp.elim
  | unreadable ls => exact absurd ho (hread ls)
  | validated p v r =>
    rw [ho] at hxp hxe
    cases r with
    | ok v => exact .inl ⟨v, rfl⟩
    | error e =>
      refine .inr ⟨e, ?_, .inl ⟨p, v, rfl⟩⟩
      rcases hxp e rfl with ⟨ls, rfl⟩ | rfl
      · simp [hreq] at hxe
        exact .inr (by rw [hxe])
      · exact .inl rfl
  | defaulted k r =>
    rw [ho] at hxp hxe
    cases r with
    | ok o =>
      cases o with
      | some v => exact .inl ⟨v, rfl⟩
      | none => exact (hxm k ho).elim
    | error e =>
      refine .inr ⟨e, ?_, .inr ⟨k, rfl⟩⟩
      rcases hxp e rfl with ⟨ls, rfl⟩ | rfl
      · exact .inr (by simpa using hxe)
      · exact .inl rfl

example : ((Demo.typedDict .ignore).validate (.dict [("c", 3)]) Demo.st).1 =
    .error (.lineErrors [⟨.missing, .list [.s "b"], .dict [("c", 3)]⟩]) := by decide

/-- A typed dict reading inputs none of whose values can be read. -/
def Demo.unreadable : TypedDict Demo.V :=
  { Demo.typedDict .ignore with
    fields := [Demo.fieldA]
    asDict := fun _ _ =>
      .ok { Demo.view [] with get := fun _ => .error (.new (.other "string_type") (.num 1)) } }

/-- **C10 / C12, the code violates them.** A required field whose value cannot be read (string mode
with an unsupported value) is dropped without an error: the output lacks the field. -/
theorem typed_dict_required_lost :
    ∃ (t : TypedDict Demo.V) (input : Demo.V) (st : VState Demo.V) (view : DictView Demo.V)
      (f : Field Demo.V) (key : LookupKey) (e : LineError Demo.V),
      t.Reads input st view ∧ f ∈ t.fields ∧ f.required = true ∧
      f.keys.select (st.validateByAliasOr t.byAlias) (st.validateByNameOr t.byName) = .ok key ∧
      view.get key = .error (.lineErrors [e]) ∧ (t.validate input st).1 = .ok (.dict []) := by
  refine ⟨Demo.unreadable, .dict [], Demo.st, _, Demo.fieldA, .simple ⟨"b", []⟩,
    .new (.other "string_type") (.num 1), rfl, by simp [Demo.unreadable], rfl, rfl, rfl, by decide⟩

/-! ### C12 -/

/-- **C12, extra ignored.** -/
theorem typed_dict_errors_ignore (t : TypedDict α) (input : α) (st : VState α) (view : DictView α)
    (hv : t.Reads input st view) (hd : DistinctNames t.fields)
    (hi : t.extra = .ignore ∨ view.isPyGetAttr = true)
    (hp : ∀ x ∈ (t.visits view st).1, x.Plain) :
    (t.validate input st).1 = outcomeOf ((t.visits view st).1.flatMap
        (FieldVisit.dictErrors input t.locByAlias (t.lastKey view st)))
      (t.build ((t.visits view st).1.flatMap FieldVisit.output)) := by
  rw [dict_validate_ignore t input st view hv hd hi hp]

/-- **C12, extra forbidden.** -/
theorem typed_dict_errors_forbid (t : TypedDict α) (input : α) (st : VState α) (view : DictView α)
    (entries : List (α × α)) (hv : t.Reads input st view) (hd : DistinctNames t.fields)
    (hi : t.extra = .forbid) (ha : view.isPyGetAttr = false)
    (he : view.entries = .ok (entries.map .ok)) (hk : PlainKeys t.keyOps entries)
    (hp : ∀ x ∈ (t.visits view st).1, x.Plain) :
    (t.validate input st).1 = outcomeOf ((t.visits view st).1.flatMap
        (FieldVisit.dictErrors input t.locByAlias (t.lastKey view st)) ++
        forbidErrors t.keyOps ((t.visits view st).1.flatMap FieldVisit.used) entries)
      (t.build ((t.visits view st).1.flatMap FieldVisit.output)) := by
  rw [dict_validate_forbid t input st view entries hv hd hi ha he hk hp]

/-- **C12, extra allowed.** -/
theorem typed_dict_errors_allow (t : TypedDict α) (input : α) (st : VState α) (view : DictView α)
    (entries : List (α × α)) (hv : t.Reads input st view) (hd : DistinctNames t.fields)
    (hi : t.extra = .allow) (ha : view.isPyGetAttr = false)
    (he : view.entries = .ok (entries.map .ok))
    (hp : ∀ x ∈ (t.visits view st).1, x.Plain)
    (hx : ∀ x ∈ (t.extras view entries st).1, x.Plain) :
    (t.validate input st).1 = outcomeOf ((t.visits view st).1.flatMap
        (FieldVisit.dictErrors input t.locByAlias (t.lastKey view st)) ++
        (t.extras view entries st).1.flatMap (ExtraVisit.dictErrors t.keyOps (t.lastKey view st)))
      (t.build (Dict.update ((t.visits view st).1.flatMap FieldVisit.output)
          ((t.extras view entries st).1.flatMap ExtraVisit.output))) := by
  rw [dict_validate_allow t input st view entries hv hd hi ha he hp hx]

example : ((Demo.typedDict .forbid).validate (.dict [("a", 5), ("c", 100), ("z", 3)]) Demo.st).1 =
    .error (.lineErrors [⟨.missing, .list [.s "b"], .dict [("a", 5), ("c", 100), ("z", 3)]⟩,
      ⟨.other "less_than", .list [.s "c"], .num 100⟩,
      ⟨.extraForbidden, .list [.s "a"], .num 5⟩, ⟨.extraForbidden, .list [.s "z"], .num 3⟩]) := by
  decide

/-- **C12.** What a field raises is the result of the whole validation. -/
theorem typed_dict_field_raises (t : TypedDict α) (input : α) (st : VState α) (view : DictView α)
    (hv : t.Reads input st view) (hd : DistinctNames t.fields)
    (pre : List (FieldVisit α)) (x : FieldVisit α) (post : List (FieldVisit α))
    (hs : (t.visits view st).1 = pre ++ x :: post) (hpre : ∀ y ∈ pre, y.Plain) (hx : ¬ x.Plain) :
    ∃ e, (x.outcome = .raised e ∨ (∃ p v, x.outcome = .validated p v (.error e)) ∨
      ∃ k, x.outcome = .defaulted k (.error e)) ∧ (t.validate input st).1 = .error e :=
  dict_validate_raises t input st view hv hd pre x post hs hpre hx

/-! ### C19 -/

/-- **C19.** Without partial mode nothing is forgiven but absent optional fields: the errors are
those a model would report, except for the missing optional fields and unreadable values. -/
theorem typed_dict_complete_errors (t : TypedDict α) (input : α) (st : VState α)
    (view : DictView α) (hm : st.allowPartial = .off) (x : FieldVisit α)
    (hr : ∀ ls, x.outcome ≠ .unreadable ls)
    (hreq : (∃ k, x.outcome = .defaulted k (.ok none)) → x.field.required = true) :
    x.dictErrors input t.locByAlias (t.lastKey view st) = x.errors input t.locByAlias := by
  have hl : t.lastKey view st = none := by simp [TypedDict.lastKey, hm, PartialMode.isActive]
  unfold FieldVisit.dictErrors FieldVisit.errors
  rw [hl]
  cases ho : x.outcome with
  | raised e => rfl
  | unreadable ls => exact absurd ho (hr ls)
  | validated p v r => cases r with
    | ok v => rfl
    | error e => cases e <;> simp
  | defaulted k r => cases r with
    | ok o => cases o with
      | some v => rfl
      | none => simp [hreq ⟨k, ho⟩]
    | error e => cases e <;> rfl

/-- **C19.** In partial mode only the errors of the field found through the last key are forgiven,
and only if that field is not required. -/
theorem typed_dict_forgives_only_last (input : α) (locByAlias : Bool) (lastKey : Option LocItem)
    (x : FieldVisit α) (p : LookupPath) (v : α) (ls : List (LineError α))
    (ho : x.outcome = .validated p v (.error (.lineErrors ls)))
    (hx : lastKey ≠ some (.s p.first) ∨ x.field.required = true) :
    x.dictErrors input locByAlias lastKey = x.errors input locByAlias := by
  unfold FieldVisit.dictErrors FieldVisit.errors
  rw [ho]
  dsimp only
  rw [if_neg]
  rintro ⟨h1, h2⟩
  rcases hx with hx | hx
  · exact hx h1
  · rw [hx] at h2; cases h2

example : ((Demo.typedDict .ignore).validate (.dict [("b", 1), ("c", 300)])
    { Demo.st with allowPartial := .on }).1 = .ok (.dict [("a", 1)]) := by decide

example : ((Demo.typedDict .ignore).validate (.dict [("c", 300), ("b", 1)])
    { Demo.st with allowPartial := .on }).1 =
    .error (.lineErrors [⟨.other "less_than", .list [.s "c"], .num 300⟩]) := by decide

example : ((Demo.typedDict .ignore).validate (.dict [("c", 3), ("b", 100)])
    { Demo.st with allowPartial := .on }).1 =
    .error (.lineErrors [⟨.other "less_than", .list [.s "b"], .num 100⟩]) := by decide

/-! ### C13 -/

/-- **C13.** With extra=ignore the items of the input that are not looked up have no effect. -/
theorem typed_dict_extra_ignored (t : TypedDict α) (hi : t.extra = .ignore)
    (read1 read2 : (strict : Bool) → α → ValResult α (DictView α))
    (input : α) (st : VState α) (view1 view2 : DictView α)
    (h1 : { t with asDict := read1 }.Reads input st view1)
    (h2 : { t with asDict := read2 }.Reads input st view2) (hget : view1.get = view2.get)
    (hm : st.allowPartial = .off) :
    { t with asDict := read1 }.validate input st = { t with asDict := read2 }.validate input st := by
  rw [dict_validate_eq _ _ _ _ h1, dict_validate_eq _ _ _ _ h2]
  have hl1 : { t with asDict := read1 }.lastKey view1 st = none := by
    simp [TypedDict.lastKey, hm, PartialMode.isActive]
  have hl2 : { t with asDict := read2 }.lastKey view2 st = none := by
    simp [TypedDict.lastKey, hm, PartialMode.isActive]
  rw [hl1, hl2]
  have hstep : ∀ ba bn lk s f acc,
      { t with asDict := read1 }.fieldStep view1 input ba bn lk s f acc =
      { t with asDict := read2 }.fieldStep view2 input ba bn lk s f acc := by
    intro ba bn lk s f acc
    unfold TypedDict.fieldStep
    rw [hget]
  have hloop : ∀ ba bn lk s fs acc,
      { t with asDict := read1 }.fieldLoop view1 input ba bn lk s fs acc =
      { t with asDict := read2 }.fieldLoop view2 input ba bn lk s fs acc := by
    intro ba bn lk s fs
    induction fs with
    | nil => intro acc; rfl
    | cons f fs ih =>
      intro acc
      simp only [TypedDict.fieldLoop, hstep, ih]
  rw [hloop]
  unfold TypedDict.afterFields
  simp only [hi, true_or, if_true]
  rfl

example : ((Demo.typedDict .ignore).validate (.dict [("b", 1)]) Demo.st).1 =
    ((Demo.typedDict .ignore).validate (.dict [("b", 1), ("a", 200), ("z", 3)]) Demo.st).1 := by
  decide

/-! ### C14 -/

/-- **C14, typed dicts, with the condition under which it holds:** with extra=allow the output value
of a field is the one produced for the field, if no extra key equals the field's name. -/
theorem typed_dict_field_kept_partial (t : TypedDict α) (input : α) (st : VState α)
    (view : DictView α) (entries : List (α × α)) (hv : t.Reads input st view)
    (hd : DistinctNames t.fields) (hi : t.extra = .allow) (ha : view.isPyGetAttr = false)
    (he : view.entries = .ok (entries.map .ok)) (out : α)
    (hok : (t.validate input st).1 = .ok out) (x : FieldVisit α) (hx : x ∈ (t.visits view st).1)
    (hno : ∀ y ∈ (t.extras view entries st).1, ∀ kv ∈ y.output, kv.1 ≠ x.field.name) :
    ∃ d, out = t.build d ∧ d.get x.field.name = x.output.head?.map Prod.snd := by
  obtain ⟨-, -, ⟨h | h, -⟩ | ⟨-, -, entries', he', -, -, ho⟩⟩ := dict_ok t input st view hv hd out hok
  · exact absurd hi h
  · rw [ha] at h; cases h
  · rw [he] at he'
    have hee : entries = entries' :=
      (List.map_inj_right (by intro a b h; cases h; rfl)).1 (Except.ok.inj he')
    subst hee
    refine ⟨_, ho, ?_⟩
    unfold Dict.update
    rw [Dict.get_foldl_set]
    have hnd : ((t.visits view st).1.map (·.field.name)).Nodup := by
      rw [dict_visits_names]; exact hd
    rw [get_outputs _ hnd x hx]
    have hnone : Dict.get x.field.name (dictOf
        ((t.extras view entries st).1.flatMap ExtraVisit.output)) = none := by
      rw [Dict.get_eq_none, keys_dictOf]
      intro hm
      obtain ⟨kv, hkv, hk⟩ := List.mem_map.1 hm
      obtain ⟨y, hy, hkv⟩ := List.mem_flatMap.1 hkv
      exact hno y hy kv hkv hk
    unfold dictOf at hnone
    rw [hnone]
    rfl

example : ((Demo.typedDict .allow).validate (.dict [("b", 1), ("z", 300)]) Demo.st).1 =
    .ok (.dict [("a", 1), ("z", 300)]) := by decide

/-- **C14, the code violates it for typed dicts.** Field `a` with alias `b` and validator "below
100": the extra key `a` of the input overwrites the validated value with one the validator would
reject. -/
theorem typed_dict_extra_replaces_field :
    ((Demo.typedDict .allow).validate (.dict [("b", 1), ("a", 300)]) Demo.st).1 =
      .ok (.dict [("a", 300)]) ∧
    (Demo.num (.num 300) Demo.st).1 ≠ .ok (.num 300) := by decide

end PC.Fields
