import Verif.Spec.FromAttr

/-
C112: what a model is read from.
-/

namespace PC.FromAttr
open PC PC.Fields PC.Lookup

variable {α : Type}

theorem applicable_iff (K : Kinds α) (obj : α) : applicable K obj = true ↔ OwnModule K obj := by
  unfold applicable OwnModule
  cases K.module obj with
  | none => simp
  | some m =>
    simp only [Option.some.injEq, exists_eq_left', List.mem_cons, List.not_mem_nil, or_false, not_or]
    by_cases h1 : m = "builtins" <;> by_cases h2 : m = "datetime" <;> by_cases h3 : m = "collections" <;>
      simp [h1, h2, h3]

/-- **C112**: a model is read from a dict, a mapping, attributes, or a pair, exactly as the table says. -/
theorem read_as_iff (K : Kinds α) (strict fromAttributes : Bool) (input : α) (r : Reading α) :
    readFields K strict fromAttributes input = .ok r ↔ ReadAs K strict fromAttributes input r := by
  unfold readFields validateDict byAttributes
  constructor
  · intro h
    cases hfa : fromAttributes with
    | false =>
      rw [hfa] at h
      simp only [Bool.false_eq_true, if_false] at h
      by_cases hd : K.isDict input = true
      · rw [if_pos hd] at h; cases h; exact .dict hd
      · rw [if_neg hd] at h
        rw [Bool.not_eq_true] at hd
        cases strict with
        | true => simp at h
        | false =>
          simp only [Bool.false_eq_true, if_false] at h
          by_cases hm : K.isMapping input = true
          · rw [if_pos hm] at h; cases h; exact .mapping hd rfl hm
          · rw [if_neg hm] at h; cases h
    | true =>
      rw [hfa] at h
      simp only [if_true] at h
      by_cases hd : K.isDict input = true
      · rw [if_pos hd] at h; cases h; exact .dict hd
      · rw [if_neg hd] at h
        rw [Bool.not_eq_true] at hd
        by_cases hm : (!strict && K.isMapping input) = true
        · rw [if_pos hm] at h
          cases h
          simp only [Bool.and_eq_true, Bool.not_eq_true'] at hm
          exact .mapping hd hm.1 hm.2
        · rw [if_neg hm] at h
          have hsm : strict = true ∨ K.isMapping input = false := by
            revert hm; cases strict <;> cases K.isMapping input <;> simp
          by_cases ha : applicable K input = true
          · rw [if_pos ha] at h
            cases h
            exact .attributes rfl hd hsm ((applicable_iff ..).1 ha)
          · rw [if_neg ha] at h
            cases hp : K.pair input with
            | none => rw [hp] at h; cases h
            | some p =>
              obtain ⟨obj, kwargs⟩ := p
              rw [hp] at h
              dsimp only at h
              by_cases ho : applicable K obj = true
              · rw [if_pos ho] at h
                cases h
                exact .pair rfl hd hsm (fun h => ha ((applicable_iff ..).2 h)) hp ((applicable_iff ..).1 ho)
              · rw [if_neg ho] at h; cases h
  · intro h
    cases h with
    | dict hd => simp [hd]
    | mapping hd hs hm => simp [hd, hs, hm]
    | attributes hf hd hsm ha =>
      rw [← applicable_iff] at ha
      rcases hsm with h | h <;> simp [hf, hd, h, ha]
    | pair hf hd hsm hn hp ha =>
      rw [← applicable_iff] at ha hn
      rw [Bool.not_eq_true] at hn
      rcases hsm with h | h <;> simp [hf, hd, h, ha, hn, hp]

/-- **C112**: what cannot be read is refused with one error for the input, which names attributes exactly if they
were allowed. -/
theorem not_read_error (K : Kinds α) (strict fromAttributes : Bool) (input : α)
    (h : ∀ r, ¬ ReadAs K strict fromAttributes input r) :
    readFields K strict fromAttributes input =
      .error (.new (.other (if fromAttributes then "model_attributes_type" else "dict_type")) input) := by
  have h' : ∀ r, readFields K strict fromAttributes input ≠ .ok r := fun r hr => h r ((read_as_iff ..).1 hr)
  revert h'
  unfold readFields validateDict byAttributes
  clear h
  intro h
  cases fromAttributes <;> cases hd : K.isDict input <;> cases strict <;> cases hm : K.isMapping input <;>
    cases ha : applicable K input <;> cases hp : K.pair input <;> simp_all
  all_goals
    rename_i p
    obtain ⟨obj, kwargs⟩ := p
    cases ho : applicable K obj <;> simp_all

/-- **C112**: without `from_attributes`, strict mode only refuses. -/
theorem strict_only_refuses_partial (K : Kinds α) : StrictOnlyRefuses K false := by
  intro input r h
  rw [read_as_iff] at h ⊢
  cases h with
  | dict hd => exact .dict hd
  | mapping _ hs => cases hs
  | attributes hf => cases hf
  | pair hf => cases hf

theorem fieldLoop_extra (m : ModelFields α) (b : ExtraBehavior) (view : DictView α) (input : α) (a n : Bool) :
    ∀ (fs : List (Field α)) (acc : FAcc α),
      ({ m with extra := b } : ModelFields α).fieldLoop view input a n fs acc = m.fieldLoop view input a n fs acc := by
  intro fs
  induction fs with
  | nil => intro acc; rfl
  | cons f fs ih =>
    intro acc
    unfold ModelFields.fieldLoop
    have e : ({ m with extra := b } : ModelFields α).fieldStep view input a n f acc = m.fieldStep view input a n f acc := rfl
    simp only [e, ih]

theorem validate_of_view (m : ModelFields α) (input : α) (st : VState α) (view : DictView α)
    (h : m.asFields (st.strictOr m.strict) (st.extra.fromAttributes.getD m.fromAttributes) input = .ok view) :
    m.validate input st =
      m.afterFields view (m.fieldLoop view input
        (({ st with allowPartial := .ofBool false } : VState α).validateByAliasOr m.byAlias)
        (({ st with allowPartial := .ofBool false } : VState α).validateByNameOr m.byName) m.fields
        ⟨[], [], [], 0, [], { st with allowPartial := .ofBool false }⟩) := by
  unfold ModelFields.validate
  have hs : ({ st with allowPartial := .ofBool false } : VState α).strictOr m.strict = st.strictOr m.strict := rfl
  dsimp only
  rw [hs, h]

/-- **C112**: a model read from attributes has no extra items: with `extra='forbid'` and `'allow'` it accepts, refuses
and returns what it does with `'ignore'`, whatever other attributes the object has. -/
theorem attributes_give_no_extras (K : Kinds α) (V : Views α) (m : ModelFields α) (hm : m.asFields = asFields K V)
    (input : α) (st : VState α) (obj : α) (kwargs : Option α)
    (hr : ReadAs K (st.strictOr m.strict) (st.extra.fromAttributes.getD m.fromAttributes) input (.getAttr obj kwargs)) :
    m.validate input st = withoutExtras m.extra (({ m with extra := .ignore } : ModelFields α).validate input st) := by
  have hr := (read_as_iff ..).2 hr
  have hv : m.asFields (st.strictOr m.strict) (st.extra.fromAttributes.getD m.fromAttributes) input =
      .ok (V.attrView obj kwargs) := by
    rw [hm]; unfold asFields; rw [hr]; rfl
  rw [validate_of_view m input st _ hv, validate_of_view { m with extra := .ignore } input st _ hv]
  have e := fieldLoop_extra m .ignore (V.attrView obj kwargs) input
    (({ st with allowPartial := .ofBool false } : VState α).validateByAliasOr m.byAlias)
    (({ st with allowPartial := .ofBool false } : VState α).validateByNameOr m.byName) m.fields
    ⟨[], [], [], 0, [], { st with allowPartial := .ofBool false }⟩
  dsimp only at e ⊢
  rw [e]
  generalize ModelFields.fieldLoop m _ _ _ _ _ _ = r
  unfold ModelFields.afterFields
  have hg : (V.attrView obj kwargs).isPyGetAttr = true := rfl
  cases h1 : r.1 with
  | error e => rfl
  | ok u =>
    dsimp only
    rw [if_pos (Or.inr hg), if_pos (Or.inl rfl)]
    unfold ModelFields.finish
    cases h2 : r.2.errs.isEmpty with
    | false => rfl
    | true =>
      simp only [if_true, withoutExtras]
      cases m.extra <;> simp

/-- **C112**: the model refuses what cannot be read as `model_type`, or `model_attributes_type` if attributes were
allowed. -/
theorem not_read_model_error (K : Kinds α) (V : Views α) (m : ModelFields α) (hm : m.asFields = asFields K V)
    (input : α) (st : VState α)
    (h : ∀ r, ¬ ReadAs K (st.strictOr m.strict) (st.extra.fromAttributes.getD m.fromAttributes) input r) :
    (m.validate input st).1 =
      .error (.new (.other (if st.extra.fromAttributes.getD m.fromAttributes then "model_attributes_type"
        else "model_type")) input) := by
  have hr := not_read_error K _ _ input h
  have hv : m.asFields (st.strictOr m.strict) (st.extra.fromAttributes.getD m.fromAttributes) input =
      .error (.new (.other (if st.extra.fromAttributes.getD m.fromAttributes then "model_attributes_type"
        else "dict_type")) input) := by
    rw [hm]; unfold asFields; rw [hr]
  unfold ModelFields.validate
  have hs : ({ st with allowPartial := .ofBool false } : VState α).strictOr m.strict = st.strictOr m.strict := rfl
  dsimp only
  rw [hs, hv]
  dsimp only
  cases st.extra.fromAttributes.getD m.fromAttributes <;> simp [toModelType, ValError.new, LineError.new]

/-- **C112**: a field of a pair is taken from the dict if it is there, and else from the attributes; a dict whose
lookup fails does not count. -/
theorem pair_prefers_dict (V : Views α) (obj kwargs : α) (key : LookupKey) :
    (∀ x, key.pyGetDictItem V.ops (V.item kwargs) = .ok (some x) → (V.attrView obj (some kwargs)).get key = .ok (some x)) ∧
    ((∀ x, key.pyGetDictItem V.ops (V.item kwargs) ≠ .ok (some x)) →
      (V.attrView obj (some kwargs)).get key = (V.attrView obj none).get key) := by
  unfold Views.attrView LookupKey.pyGetAttr
  dsimp only [Option.map]
  constructor
  · intro x h; rw [h]
  · intro h
    cases hk : key.pyGetDictItem V.ops (V.item kwargs) with
    | error e => rfl
    | ok o =>
      cases o with
      | none => rfl
      | some x => exact absurd hk (h x)

/-! ### Witnesses -/

/-- Objects: a dict, a mapping of an own class, an object of an own class, one of `datetime`, a pair. -/
inductive Toy where
  | dict
  | mapping
  | own
  | date
  | pair
  deriving DecidableEq

def toyKinds : Kinds Toy where
  isDict := (· == .dict)
  isMapping x := x == .dict || x == .mapping
  module
    | .mapping => some "app"
    | .own => some "app"
    | .date => some "datetime"
    | _ => some "builtins"
  pair
    | .pair => some (.own, .dict)
    | _ => none

/-- False with `from_attributes`: a mapping of an own class is read by its items in lax mode and by its attributes in
strict mode. -/
theorem strict_reads_mapping_by_attributes :
    readFields toyKinds false true .mapping = .ok (.mapping .mapping) ∧
    readFields toyKinds true true .mapping = .ok (.getAttr .mapping none) ∧
    ¬ StrictOnlyRefuses toyKinds true := by
  refine ⟨rfl, rfl, ?_⟩
  intro h
  have := h .mapping _ rfl
  cases this

example : ReadAs toyKinds false true .pair (.getAttr .own (some .dict)) := (read_as_iff ..).1 rfl

example : readFields toyKinds false true .date = .error (.new (.other "model_attributes_type") .date) := rfl

/-- Every object of an own class has the attributes `a` and `b`, every dict is empty. -/
def toyViews : Views Toy where
  ops := { isStr := fun _ => false, isDict := (· == .dict), getItem := fun _ _ => none,
           getAttr := fun x n => .ok (if x == .own && (n = "a" || n = "b") then some .date else none) }
  dict _ := ⟨fun _ => .ok none, false, .ok [], none⟩
  mapping _ := ⟨fun _ => .ok none, false, .ok [], none⟩
  item _ _ := .ok none
  attributes _ := .ok [.ok (.dict, .date), .ok (.dict, .date)]

/-- A model of one field `a`, whose extra items are treated as said. -/
def toyModel (b : ExtraBehavior) (fromAttributes : Bool) : ModelFields Toy where
  fields := [⟨"a", ⟨.simple ⟨"a", []⟩, none, none⟩, fun x st => (.ok x, st), fun _ st => (.ok none, st), false, true⟩]
  extra := b
  extrasV := none
  extrasKeysV := none
  strict := false
  fromAttributes := fromAttributes
  locByAlias := true
  byAlias := none
  byName := none
  asFields := asFields toyKinds toyViews
  keyOps := ⟨fun _ => .ok "b", fun _ => .s "b", fun _ => some "b"⟩

def toySt : VState Toy := .new {} .init .off

example : ReadAs toyKinds (toySt.strictOr false) (toySt.extra.fromAttributes.getD true) .own (.getAttr .own none) :=
  (read_as_iff ..).1 rfl

/-- An object with one attribute too many is not forbidden. -/
theorem forbid_not_enforced :
    ((toyModel .forbid true).validate .own toySt).1 = .ok ⟨[("a", .date)], none, ["a"]⟩ ∧
    ((toyModel .allow true).validate .own toySt).1 = .ok ⟨[("a", .date)], some [], ["a"]⟩ := ⟨rfl, rfl⟩

example : ((toyModel .ignore true).validate .date toySt).1 = .error (.new (.other "model_attributes_type") .date) := rfl

example : ((toyModel .ignore false).validate .own toySt).1 = .error (.new (.other "model_type") .own) := rfl

example : ∀ r, ¬ ReadAs toyKinds (toySt.strictOr false) (toySt.extra.fromAttributes.getD true) .date r := by
  intro r h
  have h := (read_as_iff ..).2 h
  cases h

example : (toyViews.attrView .own (some .dict)).get (.simple ⟨"a", []⟩) = .ok (some (⟨"a", []⟩, .date)) := rfl

end PC.FromAttr
