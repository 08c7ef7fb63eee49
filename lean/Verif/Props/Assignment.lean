import Verif.Props.Models

/-
C15: assignment to an attribute of a model instance (`ModelValidator::validate_assignment`,
`ModelFieldsValidator::validate_assignment`).
-/

namespace PC.Fields
open PC.Lookup
variable {α : Type}

/-! ### Helpers -/

theorem splitExtra_get (k : String) : ∀ (fs : List (Field α)) (newData nonExtra : Dict α),
    (splitExtra fs newData nonExtra).1.get k =
        (if k ∈ fs.map Field.name then none else newData.get k) ∧
    (splitExtra fs newData nonExtra).2.get k =
        (if k ∈ fs.map Field.name then (newData.get k).or (nonExtra.get k) else nonExtra.get k)
  | [], newData, nonExtra => by simp [splitExtra]
  | f :: fs, newData, nonExtra => by
    simp only [splitExtra]
    cases hg : Dict.get f.name newData with
    | none =>
      dsimp only
      obtain ⟨h1, h2⟩ := splitExtra_get k fs newData nonExtra
      rw [h1, h2]
      by_cases hk : k = f.name
      · subst hk; simp [hg]
      · simp [hk]
    | some v =>
      dsimp only
      obtain ⟨h1, h2⟩ := splitExtra_get k fs (Dict.del f.name newData) (Dict.set f.name v nonExtra)
      rw [h1, h2, Dict.get_del, Dict.get_set]
      by_cases hk : k = f.name
      · subst hk; simp [hg]
      · have hk' : f.name ≠ k := fun h => hk h.symm
        simp [hk, hk']

theorem mem_addAll (s names : List String) (n : String) :
    n ∈ addAll s names ↔ n ∈ s ∨ n ∈ names := by
  unfold addAll
  induction names generalizing s with
  | nil => simp
  | cons a names ih =>
    simp only [List.foldl_cons, ih, List.mem_cons]
    by_cases h : s.contains a = true
    · rw [if_pos h]
      have ha : a ∈ s := by simpa using h
      constructor
      · rintro (h | h)
        · exact .inl h
        · exact .inr (.inr h)
      · rintro (h | rfl | h)
        · exact .inl h
        · exact .inl ha
        · exact .inr h
    · rw [if_neg h]
      simp only [List.mem_append, List.mem_singleton]
      constructor
      · rintro ((h | h) | h)
        · exact .inl h
        · exact .inr (.inl h)
        · exact .inr (.inr h)
      · rintro (h | h | h)
        · exact .inl (.inl h)
        · exact .inl (.inr h)
        · exact .inr h

/-- What `assign` succeeds with. -/
theorem assign_ok (m : ModelFields α) (dict : Dict α) (name : String) (value : α) (st : VState α)
    (d : Dict α) (h : (m.assign dict name value st).1 = .ok d) :
    ∃ v, d = dict.set name v ∧
      ((∃ f ∈ m.fields, f.name = name ∧ f.frozen = false ∧
        (f.run value { st with extra := { st.extra with
          data := some (dict.del name), fieldName := some name } }).1 = .ok v) ∨
      ((∀ f ∈ m.fields, f.name ≠ name) ∧ m.extra = .allow ∧
        match m.extrasV with
        | some x =>
          (x value { st with extra := { st.extra with data := some (dict.del name) } }).1 = .ok v
        | none => v = value)) := by
  unfold ModelFields.assign at h
  have hprep : ∀ r, prepareResult dict name r = .ok d → ∃ v, r = .ok v ∧ d = dict.set name v := by
    intro r hr
    cases r with
    | ok v => cases hr; exact ⟨v, rfl, rfl⟩
    | error e => cases e <;> cases hr
  cases hf : m.fields.find? (fun f => f.name = name) with
  | some f =>
    rw [hf] at h
    dsimp only at h
    have hfm := List.mem_of_find?_eq_some hf
    have hfn : f.name = name := by simpa using List.find?_some hf
    cases hfr : f.frozen with
    | true => rw [hfr] at h; cases h
    | false =>
      rw [hfr] at h
      simp only [Bool.false_eq_true, if_false, rebindExtra, hfn] at h
      obtain ⟨v, hv, hd⟩ := hprep _ h
      exact ⟨v, hd, .inl ⟨f, hfm, hfn, hfr, hv⟩⟩
  | none =>
    rw [hf] at h
    dsimp only at h
    have hno : ∀ f ∈ m.fields, f.name ≠ name := by
      intro f hf'
      have := List.find?_eq_none.1 hf f hf'
      simpa using this
    cases he : m.extra with
    | allow =>
      rw [he] at h
      dsimp only at h
      cases hx : m.extrasV with
      | some x =>
        rw [hx] at h
        simp only [rebindExtra] at h
        obtain ⟨v, hv, hd⟩ := hprep _ h
        exact ⟨v, hd, .inr ⟨hno, rfl, hv⟩⟩
      | none =>
        rw [hx] at h
        cases h
        exact ⟨value, rfl, .inr ⟨hno, rfl, rfl⟩⟩
    | forbid => rw [he] at h; cases h
    | ignore => rw [he] at h; cases h

/-! ### C15 -/

/-- **C15, atomicity.** An assignment that fails leaves the instance exactly as it was. -/
theorem assignment_atomic (m : Model α) (inst : Instance α) (name : String) (value : α)
    (st : VState α) (e : ValError α) (h : (m.validateAssignment inst name value st).1 = .error e) :
    (m.validateAssignment inst name value st).2.1 = inst := by
  unfold Model.validateAssignment at h ⊢
  split at h
  · simp [*]
  · rename_i hfr
    rw [if_neg hfr]
    split at h
    · split at h
      · simp [*]
      · rename_i hn
        rw [if_neg hn]
        dsimp only at h ⊢
        split at h
        · simp [*]
        · cases h
    · dsimp only at h ⊢
      split at h
      · simp [*]
      · cases h

/-- The demo model (fields `a`, `c`; extras kept) as a class, and an instance of it. -/
def Demo.cls : Model Demo.V := ⟨Demo.model .allow, none, false⟩
def Demo.inst : Instance Demo.V :=
  ⟨[("a", .num 1), ("c", .num 7)], some [("z", .num 3)], ["a", "z"]⟩

example : (Demo.cls.validateAssignment Demo.inst "a" (.num 300) Demo.st).1 =
    .error (.lineErrors [⟨.other "less_than", .list [.s "a"], .num 300⟩]) := by decide

/-- **C15.** A frozen model rejects every assignment. -/
theorem frozen_model_rejects (m : Model α) (hf : m.frozen = true) (inst : Instance α)
    (name : String) (value : α) (st : VState α) :
    m.validateAssignment inst name value st =
      (.error (.lineErrors [⟨.frozenInstance, .empty, value⟩]), inst, st) := by
  unfold Model.validateAssignment
  rw [if_pos hf]
  rfl

/-- **C15.** A frozen field rejects every assignment. -/
theorem frozen_field_rejects (m : Model α) (hr : m.root = none) (hm : m.frozen = false)
    (hd : DistinctNames m.fields.fields) (f : Field α) (hf : f ∈ m.fields.fields)
    (hfr : f.frozen = true) (inst : Instance α) (value : α) (st : VState α) :
    m.validateAssignment inst f.name value st =
      (.error (.lineErrors [⟨.frozenField, .list [.s f.name], value⟩]), inst, st) := by
  have hfind : m.fields.fields.find? (fun g => g.name = f.name) = some f := by
    unfold DistinctNames at hd
    revert hd hf
    generalize m.fields.fields = fs
    intro hd hf
    induction fs with
    | nil => cases hf
    | cons g fs ih =>
      simp only [List.map_cons, List.nodup_cons] at hd
      rcases List.mem_cons.1 hf with rfl | hf
      · simp
      · have hne : g.name ≠ f.name := fun h => hd.1 (h ▸ List.mem_map.2 ⟨f, hf, rfl⟩)
        rw [List.find?_cons_of_neg (by simpa using hne)]
        exact ih hd.2 hf
  unfold Model.validateAssignment
  rw [if_neg (by simp [hm]), hr]
  simp only [ModelFields.validateAssignment, ModelFields.assign, hfind, hfr, if_true]
  rfl

/-- **C15.** A name that is neither a field nor allowed as an extra is rejected. -/
theorem unknown_attribute_rejects (m : Model α) (hr : m.root = none) (hm : m.frozen = false)
    (he : m.fields.extra ≠ .allow) (name : String) (hn : ∀ f ∈ m.fields.fields, f.name ≠ name)
    (inst : Instance α) (value : α) (st : VState α) :
    m.validateAssignment inst name value st =
      (.error (.lineErrors [⟨.noSuchAttribute name, .list [.s name], value⟩]), inst, st) := by
  have hfind : m.fields.fields.find? (fun g => g.name = name) = none := by
    rw [List.find?_eq_none]
    intro f hf
    simpa using hn f hf
  unfold Model.validateAssignment
  rw [if_neg (by simp [hm]), hr]
  simp only [ModelFields.validateAssignment, ModelFields.assign, hfind]
  cases hx : m.fields.extra with
  | allow => exact absurd hx he
  | forbid => rfl
  | ignore => rfl

example : (⟨Demo.model .ignore, none, false⟩ : Model Demo.V).validateAssignment Demo.inst "y"
    (.num 1) Demo.st =
    (.error (.lineErrors [⟨.noSuchAttribute "y", .list [.s "y"], .num 1⟩]), Demo.inst, Demo.st) := by
  decide

/-- The fields and extras of an instance do not overlap, and `__dict__` holds fields only. -/
def Instance.Tidy (m : ModelFields α) (inst : Instance α) : Prop :=
  (∀ k ∈ inst.dict.map Prod.fst, k ∈ m.fields.map Field.name) ∧
  (∀ k ∈ (inst.extra.getD []).map Prod.fst, k ∉ m.fields.map Field.name)

/-- All the instance's data: the field or extra called `k`. -/
def Instance.value (inst : Instance α) (k : String) : Option α :=
  (inst.dict.get k).or ((inst.extra.getD []).get k)

/-- **C15, what a successful assignment does.**  With extras kept, on an instance whose extras do not
collide with field names: the assigned name gets the validated value, every other field and every
other extra keeps its value, and exactly the assigned name is added to the fields-set. -/
theorem assignment_touches_one_partial (m : Model α) (hr : m.root = none)
    (ha : m.fields.extra = .allow) (inst : Instance α) (extra : Dict α)
    (hx : inst.extra = some extra) (hu : (extra.map Prod.fst).Nodup)
    (ht : inst.Tidy m.fields) (name : String) (value : α) (st : VState α)
    (h : (m.validateAssignment inst name value st).1 = .ok ()) :
    ∃ v extra', (m.validateAssignment inst name value st).2.1.extra = some extra' ∧
      (m.validateAssignment inst name value st).2.1.value name = some v ∧
      ((∃ f ∈ m.fields.fields, f.name = name ∧ ∃ st0, (f.run value st0).1 = .ok v) ∨
        (∀ f ∈ m.fields.fields, f.name ≠ name) ∧ match m.fields.extrasV with
          | some x => ∃ st0, (x value st0).1 = .ok v
          | none => v = value) ∧
      (∀ k, k ≠ name → (m.validateAssignment inst name value st).2.1.dict.get k = inst.dict.get k) ∧
      (∀ k, k ≠ name → extra'.get k = extra.get k) ∧
      (∀ n, n ∈ (m.validateAssignment inst name value st).2.1.fieldsSet ↔
        n ∈ inst.fieldsSet ∨ n = name) := by
  unfold Model.validateAssignment at h ⊢
  cases hfr : m.frozen with
  | true => rw [hfr] at h; cases h
  | false =>
    simp only [hfr, Bool.false_eq_true, if_false, hr, hx, ModelFields.validateAssignment] at h ⊢
    cases has : (m.fields.assign (Dict.set name value (Dict.update inst.dict extra)) name value
        st).1 with
    | error e => simp [has] at h
    | ok d =>
      simp only [ha]
      obtain ⟨v, hd, hv⟩ := assign_ok _ _ _ _ _ _ has
      have hget : ∀ k, d.get k = if name = k then some v else
          (extra.get k).or (inst.dict.get k) := by
        intro k
        rw [hd, Dict.get_set, Dict.get_set]
        by_cases hk : name = k
        · simp [hk]
        · simp only [if_neg hk]
          unfold Dict.update
          rw [Dict.get_foldl_set]
          have : List.foldl (fun d kv => Dict.set kv.1 kv.2 d) [] extra = extra := dictOf_nodup hu
          rw [this]
      have hs := fun k => splitExtra_get k m.fields.fields d ([] : Dict α)
      refine ⟨v, (splitExtra m.fields.fields d []).1, rfl, ?_, ?_, ?_, ?_, ?_⟩
      · simp only [Instance.value, Option.getD_some]
        rw [(hs name).1, (hs name).2, hget name]
        by_cases hn : name ∈ m.fields.fields.map Field.name <;> simp [hn, Dict.get]
      · rcases hv with ⟨f, hf, hfn, -, hrun⟩ | ⟨hno, -, hrun⟩
        · exact .inl ⟨f, hf, hfn, _, hrun⟩
        · refine .inr ⟨hno, ?_⟩
          cases hxv : m.fields.extrasV with
          | some x => rw [hxv] at hrun; exact ⟨_, hrun⟩
          | none => rw [hxv] at hrun; exact hrun
      · intro k hk
        rw [(hs k).2, hget k, if_neg (Ne.symm hk)]
        by_cases hn : k ∈ m.fields.fields.map Field.name
        · rw [if_pos hn]
          have : extra.get k = none := by
            rw [Dict.get_eq_none]
            intro hmem
            exact ht.2 k (by rw [hx]; exact hmem) hn
          rw [this]
          simp [Dict.get]
        · rw [if_neg hn]
          have : inst.dict.get k = none := by
            rw [Dict.get_eq_none]
            intro hmem
            exact hn (ht.1 k hmem)
          rw [this]; rfl
      · intro k hk
        rw [(hs k).1, hget k, if_neg (Ne.symm hk)]
        by_cases hn : k ∈ m.fields.fields.map Field.name
        · rw [if_pos hn]
          symm
          rw [Dict.get_eq_none]
          intro hmem
          exact ht.2 k (by rw [hx]; exact hmem) hn
        · rw [if_neg hn]
          have : inst.dict.get k = none := by
            rw [Dict.get_eq_none]
            intro hmem
            exact hn (ht.1 k hmem)
          rw [this]
          simp
      · intro n
        rw [mem_addAll]
        simp

example : Demo.inst.Tidy (Demo.model .allow) := by
  constructor <;> decide

example : (Demo.cls.validateAssignment Demo.inst "c" (.num 9) Demo.st).1 = .ok () ∧
    (Demo.cls.validateAssignment Demo.inst "c" (.num 9) Demo.st).2.1 =
      ⟨[("a", .num 1), ("c", .num 9)], some [("z", .num 3)], ["a", "z", "c"]⟩ := by decide

/-- **C15.** The same without extras: whatever `__dict__` holds, only the assigned field changes. -/
theorem assignment_touches_one (m : Model α) (hr : m.root = none)
    (ha : m.fields.extra ≠ .allow) (inst : Instance α) (hx : inst.extra = none)
    (name : String) (value : α) (st : VState α)
    (h : (m.validateAssignment inst name value st).1 = .ok ()) :
    ∃ f ∈ m.fields.fields, f.name = name ∧ f.frozen = false ∧ ∃ v data st0,
      (∀ k, Dict.get k data = if k = name then none else inst.dict.get k) ∧
      st0 = { st with extra := { st.extra with data := some data, fieldName := some name } } ∧
      (f.run value st0).1 = .ok v ∧
      (m.validateAssignment inst name value st).2.1.dict.get name = some v ∧
      (∀ k, k ≠ name → (m.validateAssignment inst name value st).2.1.dict.get k = inst.dict.get k) ∧
      (m.validateAssignment inst name value st).2.1.extra = none ∧
      (∀ n, n ∈ (m.validateAssignment inst name value st).2.1.fieldsSet ↔
        n ∈ inst.fieldsSet ∨ n = name) := by
  unfold Model.validateAssignment at h ⊢
  cases hfr : m.frozen with
  | true => rw [hfr] at h; cases h
  | false =>
    simp only [hfr, Bool.false_eq_true, if_false, hr, hx, ModelFields.validateAssignment] at h ⊢
    cases has : (m.fields.assign (Dict.set name value inst.dict) name value st).1 with
    | error e => simp [has] at h
    | ok d =>
      obtain ⟨v, hd, hv⟩ := assign_ok _ _ _ _ _ _ has
      rcases hv with ⟨f, hf, hfn, hff, hrun⟩ | ⟨-, hal, -⟩
      · refine ⟨f, hf, hfn, hff, v, _, _, ?_, rfl, hrun, ?_⟩
        · intro k
          rw [Dict.get_del, Dict.get_set]
          by_cases hk : name = k
          · simp [hk]
          · simp [hk, Ne.symm hk]
        · refine ⟨?_, ?_, rfl, ?_⟩
          · rw [hd, Dict.get_set]; simp
          · intro k hk
            rw [hd, Dict.get_set, Dict.get_set]
            simp [Ne.symm hk]
          · intro n
            rw [mem_addAll]; simp
      · exact absurd hal ha

example : ((⟨Demo.model .forbid, none, false⟩ : Model Demo.V).validateAssignment
    { Demo.inst with extra := none } "c" (.num 9) Demo.st).1 = .ok () := by decide

/-- **C15, the code violates it.** When an extra has the name of a field (input `{b: 1, a: 300}` for
field `a` with alias `b`), assigning *another* field replaces the field's validated value by the
extra and drops the extra. -/
theorem assignment_touches_others :
    ((Demo.model .allow).validate (.dict [("b", 1), ("a", 300)]) Demo.st).1 =
      .ok ⟨[("a", .num 1), ("c", .num 7)], some [("a", .num 300)], ["a", "a"]⟩ ∧
    (Demo.cls.validateAssignment ⟨[("a", .num 1), ("c", .num 7)], some [("a", .num 300)], ["a"]⟩
      "c" (.num 9) Demo.st).1 = .ok () ∧
    (Demo.cls.validateAssignment ⟨[("a", .num 1), ("c", .num 7)], some [("a", .num 300)], ["a"]⟩
      "c" (.num 9) Demo.st).2.1 =
      ⟨[("a", .num 300), ("c", .num 9)], some [], ["a", "c"]⟩ := by decide

/-- **C15, the code violates it.** An entry of `__dict__` that is not a field (a cached property, say)
is turned into an extra by assigning a field of a model that keeps extras. -/
theorem assignment_moves_to_extra :
    (Demo.cls.validateAssignment
      ⟨[("a", .num 1), ("c", .num 7), ("cached", .num 5)], some [], ["a"]⟩
      "c" (.num 9) Demo.st).2.1 =
      ⟨[("a", .num 1), ("c", .num 9)], some [("cached", .num 5)], ["a", "c"]⟩ := by decide

/-- **C15, root models.** Only `root` can be assigned; the rest of the instance is untouched, also the
fields-set (which does not gain `root`). -/
theorem root_assignment (m : Model α) (root : Validator α α) (hr : m.root = some root)
    (inst : Instance α) (name : String) (value : α) (st : VState α)
    (h : (m.validateAssignment inst name value st).1 = .ok ()) :
    name = "root" ∧ m.frozen = false ∧ ∃ v,
      (root value { st with extra := { st.extra with fieldName := some "root" } }).1 = .ok v ∧
      (m.validateAssignment inst name value st).2.1 =
        { inst with dict := inst.dict.set "root" v } := by
  unfold Model.validateAssignment at h ⊢
  cases hfr : m.frozen with
  | true => rw [hfr] at h; cases h
  | false =>
    simp only [hfr, Bool.false_eq_true, if_false, hr] at h ⊢
    by_cases hn : name = "root"
    · subst hn
      simp only [ne_eq, not_true, if_false, rebindExtra] at h ⊢
      refine ⟨trivial, trivial, ?_⟩
      cases hv : (root value { st with extra := { st.extra with fieldName := some "root" } }).1 with
      | ok v => exact ⟨v, rfl, rfl⟩
      | error e => simp [hv] at h
    · simp [hn] at h

example : ((⟨Demo.model .ignore, some Demo.num, false⟩ : Model Demo.V).validateAssignment
    ⟨[("root", .num 1)], none, []⟩ "root" (.num 9) Demo.st).1 = .ok () := by decide

end PC.Fields
