import Verif.Lemmas.Definitions

/-
C30: every definition reference resolves.  The specification (`refsOf`, `defsOf`, `fails`, `Matches`,
`refsIn`) is at the head of `Verif/Lemmas/Definitions.lean`.
-/

namespace PC.Defs

/-- The names defined in a schema, with repetitions. -/
def definedNames (s : Sch) : List String := (defsOf s).map (·.1)

/-- A reference of a validator, in its root or in one of its definitions. -/
def UsesRef (sv : Validator) (d : DefRef) : Prop :=
  d ∈ refsIn sv.root ∨ ∃ s ∈ sv.definitions, ∃ v, s.value = some v ∧ d ∈ refsIn v

theorem validator_cases (s : Sch) :
    (∃ sv, schemaValidator s = .ok sv ∧ fails s = false ∧ Inv ⟨sv.definitions⟩ (refsOf s) (defsOf s) ∧
      Matches s sv.root ∧ (∀ d ∈ refsIn sv.root, ∃ t ∈ sv.definitions, t.key = d) ∧
      (∀ t ∈ sv.definitions, t.value ≠ none)) ∨
    (schemaValidator s = .error .other ∧ fails s = true) ∨
    (∃ r, schemaValidator s = .error (.duplicate r) ∧ Twice r (definedNames s)) ∨
    (∃ r, schemaValidator s = .error (.neverFilled r) ∧ r ∈ refsOf s ∧ r ∉ definedNames s) := by
  rcases build_inv s ⟨[]⟩ [] [] inv_empty with ⟨v, b', he, hf, hi, hx, hm, hr⟩ | ⟨he, hf⟩ | ⟨r, he, hr⟩
  · simp only [List.nil_append] at hi
    simp only [schemaValidator, he, Builder.finish]
    cases hfind : b'.slots.find? (fun s => s.value.isNone) with
    | none =>
      refine .inl ⟨_, rfl, hf, hi, hm, hr, ?_⟩
      intro t ht hn
      have := List.find?_eq_none.1 hfind t ht
      simp [hn] at this
    | some t =>
      have ht := List.mem_of_find?_eq_some hfind
      have hn := List.find?_some hfind
      obtain ⟨h1, h2⟩ := hi.empty t ht (by simpa using hn)
      exact .inr (.inr (.inr ⟨_, rfl, h2, h1⟩))
  · exact .inr (.inl ⟨by simp only [schemaValidator, he], hf⟩)
  · exact .inr (.inr (.inl ⟨r, by simp only [schemaValidator, he], by simpa [definedNames] using hr⟩))

/-- C30. A schema can be built exactly when nothing else is wrong with it, no name is defined twice, and
every reference used in it, anywhere and in any order, is defined in it. -/
theorem builds_iff (s : Sch) :
    (∃ sv, schemaValidator s = .ok sv) ↔
      (fails s = false ∧ (definedNames s).Nodup ∧ ∀ r ∈ refsOf s, r ∈ definedNames s) := by
  rcases validator_cases s with ⟨sv, he, hf, hi, _, _, hfull⟩ | ⟨he, hf⟩ | ⟨r, he, hr⟩ | ⟨r, he, hr, hd⟩
  · refine ⟨fun _ => ⟨hf, hi.nodup, ?_⟩, fun _ => ⟨sv, he⟩⟩
    intro r hr
    obtain ⟨t, ht, rfl⟩ := hi.refs r hr
    cases hv : t.value with
    | none => exact absurd hv (hfull t ht)
    | some v =>
      obtain ⟨⟨sch, hmem, _⟩, _⟩ := hi.filled t ht v hv
      exact List.mem_map.2 ⟨_, hmem, rfl⟩
  · constructor
    · rintro ⟨sv, h⟩; rw [he] at h; cases h
    · rintro ⟨h, _⟩; rw [hf] at h; cases h
  · constructor
    · rintro ⟨sv, h⟩; rw [he] at h; cases h
    · rintro ⟨_, h, _⟩; exact absurd h hr.not_nodup
  · constructor
    · rintro ⟨sv, h⟩; rw [he] at h; cases h
    · rintro ⟨_, _, h⟩; exact absurd (h r hr) hd

/-- A recursive list `A = [B, A]`, `B` defined after its use and inside the main schema. -/
def sample : Sch :=
  .defs (.cons "A" (.node (.cons (.ref "B") (.cons (.ref "A") .nil))) .nil)
    (.node (.cons (.ref "A") (.cons (.defs (.cons "B" (.leaf 7) .nil) (.ref "B")) .nil)))

example : fails sample = false ∧ (definedNames sample).Nodup ∧ ∀ r ∈ refsOf sample, r ∈ definedNames sample := by
  decide

/-- C30. The errors are as they say: a duplicate definition is reported for a name defined at least twice, a
missing one for a name that is used and not defined. -/
theorem errors_are_right (s : Sch) :
    (∀ r, schemaValidator s = .error (.duplicate r) → 2 ≤ (definedNames s).count r) ∧
    (∀ r, schemaValidator s = .error (.neverFilled r) → r ∈ refsOf s ∧ r ∉ definedNames s) := by
  rcases validator_cases s with ⟨sv, he, _⟩ | ⟨he, hf⟩ | ⟨q, he, hr⟩ | ⟨q, he, hr, hd⟩ <;>
    refine ⟨fun r h => ?_, fun r h => ?_⟩ <;> rw [he] at h <;> cases h
  · exact hr
  · exact ⟨hr, hd⟩

example : schemaValidator (.node (.cons (.ref "X") .nil)) = .error (.neverFilled "X") := by rfl
example : schemaValidator (.defs (.cons "X" (.leaf 0) (.cons "X" (.leaf 1) .nil)) (.ref "X"))
    = .error (.duplicate "X") := by rfl

/-- C30. After a successful construction every reference in the validator and in its definitions can be
read, as long as the validator exists, and what is read was built from the definition of that name. The
validator itself has the structure of the schema.

Partial: see `dropped_owner_panics` for references that outlive the validator. -/
theorem references_resolve_partial (s : Sch) (sv : Validator) (h : schemaValidator s = .ok sv) :
    Matches s sv.root ∧
    ∀ d, UsesRef sv d → ∃ sch v, (d.reference, sch) ∈ defsOf s ∧ d.read (some sv.definitions) = some v ∧
      Matches sch v := by
  rcases validator_cases s with ⟨sv', he, hf, hi, hm, hroot, hfull⟩ | ⟨he, hf⟩ | ⟨r, he, hr⟩ | ⟨r, he, hr, hd⟩
  · rw [h] at he; cases he
    refine ⟨hm, ?_⟩
    intro d hd
    have : ∃ t ∈ sv.definitions, t.key = d := by
      rcases hd with hd | ⟨t, ht, v, hv, hd⟩
      · exact hroot d hd
      · exact (hi.filled t ht v hv).2 d hd
    obtain ⟨t, ht, rfl⟩ := this
    cases hv : t.value with
    | none => exact absurd hv (hfull t ht)
    | some v =>
      obtain ⟨⟨sch, hmem, hmatch⟩, _⟩ := hi.filled t ht v hv
      refine ⟨sch, v, hmem, ?_, hmatch⟩
      simp only [DefRef.read, Slot.key]
      cases hfind : sv.definitions.find? (fun s => s.id == t.id) with
      | none =>
        have := List.find?_eq_none.1 hfind t ht
        simp at this
      | some u =>
        have hu := List.mem_of_find?_eq_some hfind
        have hid : u.id = t.id := by simpa using List.find?_some hfind
        obtain ⟨i, hiu⟩ := List.getElem?_of_mem hu
        obtain ⟨j, hjt⟩ := List.getElem?_of_mem ht
        have h1 := hi.ids i u hiu
        have h2 := hi.ids j t hjt
        have : i = j := by omega
        subst this
        rw [hiu] at hjt; cases hjt
        exact hv
  all_goals (rw [h] at he; cases he)

/-- The sample is built, and its reference to `B`, made before `B` was defined, reads the validator of `B`. -/
example : (schemaValidator sample).toOption.map (fun sv => sv.definitions.map (fun t => (t.reference, t.id)))
      = some [("B", 0), ("A", 1)] ∧
    ∃ sv, schemaValidator sample = .ok sv ∧ DefRef.read ⟨"B", 0⟩ (some sv.definitions) = some (.leaf 7) :=
  ⟨by rfl, _, rfl, by rfl⟩

/-- C30. References to the same name share their definition, references to different names do not (the
recursion guard tells definitions apart by their address). -/
theorem same_name_same_definition (s : Sch) (sv : Validator) (h : schemaValidator s = .ok sv) (d d' : DefRef)
    (hd : UsesRef sv d) (hd' : UsesRef sv d') : d.reference = d'.reference ↔ d.id = d'.id := by
  rcases validator_cases s with ⟨sv', he, hf, hi, hm, hroot, hfull⟩ | ⟨he, hf⟩ | ⟨r, he, hr⟩ | ⟨r, he, hr, _⟩
  · rw [h] at he; cases he
    have key : ∀ d, UsesRef sv d → ∃ (i : Nat) (t : Slot), sv.definitions[i]? = some t ∧ t.key = d := by
      intro d hd
      have : ∃ t ∈ sv.definitions, t.key = d := by
        rcases hd with hd | ⟨t, ht, v, hv, hd⟩
        · exact hroot d hd
        · exact (hi.filled t ht v hv).2 d hd
      obtain ⟨t, ht, hk⟩ := this
      obtain ⟨i, hi⟩ := List.getElem?_of_mem ht
      exact ⟨i, t, hi, hk⟩
    obtain ⟨i, t, hit, rfl⟩ := key d hd
    obtain ⟨j, u, hju, rfl⟩ := key d' hd'
    have h1 := hi.ids i t hit
    have h2 := hi.ids j u hju
    simp only [Slot.key]
    constructor
    · intro hr
      have hi' : (sv.definitions.map (·.reference))[i]? = some t.reference := by rw [List.getElem?_map, hit]; rfl
      have hj' : (sv.definitions.map (·.reference))[j]? = some t.reference := by rw [List.getElem?_map, hju, hr]; rfl
      have hlt : i < (sv.definitions.map (·.reference)).length := (List.getElem?_eq_some_iff.1 hi').1
      have := (List.getElem?_inj hlt hi.names).1 (hi'.trans hj'.symm)
      omega
    · intro hid
      have : i = j := by omega
      subst this
      rw [hit] at hju; cases hju; rfl
  all_goals (rw [h] at he; cases he)

example : ∃ sv, schemaValidator sample = .ok sv ∧ UsesRef sv ⟨"B", 0⟩ ∧ UsesRef sv ⟨"A", 1⟩ :=
  ⟨_, rfl, .inl (by decide), .inl (by decide)⟩

/-- C30. While the validator exists, `validator.unwrap()` never panics. -/
theorem no_panic_while_owned (s : Sch) (sv : Validator) (h : schemaValidator s = .ok sv) (d : DefRef)
    (hd : UsesRef sv d) {γ : Type} (run : Built → γ) : refValidate d (some sv.definitions) run ≠ none := by
  obtain ⟨_, v, _, hv, _⟩ := (references_resolve_partial s sv h).2 d hd
  simp [refValidate, hv]

example : refValidate (γ := Nat) ⟨"B", 0⟩ (some [⟨"B", 0, some (.leaf 7)⟩]) (fun _ => 1) = some 1 := by rfl

/-- Against C30: references are weak. A part of the validator that is kept after the `SchemaValidator` is
gone, as by the iterator of a lazily validated generator (`InternalValidator::new`,
`src/validators/generator.rs:241-264`, keeps the item validator but not the definitions), panics at its
first reference: here the schema is valid and the reference resolves while the owner exists, not after. -/
theorem dropped_owner_panics {γ : Type} (run : Built → γ) :
    ∃ s sv d, schemaValidator s = .ok sv ∧ UsesRef sv d ∧
      refValidate d (some sv.definitions) run = some (run (.leaf 7)) ∧ refValidate d none run = none :=
  ⟨sample, _, ⟨"B", 0⟩, rfl, .inl (by decide), rfl, rfl⟩

end PC.Defs
