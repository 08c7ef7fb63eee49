import Verif.Model.Filter

/-! C37: `include` and `exclude` objects that are neither sets nor dicts, and the name `__all__`. -/

namespace PC.Filter

/-- C37.  An object of another class that answers `in` counts as a set: where it says of the key and of `'__all__'` what a set says,
it selects what the set selects, be it given as `include` or as `exclude`. -/
theorem container_as_set (f : Filt) (k : Key) (ik : Int) (m : Key → Option Bool) (ks : List Key)
    (h1 : m k = some (ks.contains k)) (h2 : m (.s "__all__") = some (ks.contains (.s "__all__"))) :
    (∀ excl, filter f k ik (some (.other (some m))) excl = filter f k ik (some (.set ks)) excl) ∧
    (∀ incl, filter f k ik incl (some (.other (some m))) = filter f k ik incl (some (.set ks))) := by
  have hc : checkContains (some m) k = .ok (some (ks.contains k || ks.contains (.s "__all__"))) := by
    simp only [checkContains, h1]
    cases ks.contains k with
    | true => rfl
    | false => simp [Key.all, h2]
  have hk : Key.all = .s "__all__" := rfl
  generalize hb : (ks.contains k || ks.contains (.s "__all__")) = b at hc
  constructor
  · intro excl
    simp only [filter]
    cases excludeStep k excl with
    | error e => rfl
    | ok n =>
      cases n with
      | none => rfl
      | some n =>
        simp only [includeStep, hc, hk, hb]
        cases b <;> rfl
  · intro incl
    simp only [filter, excludeStep, hc, hk, hb]
    cases b <;> rfl

example : filter .any (.s "a") 0 Option.none (some (.other (some fun k => some (k == .s "a")))) = .ok Option.none ∧
    filter .any (.s "b") 0 Option.none (some (.other (some fun k => some (k == .s "a")))) =
      .ok (some (Option.none, Option.none)) := ⟨rfl, rfl⟩

/-- C37.  `'__all__'` names every item: excluded, nothing is left; included, everything the schema excludes or not is kept, unless
`exclude` names it. -/
theorem all_names_everything (f : Filt) (k : Key) (ik : Int) (ks : List Key) (h : Key.s "__all__" ∈ ks) :
    (∀ incl, filter f k ik incl (some (.set ks)) = .ok Option.none) ∧
    filter f k ik (some (.set ks)) Option.none = .ok (some (Option.none, Option.none)) := by
  have hc : (ks.contains k || ks.contains Key.all) = true := by simp [Key.all, h]
  constructor
  · intro incl
    simp only [filter, excludeStep, hc, if_true]
  · simp only [filter, excludeStep, includeStep, hc, if_true]

example : Key.s "__all__" ∈ [Key.s "__all__"] := by decide

/-- C37.  An object that does not answer `in` is refused with a `TypeError`; one that fails only for `'__all__'` makes serialisation
raise that. -/
theorem container_refused (f : Filt) (k : Key) (ik : Int) (incl : Option FVal) :
    filter f k ik incl (some (.other Option.none)) = .error .type ∧
    (∀ m, m k = some false → m (.s "__all__") = Option.none →
      filter f k ik incl (some (.other (some m))) = .error .contains) := by
  constructor
  · rfl
  · intro m h1 h2
    simp [filter, excludeStep, checkContains, h1, Key.all, h2]

example : (fun k => if k = Key.s "a" then some false else Option.none : Key → Option Bool) (.s "a") = some false := by decide

/-- The item `ik` is selected by the sets in the schema. -/
def SchemaKeeps (sincl sexcl : Option (List Int)) (ik : Int) : Prop :=
  (∀ s, sincl = some s → ik ∈ s) ∧ (∀ s, sexcl = some s → ik ∉ s)

/-- C37.  The sets in the schema: where nothing is given to the call, the items are kept that the schema includes and does not
exclude; where the call gives an `include` that does not name the item, it is kept only if the schema includes it by name and
does not exclude it; an item named by `include` is kept whatever the schema says. -/
theorem schema_sets (sincl sexcl : Option (List Int)) (k : Key) (ik : Int) (ks : List Key) :
    (filter (.schema sincl sexcl) k ik Option.none Option.none = .ok (some (Option.none, Option.none)) ↔
      SchemaKeeps sincl sexcl ik) ∧
    (k ∉ ks → Key.s "__all__" ∉ ks →
      (filter (.schema sincl sexcl) k ik (some (.set ks)) Option.none = .ok (some (Option.none, Option.none)) ↔
        SchemaKeeps sincl sexcl ik ∧ sincl ≠ Option.none)) ∧
    (k ∈ ks → filter (.schema sincl sexcl) k ik (some (.set ks)) Option.none = .ok (some (Option.none, Option.none))) := by
  refine ⟨?_, ?_, ?_⟩
  · cases sincl <;> cases sexcl <;>
      simp [filter, excludeStep, includeStep, Filt.defaultFilter, SchemaKeeps, -not_and]
  · intro h1 h2
    have hc : (ks.contains k || ks.contains Key.all) = false := by simp [Key.all, h1, h2]
    cases sincl <;> cases sexcl <;>
      simp [filter, excludeStep, includeStep, Filt.defaultFilter, Filt.explicitInclude, SchemaKeeps, h1, h2, Key.all] <;>
      grind
  · intro h1
    simp [filter, excludeStep, includeStep, h1]

example : SchemaKeeps (some [1, 2]) (some [2]) 1 ∧ ¬ SchemaKeeps (some [1, 2]) (some [2]) 2 ∧ Key.i 1 ∉ [Key.i 0] := by
  refine ⟨⟨fun s h => ?_, fun s h => ?_⟩, fun h => h.2 _ rfl (by decide), by decide⟩
  · cases h; decide
  · cases h; decide

end PC.Filter
