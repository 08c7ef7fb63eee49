import Verif.Spec.AssignFunc
import Verif.Props.Assignment
import Verif.Props.DataclassInstance

/-
C97: assignment to an attribute through validator functions.
-/

namespace PC.AssignFn
open PC.Fields PC.Dc PC.Args PC.Comb
variable {α σ : Type}

theorem put_same (h : Heap σ) (obj : Nat) : h.put obj (h obj) = h := by
  funext x
  unfold Heap.put
  by_cases hx : x = obj
  · rw [if_pos hx, hx]
  · rw [if_neg hx]

/-! ### Functions between the class and its fields -/

/-- Without functions this is the assignment of C15. -/
theorem no_functions (m : Model α) (ofDict : Option (Dict α) → α) (name : String) (value : α) (inst : Instance α) (st : VState α) :
    (⟨.fields m.fields, m.root, m.frozen⟩ : Class α).assign ofDict name value inst st =
      m.validateAssignment inst name value st := by
  obtain ⟨fields, root, frozen⟩ := m
  unfold Class.assign Model.validateAssignment
  dsimp only [Inner.assign]
  split
  · rfl
  · cases root with
    | some r => rfl
    | none =>
      dsimp only
      cases (fields.validateAssignment _ name value st).1 <;> rfl

/-- **C97.**  Whatever functions there are between a class and its fields, and whatever they do: an assignment that fails leaves the
instance as it was. -/
theorem inner_functions_atomic (c : Class α) (ofDict : Option (Dict α) → α) (name : String) (value : α) :
    Atomic (c.assign ofDict name value) := by
  intro inst st e h
  unfold Class.assign at h ⊢
  split at h
  · simp [*]
  · rename_i hfr
    rw [if_neg hfr]
    split at h
    · split at h
      · simp [*]
      · rename_i hn
        rw [if_neg hn]
        dsimp only at h ⊢
        split at h
        · simp [*]
        · cases h
    · dsimp only at h ⊢
      split at h
      · simp [*]
      · simp [*]
      · cases h

/-- **C97.**  Nor are any of them asked by a class that is frozen. -/
theorem frozen_asks_nothing (c : Class α) (hf : c.frozen = true) (ofDict : Option (Dict α) → α) (name : String) (value : α)
    (inst : Instance α) (st : VState α) :
    c.assign ofDict name value inst st = (.error (.lineErrors [⟨.frozenInstance, .empty, value⟩]), inst, st) := by
  unfold Class.assign
  rw [if_pos hf]
  rfl

/-- **C97.**  A function before the fields cannot change the value that is assigned: it gets a dict with this value in it, but what
is validated is the value given, whatever the dict returned holds for it.  All other entries of the instance are those of the
dict that the function returned. -/
theorem before_cannot_change_value (m : ModelFields α) (f : Extra α → Option (Dict α) → Except (PyExc α) (Option (Dict α)))
    (ha : m.extra ≠ .allow) (ofDict : Option (Dict α) → α) (name : String) (value : α) (inst : Instance α) (st : VState α)
    (hx : inst.extra = none)
    (h : ((⟨.before f (.fields m), none, false⟩ : Class α).assign ofDict name value inst st).1 = .ok ()) :
    ∃ d, f st.extra (some (inst.dict.set name value)) = .ok (some d) ∧ ∃ g ∈ m.fields, g.name = name ∧ ∃ v st0,
      (g.run value st0).1 = .ok v ∧
      ((⟨.before f (.fields m), none, false⟩ : Class α).assign ofDict name value inst st).2.1.dict.get name = some v ∧
      ∀ k, k ≠ name →
        ((⟨.before f (.fields m), none, false⟩ : Class α).assign ofDict name value inst st).2.1.dict.get k = Dict.get k d := by
  simp only [Class.assign, Bool.false_eq_true, if_false, hx, Inner.assign] at h ⊢
  cases hf : f st.extra (some (inst.dict.set name value)) with
  | error e => rw [hf] at h; cases h
  | ok d =>
    rw [hf] at h
    cases d with
    | none => cases h
    | some d =>
      refine ⟨d, rfl, ?_⟩
      simp only [ModelFields.validateAssignment] at h ⊢
      cases has : (m.assign d name value st).1 with
      | error e => rw [has] at h; cases h
      | ok d' =>
        obtain ⟨v, hd, hv⟩ := assign_ok _ _ _ _ _ _ has
        rcases hv with ⟨g, hg, hgn, -, hrun⟩ | ⟨-, hal, -⟩
        · refine ⟨g, hg, hgn, v, _, hrun, ?_⟩
          cases he : m.extra with
          | allow => exact absurd he ha
          | ignore =>
            dsimp only [Except.map]
            rw [hd]
            refine ⟨by rw [Dict.get_set]; simp, fun k hk => ?_⟩
            rw [Dict.get_set, if_neg (Ne.symm hk)]
          | forbid =>
            dsimp only [Except.map]
            rw [hd]
            refine ⟨by rw [Dict.get_set]; simp, fun k hk => ?_⟩
            rw [Dict.get_set, if_neg (Ne.symm hk)]
        · exact absurd hal ha

/-- **C97.**  What a function after the fields returns becomes the instance as it is: its dict and extras replace those of the
instance, whatever the fields were, and its set of fields is added to those set. -/
theorem after_result_used (m : ModelFields α) (f : Extra α → Option (ModelOut α) → Except (PyExc α) (Option (ModelOut α)))
    (ofDict : Option (Dict α) → α) (name : String) (value : α) (inst : Instance α) (st : VState α)
    (h : ((⟨.after f (.fields m), none, false⟩ : Class α).assign ofDict name value inst st).1 = .ok ()) :
    ∃ st' out out', (m.validateAssignment (Dict.set name value (match inst.extra with
        | some old => inst.dict.update old
        | none => inst.dict)) name value st) = (.ok out, st') ∧
      f st'.extra (some out) = .ok (some out') ∧
      ((⟨.after f (.fields m), none, false⟩ : Class α).assign ofDict name value inst st).2.1 =
        ⟨out'.dict, out'.extra, addAll inst.fieldsSet out'.fieldsSet⟩ := by
  simp only [Class.assign, Bool.false_eq_true, if_false, Inner.assign] at h ⊢
  generalize hd : Dict.set name value (match inst.extra with
        | some old => inst.dict.update old
        | none => inst.dict) = d at h ⊢
  rcases hm : m.validateAssignment d name value st with ⟨r, st'⟩
  rw [hm] at h
  cases r with
  | error e => cases h
  | ok out =>
    simp only [Except.map] at h ⊢
    cases hf : f st'.extra (some out) with
    | error e => rw [hf] at h; cases h
    | ok o =>
      rw [hf] at h
      cases o with
      | none => cases h
      | some out' => exact ⟨st', out, out', rfl, hf, rfl⟩

/-! ### Functions around the class -/

theorem runProg_atomic {inner : Nat → Heap σ → VState α → ValResult α Nat × Heap σ × VState α} (name : String)
    (hi : ∀ obj heap st e, (inner obj heap st).1 = .error e → (inner obj heap st).2.1 = heap) :
    ∀ (p : Prog α σ) (h : Internal α) (heap : Heap σ),
      (p.Safe → ∃ v, (runProg inner name p h heap).1 = .ok v) ∧
      (p.Settles → ∀ e, (runProg inner name p h heap).1 = .error e → (runProg inner name p h heap).2 = heap)
  | .done r, h, heap => ⟨fun hs => hs, fun _ _ _ => rfl⟩
  | .call obj outer k, h, heap => by
    have ih := fun r hp => runProg_atomic name hi (k r hp)
    constructor
    · intro hs
      unfold runProg
      dsimp only
      split
      · exact (ih _ _ _ _).1 (hs _ _)
      · exact (ih _ _ _ _).1 (hs _ _)
    · intro hs e he
      unfold runProg at he ⊢
      dsimp only at he ⊢
      cases hr : (inner obj heap (handlerState h name)).1 with
      | ok v =>
        rw [hr] at he
        dsimp only at he
        obtain ⟨w, hw⟩ := (ih (.ok v) (inner obj heap (handlerState h name)).2.1 _ _).1 (hs.2 _ _)
        rw [hw] at he
        cases he
      | error e' =>
        rw [hr] at he
        dsimp only at he ⊢
        have hk := hi _ _ _ _ hr
        rw [hk] at he ⊢
        exact (ih _ _ _ _).2 (hs.1 _ _) e he

/-- **C97.**  With any functions around a class that do not raise once the class has accepted the value: an assignment that fails
leaves every object as it was. -/
theorem outer_functions_atomic_partial (ofObj : Nat → α) (name : String) :
    ∀ (o : Outer α σ), Atomic o.body → o.Settles → ∀ obj heap st e,
      (o.assign ofObj name obj heap st).1 = .error e → (o.assign ofObj name obj heap st).2.1 = heap
  | .core a, ha, _, obj, heap, st, e, h => by
    simp only [Outer.assign] at h ⊢
    cases hr : (a (heap obj) st).1 with
    | ok u => rw [hr] at h; cases h
    | error e' => rw [show (a (heap obj) st).2.1 = heap obj from ha _ _ _ hr, put_same]
  | .before f inner, ha, hs, obj, heap, st, e, h => by
    simp only [Outer.assign] at h ⊢
    split at h
    · simp [*]
    · rename_i v hf
      exact outer_functions_atomic_partial ofObj name inner ha hs v heap st e h
  | .after f inner, ha, hs, obj, heap, st, e, h => by
    have ih := outer_functions_atomic_partial ofObj name inner ha hs.2 obj heap st
    simp only [Outer.assign] at h ⊢
    cases hr : (inner.assign ofObj name obj heap st).1 with
    | error e' => exact ih e' hr
    | ok v =>
      rw [hr] at h
      dsimp only at h
      obtain ⟨w, hw⟩ := hs.1 (inner.assign ofObj name obj heap st).2.2.extra (inner.assign ofObj name obj heap st).2.1 v
      rw [hw] at h
      cases h
  | .wrap f inner, ha, hs, obj, heap, st, e, h => by
    have hr := (runProg_atomic name (fun obj heap st e => outer_functions_atomic_partial ofObj name inner ha hs.2 obj heap st e)
      (f st.extra heap obj) (Internal.new st) heap).2 (hs.1 _ _ _)
    simp only [Outer.assign] at h ⊢
    cases hx : (runProg (inner.assign ofObj name) name (f st.extra heap obj) (Internal.new st) heap).1 with
    | ok v => rw [hx] at h; cases h
    | error e' => exact hr e' hx

/-- **C97 fails** of a function after the class that raises: the assignment is refused, but the object keeps the new value.  For
every class and function: -/
theorem after_failure_keeps (a : σ → VState α → ValResult α Unit × σ × VState α)
    (f : Extra α → Heap σ → Nat → Except (PyExc α) Nat) (ofObj : Nat → α) (name : String) (obj : Nat) (heap : Heap σ)
    (st : VState α) (ha : (a (heap obj) st).1 = .ok ()) (e : PyExc α)
    (hf : f (a (heap obj) st).2.2.extra (heap.put obj (a (heap obj) st).2.1) obj = .error e) :
    ((Outer.after f (.core a)).assign ofObj name obj heap st).1 = .error (convertErr e (ofObj obj)) ∧
    ((Outer.after f (.core a)).assign ofObj name obj heap st).2.1 obj = (a (heap obj) st).2.1 := by
  simp only [Outer.assign, ha, Except.map, hf]
  exact ⟨trivial, by simp [Heap.put]⟩

theorem runProg_reaches {a : σ → VState α → ValResult α Unit × σ × VState α}
    {inner : Nat → Heap σ → VState α → ValResult α Nat × Heap σ × VState α} (name : String) (obj : Nat)
    (hi : ∀ heap st, (∀ x, x ≠ obj → (inner obj heap st).2.1 x = heap x) ∧
      ∀ s, Reaches a s (heap obj) → Reaches a s ((inner obj heap st).2.1 obj)) :
    ∀ (p : Prog α σ) (h : Internal α) (heap : Heap σ), p.Only obj →
      (∀ x, x ≠ obj → (runProg inner name p h heap).2 x = heap x) ∧
      ∀ s, Reaches a s (heap obj) → Reaches a s ((runProg inner name p h heap).2 obj)
  | .done r, h, heap, _ => ⟨fun _ _ => rfl, fun _ hs => hs⟩
  | .call o outer k, h, heap, ho => by
    obtain ⟨rfl, hk⟩ := ho
    have hi' := hi heap (handlerState h name)
    unfold runProg
    dsimp only
    split
    · obtain ⟨h1, h2⟩ := runProg_reaches name o hi (k _ _) _ (inner o heap (handlerState h name)).2.1 (hk _ _)
      exact ⟨fun x hx => (h1 x hx).trans (hi'.1 x hx), fun s hs => h2 s (hi'.2 s hs)⟩
    · obtain ⟨h1, h2⟩ := runProg_reaches name o hi (k _ _) _ (inner o heap (handlerState h name)).2.1 (hk _ _)
      exact ⟨fun x hx => (h1 x hx).trans (hi'.1 x hx), fun s hs => h2 s (hi'.2 s hs)⟩

/-- **C97.**  Functions around a class that hand on the object they are given: whatever the outcome, no other object is changed, and
what becomes of this one is what successful assignments of the class, some or none, make of it. -/
theorem outer_functions_reach (ofObj : Nat → α) (name : String) :
    ∀ (o : Outer α σ), Atomic o.body → o.HandsOn → ∀ obj heap st,
      (∀ x, x ≠ obj → (o.assign ofObj name obj heap st).2.1 x = heap x) ∧
      ∀ s, Reaches o.body s (heap obj) → Reaches o.body s ((o.assign ofObj name obj heap st).2.1 obj)
  | .core a, ha, _, obj, heap, st => by
    simp only [Outer.assign, Heap.put]
    refine ⟨fun x hx => by rw [if_neg hx], fun s hs => ?_⟩
    rw [if_pos trivial]
    cases hr : (a (heap obj) st).1 with
    | ok u => exact .step st hs hr
    | error e => rw [show (a (heap obj) st).2.1 = heap obj from ha _ _ _ hr]; exact hs
  | .before f inner, ha, hh, obj, heap, st => by
    simp only [Outer.assign]
    split
    · exact ⟨fun _ _ => rfl, fun _ hs => hs⟩
    · rename_i v hf
      rw [hh.1 _ _ _ _ hf]
      exact outer_functions_reach ofObj name inner ha hh.2 obj heap st
  | .after f inner, ha, hh, obj, heap, st => by
    have ih := outer_functions_reach ofObj name inner ha hh obj heap st
    simp only [Outer.assign]
    split
    · exact ih
    · split <;> exact ih
  | .wrap f inner, ha, hh, obj, heap, st => by
    have ih := runProg_reaches name obj (fun heap st => outer_functions_reach ofObj name inner ha hh.2 obj heap st)
      (f st.extra heap obj) (Internal.new st) heap (hh.1 _ _ _)
    simp only [Outer.assign]
    split <;> exact ih

/-- **C97.**  Without wrap functions, an assignment that succeeds is exactly that of the class. -/
theorem straight_success (ofObj : Nat → α) (name : String) : ∀ (o : Outer α σ), o.Straight → ∀ obj heap st v,
    (o.assign ofObj name obj heap st).1 = .ok v →
    (o.body (heap obj) st).1 = .ok () ∧ (o.assign ofObj name obj heap st).2.1 = heap.put obj (o.body (heap obj) st).2.1
  | .core a, _, obj, heap, st, v, h => by
    simp only [Outer.assign, Outer.body] at h ⊢
    cases hr : (a (heap obj) st).1 with
    | ok u => exact ⟨rfl, trivial⟩
    | error e => rw [hr] at h; cases h
  | .before f inner, hs, obj, heap, st, v, h => by
    simp only [Outer.assign, Outer.body] at h ⊢
    cases hf : f st.extra heap obj with
    | error e => rw [hf] at h; cases h
    | ok w =>
      rw [hf] at h
      cases hs.1 _ _ _ _ hf
      exact straight_success ofObj name inner hs.2 obj heap st v h
  | .after f inner, hs, obj, heap, st, v, h => by
    simp only [Outer.assign, Outer.body] at h ⊢
    cases hr : (inner.assign ofObj name obj heap st).1 with
    | error e => rw [hr] at h; cases h
    | ok w =>
      have ih := straight_success ofObj name inner hs obj heap st w hr
      dsimp only
      split <;> exact ih
  | .wrap f inner, hs, obj, heap, st, v, h => hs.elim

/-- **C97.**  A wrap function that only calls its handler changes nothing: the objects are as what is behind it leaves them, and it succeeds
with the same object if and only if that does. -/
theorem wrap_passes_on (ofObj : Nat → α) (name : String) (inner : Outer α σ) (obj : Nat) (heap : Heap σ) (st : VState α) :
    ((Outer.wrap (fun _ _ obj => .call obj none fun r _ => .done r) inner).assign ofObj name obj heap st).2.1 =
      (inner.assign ofObj name obj heap (handlerState (Internal.new st) name)).2.1 ∧
    ∀ v, ((Outer.wrap (fun _ _ obj => .call obj none fun r _ => .done r) inner).assign ofObj name obj heap st).1 = .ok v ↔
      (inner.assign ofObj name obj heap (handlerState (Internal.new st) name)).1 = .ok v := by
  simp only [Outer.assign, runProg]
  cases hr : (inner.assign ofObj name obj heap (handlerState (Internal.new st) name)).1 with
  | ok w => exact ⟨rfl, fun v => Iff.rfl⟩
  | error e => exact ⟨rfl, fun v => ⟨(fun h => by cases h), (fun h => by cases h)⟩⟩

/-- **C97.**  For a model without extras: with any functions around it that hand on the instance, whatever they do and whether the
assignment succeeds or not, no attribute but the assigned one is changed, and this one holds what it held before or a value that
its validator made of the value given. -/
theorem outer_functions_touch_one (m : Model α) (hr : m.root = none) (ha : m.fields.extra ≠ .allow) (name : String) (value : α)
    (o : Outer α (Instance α)) (hb : o.body = fun inst st => m.validateAssignment inst name value st) (ho : o.HandsOn)
    (ofObj : Nat → α) (obj : Nat) (heap : Heap (Instance α)) (st : VState α) (hx : (heap obj).extra = none) :
    (∀ x, x ≠ obj → (o.assign ofObj name obj heap st).2.1 x = heap x) ∧
    (∀ k, k ≠ name → ((o.assign ofObj name obj heap st).2.1 obj).dict.get k = (heap obj).dict.get k) ∧
    (((o.assign ofObj name obj heap st).2.1 obj).dict.get name = (heap obj).dict.get name ∨
      ∃ f ∈ m.fields.fields, f.name = name ∧ ∃ v st0, (f.run value st0).1 = .ok v ∧
        ((o.assign ofObj name obj heap st).2.1 obj).dict.get name = some v) := by
  have hat : Atomic o.body := by
    rw [hb]
    intro s st e h
    exact assignment_atomic m s name value st e h
  obtain ⟨h1, h2⟩ := outer_functions_reach ofObj name o hat ho obj heap st
  refine ⟨h1, ?_⟩
  have h3 := h2 (heap obj) (.refl _)
  revert h3
  generalize (o.assign ofObj name obj heap st).2.1 obj = t
  intro h3
  rw [hb] at h3
  have key : t.extra = none ∧ (∀ k, k ≠ name → t.dict.get k = (heap obj).dict.get k) ∧
      (t.dict.get name = (heap obj).dict.get name ∨
        ∃ f ∈ m.fields.fields, f.name = name ∧ ∃ v st0, (f.run value st0).1 = .ok v ∧ t.dict.get name = some v) := by
    induction h3 with
    | refl => exact ⟨hx, fun _ _ => rfl, .inl rfl⟩
    | step st' _ hok ih =>
      obtain ⟨f, hf, hfn, -, v, -, st0, -, -, hrun, hv, hk, hx', -⟩ :=
        assignment_touches_one m hr ha _ ih.1 name value st' hok
      exact ⟨hx', fun k hk' => (hk k hk').trans (ih.2.1 k hk'), .inr ⟨f, hf, hfn, v, st0, hrun, hv⟩⟩
  exact key.2

/-- **C97.**  For a dataclass, too: with functions around it that do not raise once it has accepted the value, an assignment that
fails leaves every object as it was. -/
theorem dataclass_functions_atomic_partial (c : Dc α) (name : String) (value : α) (o : Outer α (Dict α))
    (hb : o.body = fun attrs st => c.validateAssignment attrs name value st) (ho : o.Settles) (ofObj : Nat → α) (obj : Nat)
    (heap : Heap (Dict α)) (st : VState α) (e : ValError α) (h : (o.assign ofObj name obj heap st).1 = .error e) :
    (o.assign ofObj name obj heap st).2.1 = heap :=
  outer_functions_atomic_partial ofObj name o
    (by rw [hb]; intro s st e h; exact dataclass_assign_rejected_keeps c s name value st e h) ho obj heap st e h

/-! ### The name they are told -/

theorem assign_extra (ofObj : Nat → α) (name : String) : ∀ (o : Outer α σ), (∀ s st, (o.body s st).2.2.extra = st.extra) →
    ∀ obj heap st, (o.assign ofObj name obj heap st).2.2.extra = st.extra
  | .core a, ha, obj, heap, st => ha _ _
  | .before f inner, ha, obj, heap, st => by
    simp only [Outer.assign]
    split
    · rfl
    · exact assign_extra ofObj name inner ha _ _ _
  | .after f inner, ha, obj, heap, st => by
    have ih := assign_extra ofObj name inner ha obj heap st
    simp only [Outer.assign]
    split
    · exact ih
    · split <;> exact ih
  | .wrap f inner, ha, obj, heap, st => by
    simp only [Outer.assign]
    split <;> rfl

/-- **C97.**  All functions around a class are told the name of the attribute that is assigned, also those behind the handlers of
wrap functions: what they would do when told another name, or none, makes no difference. -/
theorem told_assigned_name (ofObj : Nat → α) (name : String) {o p : Outer α σ} (h : SameTold name o p)
    (hb : ∀ s st, (o.body s st).2.2.extra = st.extra) :
    ∀ obj heap st, st.extra.fieldName = some name → o.assign ofObj name obj heap st = p.assign ofObj name obj heap st := by
  induction h with
  | core a => intros; rfl
  | before hf _ ih =>
    intro obj heap st hst
    simp only [Outer.assign, hf _ hst]
    split
    · rfl
    · exact ih hb _ _ _ hst
  | @after f g i j hf _ ih =>
    intro obj heap st hst
    simp only [Outer.assign, ← ih hb obj heap st hst]
    split
    · rfl
    · rw [hf _ (by rw [assign_extra ofObj name i hb]; exact hst)]
  | @wrap f g i j hf _ ih =>
    intro obj heap st hst
    have hp : ∀ (q : Prog α σ) (h : Internal α) (heap : Heap σ),
        runProg (i.assign ofObj name) name q h heap = runProg (j.assign ofObj name) name q h heap := by
      intro q
      induction q with
      | done r => intros; rfl
      | call o outer k ihq =>
        intro h heap
        unfold runProg
        rw [ih hb o heap (handlerState h name) rfl]
        dsimp only
        split
        · exact ihq _ _ _ _
        · exact ihq _ _ _ _
    simp only [Outer.assign, hf _ hst, hp]

theorem inner_extra (ofDict : Option (Dict α) → α) (name : String) (value : α) : ∀ (i : Inner α),
    (∀ d st, (i.body.validateAssignment d name value st).2.extra = st.extra) →
    ∀ d st, (i.assign ofDict name value d st).2.extra = st.extra
  | .fields m, hb, d, st => by
    simp only [Inner.assign]
    split
    · rfl
    · exact hb _ _
  | .before f inner, hb, d, st => by
    simp only [Inner.assign]
    split
    · rfl
    · exact inner_extra ofDict name value inner hb _ _
  | .after f inner, hb, d, st => by
    have ih := inner_extra ofDict name value inner hb d st
    simp only [Inner.assign]
    split
    · exact ih
    · split <;> exact ih
  | .wrap f inner, hb, d, st => by
    simp only [Inner.assign]
    split <;> rfl

/-- **C97.**  So are all functions between a class and its fields. -/
theorem told_assigned_name_inner (ofDict : Option (Dict α) → α) (name : String) (value : α) {i j : Inner α}
    (h : SameToldIn name i j) (hb : ∀ d st, (i.body.validateAssignment d name value st).2.extra = st.extra) :
    ∀ d st, st.extra.fieldName = some name → i.assign ofDict name value d st = j.assign ofDict name value d st := by
  induction h with
  | fields m => intros; rfl
  | before hf _ ih =>
    intro d st hst
    simp only [Inner.assign, hf _ hst]
    split
    · rfl
    · exact ih hb _ _ hst
  | @after f g i j hf _ ih =>
    intro d st hst
    simp only [Inner.assign, ← ih hb d st hst]
    split
    · rfl
    · rw [hf _ (by rw [inner_extra ofDict name value i hb]; exact hst)]
  | @wrap f g i j hf _ ih =>
    intro d st hst
    have hp : ∀ (q : DictProg α) (h : Internal α),
        runDictProg (i.assign ofDict name value) name q h = runDictProg (j.assign ofDict name value) name q h := by
      intro q
      induction q with
      | done r => intros; rfl
      | call o outer k ihq =>
        intro h
        unfold runDictProg
        rw [ih hb o (handlerState h name) rfl]
        dsimp only
        split
        · exact ihq _ _
        · exact ihq _ _
    simp only [Inner.assign, hf _ hst, hp]

/-- The state that an assignment starts from tells the name. -/
theorem entry_told (strict fromAttributes byAlias byName : Option Bool) (name : String) :
    (entryState strict fromAttributes byAlias byName name : VState α).extra.fieldName = some name := rfl

/-! ### Cases -/

namespace Demo
open PC.Fields.Demo

/-- `class M: a: int; c: int = 7`, integers below 100. -/
def m : Model V := ⟨model .ignore, none, false⟩

/-- `M(a=1)` -/
def one : Instance V := ⟨[("a", .num 1), ("c", .num 7)], none, ["a"]⟩

/-- Assignment to `c`. -/
def setC (n : Nat) : Instance V → VState V → ValResult V Unit × Instance V × VState V :=
  fun inst st => m.validateAssignment inst "c" (.num n) st

def heap : Heap (Instance V) := fun _ => one

def ofObj (_ : Nat) : V := .str "obj"
def ofDict (_ : Option (Dict V)) : V := .str "dict"
def at0 : VState V := entryState none none none none "c"

/-- A function after the class that refuses objects with `c > 50`. -/
def notBig (_ : Extra V) (h : Heap (Instance V)) (obj : Nat) : Except (PyExc V) Nat :=
  match (h obj).dict.get "c" with
  | some (.num n) => if n > 50 then .error (.valueError (.ok "too big")) else .ok obj
  | _ => .ok obj

/-- A wrap function that tries twice and raises if both attempts fail. -/
def twice (_ : Extra V) (_ : Heap (Instance V)) (obj : Nat) : Prog V (Instance V) :=
  .call obj none fun
    | .ok v, _ => .done (.ok v)
    | .error _, _ => .call obj none fun
      | .ok v, _ => .done (.ok v)
      | .error e, _ => .done (.error e)

theorem twice_settles : (Outer.wrap twice (.core (setC 300))).Settles :=
  ⟨fun _ _ _ => ⟨fun _ _ => ⟨fun _ _ => trivial, fun _ _ => ⟨_, rfl⟩⟩, fun _ _ => ⟨_, rfl⟩⟩, trivial⟩

theorem twice_handsOn (n : Nat) : (Outer.wrap twice (.after notBig (.core (setC n)))).HandsOn :=
  ⟨fun _ _ _ => ⟨rfl, fun r _ => by
    cases r with
    | ok v => trivial
    | error e => exact ⟨rfl, fun r _ => by cases r <;> trivial⟩⟩, trivial⟩

/-- Whether this is an error. -/
def failed {β : Type} : ValResult α β → Bool
  | .error _ => true
  | .ok _ => false

theorem failed_ex {β : Type} {r : ValResult α β} (h : failed r = true) : ∃ e, r = .error e := by
  cases r with
  | error e => exact ⟨e, rfl⟩
  | ok v => cases h

end Demo

open Demo

/-- **C97 fails**: `M.c = 60` is refused by the function after the class, and the instance has 60 from then on. -/
theorem assignment_not_atomic : ∃ e,
    ((Outer.after notBig (.core (setC 60))).assign ofObj "c" 0 heap at0).1 = .error e ∧
    (heap 0).dict.get "c" = some (.num 7) ∧
    (((Outer.after notBig (.core (setC 60))).assign ofObj "c" 0 heap at0).2.1 0).dict.get "c" = some (.num 60) :=
  ⟨_, rfl, rfl, rfl⟩

/-- **C97 fails** of a function before the fields as well: assigning `c = 8` succeeds, and puts 300 for `a`, which no assignment to `a`
is allowed to. -/
theorem before_bypasses_validation :
    let f : Extra Fields.Demo.V → Option (Dict Fields.Demo.V) → Except (PyExc Fields.Demo.V) (Option (Dict Fields.Demo.V)) :=
      fun _ d => .ok (d.map fun d => d.set "a" (.num 300))
    let c : Class Fields.Demo.V := ⟨.before f (.fields m.fields), none, false⟩
    (c.assign ofDict "c" (.num 8) one at0).1 = .ok () ∧
    (c.assign ofDict "c" (.num 8) one at0).2.1.dict.get "a" = some (.num 300) ∧
    ∃ e, (Fields.Demo.num (.num 300) at0).1 = .error e :=
  ⟨by rfl, by rfl, _, rfl⟩

/-- `before_cannot_change_value` applies: the function replaces the assigned 8 by 9, to no effect. -/
example : ((⟨.before (fun _ d => .ok (d.map fun d => d.set "c" (.num 9))) (.fields m.fields), none, false⟩ :
    Class Fields.Demo.V).assign ofDict "c" (.num 8) one at0).1 = .ok () ∧
    ((⟨.before (fun _ d => .ok (d.map fun d => d.set "c" (.num 9))) (.fields m.fields), none, false⟩ :
      Class Fields.Demo.V).assign ofDict "c" (.num 8) one at0).2.1.dict.get "c" = some (.num 8) ∧
    m.fields.extra ≠ .allow ∧ one.extra = none := ⟨by rfl, by rfl, by decide, rfl⟩

/-- `after_result_used` applies. -/
example : ((⟨.after (fun _ out => .ok out) (.fields m.fields), none, false⟩ :
    Class Fields.Demo.V).assign ofDict "c" (.num 8) one at0).1 = .ok () := by rfl

/-- `inner_functions_atomic` applies: a function after the fields that raises. -/
example : ∃ e, ((⟨.after (fun _ _ => .error (.valueError (.ok "no"))) (.fields m.fields), none, false⟩ :
    Class Fields.Demo.V).assign ofDict "c" (.num 8) one at0).1 = .error e := ⟨_, rfl⟩

/-- `frozen_asks_nothing` applies. -/
example : (⟨.fields m.fields, none, true⟩ : Class Fields.Demo.V).frozen = true := rfl

/-- `outer_functions_atomic_partial` applies: `c = 300` fails twice. -/
example : ((Outer.wrap twice (.core (setC 300))).assign ofObj "c" 0 heap at0).2.1 = heap := by
  obtain ⟨e, he⟩ := failed_ex (r := ((Outer.wrap twice (.core (setC 300))).assign ofObj "c" 0 heap at0).1) (by cbv)
  exact outer_functions_atomic_partial ofObj "c" (Outer.wrap twice (.core (setC 300)))
    (fun s st e h => assignment_atomic m s "c" (.num 300) st e h) twice_settles 0 heap at0 e he

/-- `after_failure_keeps` applies: `assignment_not_atomic`. -/
example : (setC 60 (heap 0) at0).1 = .ok () ∧ ∃ e,
    notBig (setC 60 (heap 0) at0).2.2.extra (heap.put 0 (setC 60 (heap 0) at0).2.1) 0 = .error e := ⟨by rfl, _, rfl⟩

/-- `outer_functions_reach` and `outer_functions_touch_one` apply: the refused 60 stays, as for `assignment_not_atomic`. -/
example : ∀ k, k ≠ "c" → (((Outer.wrap twice (.after notBig (.core (setC 60)))).assign ofObj "c" 0 heap at0).2.1 0).dict.get k =
    (heap 0).dict.get k :=
  (outer_functions_touch_one m rfl (by decide) "c" (.num 60) _ rfl (twice_handsOn 60) ofObj 0 heap at0 rfl).2.1

/-- `straight_success` applies. -/
example : (Outer.after notBig (.core (setC 40))).Straight ∧
    ((Outer.after notBig (.core (setC 40))).assign ofObj "c" 0 heap at0).1 = .ok 0 := ⟨trivial, by rfl⟩

/-- `wrap_passes_on` applies: the value is there. -/
example : (((Outer.wrap (fun _ _ obj => .call obj none fun r _ => .done r) (.core (setC 40))).assign ofObj "c" 3 heap at0).2.1 3).dict.get
    "c" = some (.num 40) := by cbv

/-- `dataclass_functions_atomic_partial` applies. -/
example : ∃ e, ((Outer.before (fun _ _ obj => .ok obj) (.core fun attrs st =>
    (cls [field "a" true true false rejV noDflt] .allow []).validateAssignment attrs "a" "3" st) : Outer String (Dict String)).assign
      (fun _ => "obj") "a" 0 (fun _ => [("a", "1")]) st0).1 = .error e := failed_ex (by rfl)

/-- `told_assigned_name` applies: a function behind a handler that raises when it is not told `c`. -/
example : SameTold "c" (Outer.wrap twice (.after (fun e h obj => if e.fieldName = some "c" then notBig e h obj else
      .error (.valueError (.ok "?"))) (.core (setC 40))))
    (Outer.wrap twice (.after notBig (.core (setC 40)))) ∧ (∀ s st, (setC 40 s st).2.2.extra = st.extra) := by
  refine ⟨.wrap (fun _ _ => rfl) (.after (fun e he => ?_) (.core _)), fun s st => rfl⟩
  funext h obj
  rw [if_pos he]

/-- `told_assigned_name_inner` applies. -/
example : SameToldIn "c" (Inner.before (fun e d => if e.fieldName = some "c" then .ok d else .ok none) (.fields m.fields))
    (.before (fun _ d => .ok d) (.fields m.fields)) ∧
    ∀ d st, (m.fields.validateAssignment d "c" (.num 8) st).2.extra = st.extra := by
  refine ⟨.before (fun e he => ?_) (.fields _), fun d st => rfl⟩
  funext d
  rw [if_pos he]

end PC.AssignFn
