import Verif.Spec.CallClass

/-
Calls, and schemas that only look at the class of an object.
-/

namespace PC.CallClass
variable {α : Type}

/-! ### C92: validated calls -/

/-- C92. The function is called once if the arguments are valid and stand for a call, with these arguments and no
others; otherwise it is not called. -/
theorem called_iff_arguments_valid (E : Env α) (argsV : Validator α α) (ret : Option (Validator α α)) (input : α)
    (st : VState α) (calls : Calls α) (h : (callValidate E argsV ret input st).2 = calls) :
    (calls = [] ∨ ∃ args kwargs, calls = [(args, kwargs)])
      ∧ ∀ args kwargs, calls = [(args, kwargs)] ↔ ∃ o, (argsV input st).1 = .ok o ∧ Binds E o args kwargs := by
  subst h
  unfold callValidate
  cases hv : argsV input st with
  | mk r st1 =>
    cases r with
    | error e =>
      refine ⟨.inl rfl, fun args kwargs => ⟨fun h => (by cases h), ?_⟩⟩
      rintro ⟨o, ho, -⟩
      cases ho
    | ok o =>
      dsimp only
      cases hp : E.asPair o with
      | some p =>
        obtain ⟨args, kwargs⟩ := p
        refine ⟨.inr ⟨args, kwargs, rfl⟩, fun a k => ⟨fun h => ?_, ?_⟩⟩
        · simp only [callWith, List.cons.injEq, Prod.mk.injEq, and_true] at h
          obtain ⟨rfl, rfl⟩ := h
          exact ⟨o, rfl, .pair hp⟩
        · rintro ⟨o', ho, hb⟩
          cases ho
          cases hb with
          | pair h => rw [hp] at h; cases h; rfl
          | dict h _ => rw [hp] at h; cases h
      | none =>
        dsimp only
        cases hd : E.asDict o with
        | some kwargs =>
          refine ⟨.inr ⟨[], kwargs, rfl⟩, fun a k => ⟨fun h => ?_, ?_⟩⟩
          · simp only [callWith, List.cons.injEq, Prod.mk.injEq, and_true] at h
            obtain ⟨rfl, rfl⟩ := h
            exact ⟨o, rfl, .dict hp hd⟩
          · rintro ⟨o', ho, hb⟩
            cases ho
            cases hb with
            | pair h => rw [hp] at h; cases h
            | dict _ h => rw [hd] at h; cases h; rfl
        | none =>
          refine ⟨.inl rfl, fun a k => ⟨fun h => (by cases h), ?_⟩⟩
          rintro ⟨o', ho, hb⟩
          cases ho
          cases hb with
          | pair h => rw [hp] at h; cases h
          | dict _ h => rw [hd] at h; cases h

/-- C92. Validation succeeds with `w` if the arguments are valid, the function returns `v`, and `w` is `v`, or what the
return schema makes of it. -/
theorem call_succeeds_iff (E : Env α) (argsV : Validator α α) (ret : Option (Validator α α)) (input : α) (st : VState α)
    (w : α) :
    (callValidate E argsV ret input st).1.1 = .ok w ↔
      ∃ o args kwargs v, (argsV input st).1 = .ok o ∧ Binds E o args kwargs ∧ E.call args kwargs = .ok v
        ∧ match ret with
          | none => w = v
          | some rv => (rv v (argsV input st).2).1 = .ok w := by
  have hret : ∀ v st1, (returned ret v st1).1 = .ok w ↔
      match ret with
      | none => w = v
      | some rv => (rv v st1).1 = .ok w := by
    intro v st1
    cases ret with
    | none =>
      simp only [returned, Except.ok.injEq]
      exact eq_comm
    | some rv =>
      simp only [returned]
      cases hr : rv v st1 with
      | mk r st2 => cases r <;> simp
  have hcall : ∀ args kwargs st1, (callWith E ret args kwargs st1).1.1 = .ok w ↔
      ∃ v, E.call args kwargs = .ok v ∧ (returned ret v st1).1 = .ok w := by
    intro args kwargs st1
    unfold callWith
    cases hc : E.call args kwargs with
    | error e => simp
    | ok v => simp
  unfold callValidate
  cases hv : argsV input st with
  | mk r st1 =>
    cases r with
    | error e => simp
    | ok o =>
      dsimp only
      cases hp : E.asPair o with
      | some p =>
        obtain ⟨args, kwargs⟩ := p
        dsimp only
        rw [hcall]
        constructor
        · rintro ⟨v, h1, h2⟩
          exact ⟨o, args, kwargs, v, rfl, .pair hp, h1, (hret v st1).1 h2⟩
        · rintro ⟨o', a, k, v, ho, hb, h1, h2⟩
          cases ho
          cases hb with
          | pair h => rw [hp] at h; cases h; exact ⟨v, h1, (hret v st1).2 h2⟩
          | dict h _ => rw [hp] at h; cases h
      | none =>
        dsimp only
        cases hd : E.asDict o with
        | some kwargs =>
          dsimp only
          rw [hcall]
          constructor
          · rintro ⟨v, h1, h2⟩
            exact ⟨o, [], kwargs, v, rfl, .dict hp hd, h1, (hret v st1).1 h2⟩
          · rintro ⟨o', a, k, v, ho, hb, h1, h2⟩
            cases ho
            cases hb with
            | pair h => rw [hp] at h; cases h
            | dict _ h => rw [hd] at h; cases h; exact ⟨v, h1, (hret v st1).2 h2⟩
        | none =>
          dsimp only
          constructor
          · intro h; cases h
          · rintro ⟨o', a, k, v, ho, hb, -, -⟩
            cases ho
            cases hb with
            | pair h => rw [hp] at h; cases h
            | dict _ h => rw [hd] at h; cases h

/-- C92. If validation fails, the errors are those of the arguments, without a call; or the exception of the function as
it is (a `ValueError` too, unlike those of validation functions); or those of the return schema, each located under
`return`; or a `TypeError` because the valid arguments do not stand for a call. -/
theorem call_fails_as (E : Env α) (argsV : Validator α α) (ret : Option (Validator α α)) (input : α) (st : VState α)
    (e : ValError α) (h : (callValidate E argsV ret input st).1.1 = .error e) :
    (argsV input st).1 = .error e
      ∨ ∃ o, (argsV input st).1 = .ok o
        ∧ ((∃ args kwargs x, Binds E o args kwargs ∧ E.call args kwargs = .error x ∧ e = .internal x)
          ∨ (∃ args kwargs v rv e', Binds E o args kwargs ∧ E.call args kwargs = .ok v ∧ ret = some rv
              ∧ (rv v (argsV input st).2).1 = .error e' ∧ e = e'.withOuterLocation (.s "return"))
          ∨ ((∀ args kwargs, ¬ Binds E o args kwargs) ∧ e = .internal ⟨"TypeError"⟩)) := by
  have hcall : ∀ o args kwargs st1, Binds E o args kwargs → (callWith E ret args kwargs st1).1.1 = .error e →
      (∃ args kwargs x, Binds E o args kwargs ∧ E.call args kwargs = .error x ∧ e = .internal x)
      ∨ (∃ args kwargs v rv e', Binds E o args kwargs ∧ E.call args kwargs = .ok v ∧ ret = some rv
          ∧ (rv v st1).1 = .error e' ∧ e = e'.withOuterLocation (.s "return")) := by
    intro o args kwargs st1 hb hc
    unfold callWith at hc
    cases hx : E.call args kwargs with
    | error x =>
      rw [hx] at hc
      simp only [Except.error.injEq] at hc
      exact .inl ⟨args, kwargs, x, hb, hx, hc.symm⟩
    | ok v =>
      rw [hx] at hc
      cases ret with
      | none => simp [returned] at hc
      | some rv =>
        simp only [returned] at hc
        cases hr : rv v st1 with
        | mk r st2 =>
          rw [hr] at hc
          cases r with
          | ok w => simp at hc
          | error e' =>
            simp only [Except.error.injEq] at hc
            exact .inr ⟨args, kwargs, v, rv, e', hb, hx, rfl, by rw [hr], hc.symm⟩
  unfold callValidate at h
  cases hv : argsV input st with
  | mk r st1 =>
    rw [hv] at h
    cases r with
    | error e' => exact .inl h
    | ok o =>
      refine .inr ⟨o, rfl, ?_⟩
      dsimp only at h
      cases hp : E.asPair o with
      | some p =>
        obtain ⟨args, kwargs⟩ := p
        rw [hp] at h
        exact (hcall o _ _ _ (.pair hp) h).elim .inl (fun h => .inr (.inl h))
      | none =>
        rw [hp] at h
        dsimp only at h
        cases hd : E.asDict o with
        | some kwargs =>
          rw [hd] at h
          exact (hcall o _ _ _ (.dict hp hd) h).elim .inl (fun h => .inr (.inl h))
        | none =>
          rw [hd] at h
          simp only [Except.error.injEq] at h
          refine .inr (.inr ⟨fun args kwargs hb => ?_, h.symm⟩)
          cases hb with
          | pair h => rw [hp] at h; cases h
          | dict _ h => rw [hd] at h; cases h

/-! ### C92: instances, classes and callables -/

/-- C92. `is-instance` gives the object itself if it is an instance, and never anything else; JSON and strings are
refused. The state stays as it is, in particular the exactness. -/
theorem is_instance_exact (E : Env α) (input : α) (st : VState α) :
    (∀ w, (isInstanceValidate E input st).1 = .ok w ↔ E.asPython input = some w ∧ E.isInstance w = .ok true)
      ∧ (isInstanceValidate E input st).2 = st
      ∧ (E.asPython input = none →
          (isInstanceValidate E input st).1 = .error (.new (.other "needs_python_object") input))
      ∧ ∀ w, E.asPython input = some w → E.isInstance w = .ok false →
          (isInstanceValidate E input st).1 = .error (.new (.other "is_instance_of") input) := by
  unfold isInstanceValidate
  cases hp : E.asPython input with
  | none => simp
  | some obj =>
    dsimp only
    cases hi : E.isInstance obj with
    | error e => simp_all
    | ok b => cases b <;> simp_all

/-- C92. The same of `is-subclass`, where an object that is not a class is refused. -/
theorem is_subclass_exact (E : Env α) (input : α) (st : VState α) :
    (∀ w, (isSubclassValidate E input st).1 = .ok w ↔ E.asPython input = some w ∧ E.isSubclass w = some (.ok true))
      ∧ (isSubclassValidate E input st).2 = st
      ∧ (E.asPython input = none →
          (isSubclassValidate E input st).1 = .error (.new (.other "needs_python_object") input))
      ∧ ∀ w, E.asPython input = some w → (E.isSubclass w = none ∨ E.isSubclass w = some (.ok false)) →
          (isSubclassValidate E input st).1 = .error (.new (.other "is_subclass_of") input) := by
  unfold isSubclassValidate
  cases hp : E.asPython input with
  | none => simp
  | some obj =>
    dsimp only
    cases hi : E.isSubclass obj with
    | none => simp_all
    | some r =>
      cases r with
      | error e => simp_all
      | ok b => cases b <;> simp_all

/-- C92. `callable` gives a callable itself and refuses the rest; nothing it accepts counts as more than a lax match. -/
theorem callable_exact (E : Env α) (input : α) (st : VState α) :
    (∀ w, (callableValidate E input st).1 = .ok w ↔ E.asPython input = some w ∧ E.isCallable w = true)
      ∧ ((∀ w, (callableValidate E input st).1 ≠ .ok w) →
          (callableValidate E input st).1 = .error (.new (.other "callable_type") input))
      ∧ ((callableValidate E input st).2.exactness = none ∨ (callableValidate E input st).2.exactness = some .lax) := by
  have hs : (st.floorExactness .lax).exactness = none ∨ (st.floorExactness .lax).exactness = some .lax := by
    unfold VState.floorExactness
    cases h : st.exactness with
    | none => simp [h]
    | some e => cases e <;> simp [h]
  unfold callableValidate
  cases hp : E.asPython input with
  | none => exact ⟨by simp, by simp, hs⟩
  | some obj =>
    dsimp only
    by_cases hc : E.isCallable obj = true
    · rw [if_pos hc]
      refine ⟨fun w => ?_, fun h => absurd rfl (h obj), hs⟩
      simp only [Except.ok.injEq, Option.some.injEq]
      exact ⟨fun h => ⟨h, h ▸ hc⟩, fun h => h.1⟩
    · rw [if_neg hc]
      refine ⟨fun w => ?_, fun _ => rfl, hs⟩
      simp only [reduceCtorEq, Option.some.injEq, false_iff]
      rintro ⟨rfl, h⟩
      exact hc h

section
/-- Objects: 1 is the tuple `((2,), {'x': 3})`, 4 the dict `{'x': 3}`, 5 neither; the function adds its arguments and
fails without a positional one. -/
def demo : Env Nat where
  asPair a := if a = 1 then some ([2], [("x", 3)]) else none
  asDict a := if a = 4 then some [("x", 3)] else none
  call args kwargs := if args = [] then .error ⟨"ValueError"⟩ else .ok (args.sum + (kwargs.map (·.2)).sum)
  asPython a := if a < 100 then some a else none
  isInstance a := .ok (a % 2 = 0)
  isSubclass a := if a = 7 then some (.ok true) else none
  isCallable a := a = 9

def fresh : VState Nat := .new {} Guard.State.init .off

def same : Validator Nat Nat := fun a st => (.ok a, st)
def refuse : Validator Nat Nat := fun a st => (.error (.new (.other "int_type") a), st)

example : Binds demo 1 [2] [("x", 3)] ∧ Binds demo 4 [] [("x", 3)] ∧ ∀ a k, ¬ Binds demo 5 a k :=
  ⟨.pair rfl, .dict rfl rfl, fun a k h => by cases h <;> rename_i h <;> cases h⟩

example : (callValidate demo same none 1 fresh).1.1 = .ok 5 ∧ (callValidate demo same none 1 fresh).2 = [([2], [("x", 3)])]
    ∧ (callValidate demo same (some refuse) 1 fresh).1.1
      = .error (.lineErrors [⟨.other "int_type", .list [.s "return"], 5⟩])
    ∧ (callValidate demo same none 4 fresh).1.1 = .error (.internal ⟨"ValueError"⟩)
    ∧ (callValidate demo same none 5 fresh).1.1 = .error (.internal ⟨"TypeError"⟩)
    ∧ (callValidate demo refuse none 1 fresh).2 = [] := by
  refine ⟨?_, ?_, ?_, ?_, ?_, ?_⟩ <;> rfl

example : (isInstanceValidate demo 2 fresh).1 = .ok 2
    ∧ (isInstanceValidate demo 102 fresh).1 = .error (.new (.other "needs_python_object") 102)
    ∧ (isSubclassValidate demo 7 fresh).1 = .ok 7
    ∧ (isSubclassValidate demo 8 fresh).1 = .error (.new (.other "is_subclass_of") 8)
    ∧ (callableValidate demo 9 fresh).1 = .ok 9
    ∧ (callableValidate demo 8 fresh).1 = .error (.new (.other "callable_type") 8) := by
  refine ⟨?_, ?_, ?_, ?_, ?_, ?_⟩ <;> rfl

end

end PC.CallClass
