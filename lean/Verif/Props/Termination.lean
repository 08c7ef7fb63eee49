import Verif.Lemmas.EngineBuild

/-
C07: validation of any object graph, cyclic or not, with recursive schemas ends.
-/

namespace PC.Engine
open PC.Comb PC.Coll PC.Union PC.Fields PC.Lookup
variable {α : Type}

/-- Python input: for all schemas, definitions (productive or not), functions, object graphs (cyclic or not) and
platforms, validation ends without a panic, never holding more than the platform's limit of definition references
inside each other (one more is attempted and refused). -/
theorem python_validation_ends (E : Env α) (hp : E.platform.Valid) (hid : ∀ a, E.world.identity a ≠ none)
    (s : Schema α) (a : α) (st : VState α) (hst : st.guard = Guard.State.init) :
    ∃ r, EndsWith E (E.platform.limit + 1) s a st r := by
  refine ⟨run E (E.platform.limit + 1) s a st, fun n f p hn => ?_⟩
  obtain ⟨m, rfl⟩ : ∃ m, n = m + 1 := ⟨n - 1, by omega⟩
  refine (build_at (P := Inv [] 0) (W := E.world) (Q := fun _ => True) _ _ _ _ (fun _ _ _ _ => trivial)
    (fun nm b _ => refs_at_python hp hid f p E.platform.limit m nm [] 0 b (by omega) (by omega) (by omega)) s
    (.inl fun _ => trivial) a trivial st ?_).1.symm
  rw [hst]
  exact ⟨by simp [Guard.Weak, Guard.State.init], Nat.zero_le _⟩

/-- Any input of finite depth, in particular JSON data, for which no guard is taken: validation ends without a panic
when no function-before or function-wrap makes new inputs and the references definitions follow on one and the same
input go down some rank. -/
theorem finite_validation_ends (E : Env α) (hp : E.platform.Valid) (size : α → Nat)
    (hsize : ∀ a x, Inside E.world a x → size x < size a) (rank : Nat → Nat) (R : Nat) (hR : ∀ name, rank name ≤ R)
    (hkeep : ∀ name, (E.defs name).keepsInput)
    (hrank : ∀ name, ∀ other ∈ (E.defs name).direct, rank other < rank name)
    (s : Schema α) (hs : s.keepsInput) (a : α) (st : VState α) (hst : st.guard = Guard.State.init) :
    ∃ r, EndsWith E (size a * (R + 1) + R + 1) s a st r := by
  refine ⟨run E (size a * (R + 1) + R + 1) s a st, fun n f p hn => ?_⟩
  refine (build_at (P := Inv [] 0) (W := E.world) (Q := fun x => size x ≤ size a) _ _ _ _
    (fun b x hb h => Nat.le_trans (Nat.le_of_lt (hsize b x h)) hb)
    (fun nm b hb => ?_) s (.inr hs) a (Nat.le_refl _) st ?_).1.symm
  · have h1 := Nat.mul_le_mul_right (R + 1) hb
    have := hR nm
    exact refs_at_finite hp size hsize rank R hR hkeep hrank f p _ n nm [] 0 b (by omega) (by omega) (by omega)
  · rw [hst]
    exact ⟨by simp [Guard.Weak, Guard.State.init], Nat.zero_le _⟩

/-- Finding: on input without an identity (JSON) the guard is not taken (`src/validators/definitions.rs:83-91`), so a
definition that is nothing but a nullable reference to itself never ends, whatever the fuel. -/
theorem json_recursion_may_not_end (E : Env α) (name : Nat) (hdef : E.defs name = .nullable (.ref name)) (a : α)
    (hid : E.world.identity a = none) (hn : E.world.isNone a = false) (st : VState α) :
    ¬ ∃ N r, EndsWith E N (.ref name) a st r := by
  rintro ⟨N, r, h⟩
  have key : ∀ n (f : Nat → Validator α α) (st : VState α), (∀ st st', (f name a st).1 = (f name a st').1) →
      (run { E with outOfFuel := f, panic := E.panic } n (.ref name) a st).1 = (f name a st).1 := by
    intro n f
    induction n with
    | zero => intro st hf; rfl
    | succ n ih =>
      intro st hf
      have h1 : ∀ st, run { E with outOfFuel := f, panic := E.panic } (n + 1) (.ref name) a st =
          definitionRef { E with outOfFuel := f, panic := E.panic } name
            (nullable E.world.isNone E.world.noneV (refs { E with outOfFuel := f, panic := E.panic } n name)) a st := by
        intro st
        show definitionRef _ _ (build _ _ _ (E.defs name)) a st = _
        rw [hdef]; rfl
      rw [h1]
      simp only [definitionRef, hid, nullable, hn, Bool.false_eq_true, if_false]
      exact (ih _ hf).trans (hf _ _)
  have h1 := key N (fun _ a st => (.ok a, st)) st (fun _ _ => rfl)
  have h2 := key N (fun _ a st => (.error .omitted, st)) st (fun _ _ => rfl)
  have e1 := h N (fun _ a st => (.ok a, st)) E.panic (Nat.le_refl _)
  have e2 := h N (fun _ a st => (.error .omitted, st)) E.panic (Nat.le_refl _)
  rw [e1] at h1
  rw [e2, h1] at h2
  cases h2

/-! ### Concrete cases -/

/-- Objects are addresses, each the list of the objects of `heap`; `identity` tells them apart (Python) or not (JSON). -/
def heapWorld (python : Bool) (heap : Nat → List Nat) : World Nat where
  identity a := if python then some a else none
  isNone _ := false
  noneV := 0
  asList _ a := .ok (⟨(heap a).map .ok, some (heap a).length, true⟩, .exact)
  asSet _ a := .error (.new (.other "set_type") a)
  asTuple _ a := .error (.new (.other "tuple_type") a)
  asDict _ a := .error (.new (.other "dict_type") a)
  view _ a := .error (.new (.other "dict_type") a)
  hashing := ⟨fun x y => x == y, fun _ => none⟩
  keyLoc _ := .s ""
  keyOps := ⟨fun _ => .ok "", fun _ => .s "", fun _ => none⟩
  mkList l := l.length
  mkSet _ := 0
  mkTuple _ := 0
  mkDict _ := 0
  mkTyped _ := 0

/-- Lists of lists: definition 0 is a list of itself. -/
def listsEnv (python : Bool) (heap : Nat → List Nat) : Env Nat where
  world := heapWorld python heap
  platform := Guard.Platform.release
  defs _ := .list false none none false (.ref 0)
  outOfFuel _ := fun a st => (.ok a, st)
  panic := .ok 0

/-- The state at the start of a validation. -/
def freshState : VState Nat := ⟨Guard.State.init, none, none, .off, {}⟩

-- A list that contains itself and an empty list: the run ends, with one recursion error at position 0.
example : ∃ r, EndsWith (listsEnv true fun | 0 => [0, 1] | _ => []) 256 (.ref 0) 0 freshState r :=
  python_validation_ends _ (.inl ⟨rfl, rfl⟩) (fun a h => (by simp [listsEnv, heapWorld] at h)) _ _ _ rfl
example : (run (listsEnv true fun | 0 => [0, 1] | _ => []) 2 (.ref 0) 0 freshState).1 =
    .error (.lineErrors [⟨.recursionLoop, .list [.i 0], 0⟩]) := rfl

-- JSON: a list of two empty lists, definitions that go inside before they refer to themselves.
example : ∃ r, EndsWith (listsEnv false fun | 2 => [1, 0] | _ => []) 3 (.ref 0) 2 freshState r := by
  refine finite_validation_ends (listsEnv false _) (.inl ⟨rfl, rfl⟩) (fun a => if a = 2 then 2 else 1) ?_ (fun _ => 0) 0
    (fun _ => Nat.le_refl _) (fun _ => trivial) (fun _ other h => (by cases h)) (.ref 0) trivial 2 freshState rfl
  intro a x h
  cases h with
  | list h hx =>
    injection h with h; injection h with h _; subst h
    by_cases ha : a = 2
    · subst ha; rcases (by simpa using hx : x = 1 ∨ x = 0) with rfl | rfl <;> decide
    · dsimp only at hx
      split at hx
      · contradiction
      · simp at hx
  | set h => cases h
  | tuple h => cases h
  | dictKey h => cases h
  | dictValue h => cases h
  | field h => cases h
  | extra h => cases h
  | modelField h => cases h
  | «attributes» h => cases h
  | root h => cases h

-- JSON: a definition that is a nullable reference to itself.
example : ¬ ∃ N r, EndsWith { listsEnv false (fun _ => []) with defs := fun _ => .nullable (.ref 0) } N (.ref 0) 0 freshState r :=
  json_recursion_may_not_end _ 0 rfl 0 rfl rfl _

end PC.Engine
