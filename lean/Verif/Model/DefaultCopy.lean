import Mathlib.Data.List.Basic

/-! Defaults as Python objects that refer to each other: when a default is copied before it is handed out
(`src/validators/with_default.rs`). -/

namespace PC.Dflt

/-- A Python value: an object without parts (an int, a str, a function, ...) or a reference to one with parts.  Stands for `PyObject`
in `src/validators/with_default.rs:24-29`. -/
inductive Val where
  | atom (n : Nat)
  | ref (i : Nat)
  deriving DecidableEq, Repr

/-- Classes of objects, as far as hashing and mutation go: `list`, `dict`, `set` and the like (mutable, not hashable); `tuple` and
`frozenset` (immutable, hashable if their items are); instances of ordinary classes (mutable, hashable by identity).  Instances
whose class defines `__hash__` or `__eq__` otherwise are left out. -/
inductive Kind where
  | list
  | tuple
  | instance
  deriving DecidableEq, Repr

/-- An object: its class and what it refers to. -/
structure Obj where
  kind : Kind
  items : List Val
  deriving DecidableEq, Repr

/-- Whether an object can be changed. -/
def Obj.mutable (o : Obj) : Bool := o.kind != .tuple

/-- The objects of the interpreter. -/
abbrev Heap := List Obj

/-- `hash(x)` succeeds (used by `src/validators/with_default.rs:134`). -/
inductive Hashable (h : Heap) : Val → Prop
  | atom (n : Nat) : Hashable h (.atom n)
  | instance {i : Nat} {o : Obj} (ho : h[i]? = some o) (hk : o.kind = .instance) : Hashable h (.ref i)
  | tuple {i : Nat} {o : Obj} (ho : h[i]? = some o) (hk : o.kind = .tuple) (hi : ∀ x ∈ o.items, Hashable h x) : Hashable h (.ref i)

/-- `WithDefaultValidator` with a `default`, `src/validators/with_default.rs:87-96` (the other fields play no part here: whatever the
inner validator does is done by code that is handed the default). -/
structure WithDefault where
  default : Val
  copyDefault : Bool

/-- `WithDefaultValidator::build`, `src/validators/with_default.rs:98-150`: `copy_default` (133-137) is whether hashing the default
raises. -/
def Built (h : Heap) (v : Val) (w : WithDefault) : Prop :=
  w.default = v ∧ (w.copyDefault = true ↔ ¬ Hashable h v)

/-- `v` refers to `w`, directly or not. -/
inductive Reach (h : Heap) (v : Val) : Val → Prop
  | refl : Reach h v v
  | step {i : Nat} {o : Obj} {x : Val} (hr : Reach h v (.ref i)) (ho : h[i]? = some o) (hx : x ∈ o.items) : Reach h v x

/-- Two values in two heaps look the same: a relation between them is respected by the contents of the objects. -/
def Same (h : Heap) (v : Val) (h' : Heap) (v' : Val) : Prop :=
  ∃ R : Val → Val → Prop, R v v' ∧ ∀ x y, R x y →
    (∃ n, x = .atom n ∧ y = .atom n) ∨
    ∃ i j o p, x = .ref i ∧ y = .ref j ∧ h[i]? = some o ∧ h'[j]? = some p ∧ o.kind = p.kind ∧ List.Forall₂ R o.items p.items

/-- References lead to objects. -/
def WF (h : Heap) : Prop := ∀ (i : Nat) (o : Obj), h[i]? = some o → ∀ j, Val.ref j ∈ o.items → j < h.length

/-- A reference leads to an object. -/
def Val.In (h : Heap) : Val → Prop
  | .atom _ => True
  | .ref i => i < h.length

/-- `copy.deepcopy(v)` (called in `src/validators/with_default.rs:187-188`): no object changes, new ones are made, the result looks
like `v` and refers to no mutable object there was.  (An assumption on Python's `copy` module; classes with a `__deepcopy__` of
their own may break it.) -/
structure DeepCopy (h : Heap) (v : Val) (h' : Heap) (v' : Val) : Prop where
  old : ∀ (i : Nat), i < h.length → h'[i]? = h[i]?
  grows : h.length ≤ h'.length
  wf : WF h'
  isIn : v'.In h'
  looks : Same h v h' v'
  fresh : ∀ (i : Nat) (o : Obj), Reach h' v' (.ref i) → h[i]? = some o → o.mutable = false

/-- `WithDefaultValidator::default_value`, `src/validators/with_default.rs:177-208`, up to the validation of the default (191-204). -/
inductive DefaultValue (w : WithDefault) (h : Heap) : Heap → Val → Prop
  | copied {h' : Heap} {v' : Val} (hc : w.copyDefault = true) (hd : DeepCopy h w.default h' v') : DefaultValue w h h' v'
  | shared (hc : w.copyDefault = false) : DefaultValue w h h w.default

end PC.Dflt
