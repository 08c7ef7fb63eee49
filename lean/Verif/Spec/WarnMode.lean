import Verif.Model.WarnMode

/-
What a serialisation gives apart from warnings, and which warnings it has.
-/

namespace PC.WarnMode

mutual

/-- The outcome, were there no warnings at all. -/
def value {V : Type} : Prog V → Except Exc V
  | .ret r => r
  | .register _ k => value k
  | .fallback isNone check _ k => value (k (isNone || !check))
  | .wrap body k => value (k (bodyValue body))

/-- The outcome of a `wrap` function, were there no warnings at all. -/
def bodyValue {V : Type} : Body V → Except Exc V
  | .ret r => r
  | .call inner k => bodyValue (k (value inner))

end

/-- The warnings of a serialisation that calls no `wrap` function, in order: what is registered, and what is fallen back
for, but not for `None`, and not while checking. -/
def warns {V : Type} : Prog V → List Text
  | .ret _ => []
  | .register w k => w :: warns k
  | .fallback false false w k => w :: warns (k true)
  | .fallback isNone _ _ k => warns (k isNone)
  | .wrap _ _ => []

/-- No `wrap` function is called. -/
def NoWrap {V : Type} : Prog V → Prop
  | .ret _ => True
  | .register _ k => NoWrap k
  | .fallback _ _ _ k => ∀ b, NoWrap (k b)
  | .wrap _ _ => False

mutual

/-- No warning has a NUL in its text. -/
def Clean {V : Type} : Prog V → Prop
  | .ret _ => True
  | .register w k => '\x00' ∉ w ∧ Clean k
  | .fallback _ _ w k => '\x00' ∉ w ∧ ∀ b, Clean (k b)
  | .wrap body k => CleanBody body ∧ ∀ r, Clean (k r)

/-- The same for a `wrap` function. -/
def CleanBody {V : Type} : Body V → Prop
  | .ret _ => True
  | .call inner k => Clean inner ∧ ∀ r, CleanBody (k r)

end

mutual

/-- No `wrap` function, and nothing that calls one, catches exceptions: after one, an exception is raised and nothing else
done. -/
def Passes {V : Type} : Prog V → Prop
  | .ret _ => True
  | .register _ k => Passes k
  | .fallback _ _ _ k => ∀ b, Passes (k b)
  | .wrap body k => PassesBody body ∧ (∀ v, Passes (k (.ok v))) ∧ ∀ e, ∃ e', k (.error e) = .ret (.error e')

/-- The same for a `wrap` function. -/
def PassesBody {V : Type} : Body V → Prop
  | .ret _ => True
  | .call inner k => Passes inner ∧ (∀ v, PassesBody (k (.ok v))) ∧ ∀ e, ∃ e', k (.error e) = .ret (.error e')

end

/-- The warnings of a serialisation itself, in order, without those registered for handlers. -/
def own {V : Type} : Prog V → List Text
  | .ret _ => []
  | .register w k => w :: own k
  | .fallback false false w k => w :: own (k true)
  | .fallback isNone _ _ k => own (k isNone)
  | .wrap body k => own (k (bodyValue body))

/-- One warning with the text of all, if there are any and there is a value. -/
def report {V : Type} (r : Except Exc V) (ws : List Text) : List Text :=
  match r with
  | .error _ => []
  | .ok _ => if ws = [] then [] else [message ws]

mutual

/-- What is issued while a serialisation runs, given the warnings before it: only by handlers. -/
def issued {V : Type} : Prog V → List Text → List Text
  | .ret _, _ => []
  | .register w k, before => issued k (before ++ [w])
  | .fallback false false w k, before => issued (k true) (before ++ [w])
  | .fallback isNone _ _ k, before => issued (k isNone) before
  | .wrap body k, before => issuedBody body before ++ issued (k (bodyValue body)) before

/-- What the calls of a handler issue: each all the warnings before the function, those of earlier calls, and its own. -/
def issuedBody {V : Type} : Body V → List Text → List Text
  | .ret _, _ => []
  | .call inner k, before =>
    issued inner before ++ report (value inner) (before ++ own inner) ++
      issuedBody (k (value inner)) (before ++ own inner)

end

/-- The full claim: whatever the mode, what is returned is what is returned without warnings, and an exception of the
serialisation is raised in every mode. -/
def OnlyWarns {V : Type} (p : Prog V) : Prop :=
  ∀ filter m, (∀ v, (serialize filter m p).1 = .ok v → value p = .ok v) ∧
    (∀ e, value p = .error e → (serialize filter m p).1 = .error e)

end PC.WarnMode
