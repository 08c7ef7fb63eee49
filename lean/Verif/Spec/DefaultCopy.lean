import Verif.Model.DefaultCopy

/-! What the rest of the program may do between and after validations: anything with the objects it can get at. -/

namespace PC.Dflt

/-- Reachable from one of several values. -/
def ReachAny (h : Heap) (roots : List Val) (x : Val) : Prop := ∃ r ∈ roots, Reach h r x

/-- A value code can put into an object: an atom or something it can get at. -/
def Usable (h : Heap) (roots : List Val) (x : Val) : Prop := (∃ n, x = .atom n) ∨ ReachAny h roots x

/-- One step of the program, which holds the values `roots`: it makes an object, changes one it can get at, takes up a reference, or
has the validator supply the default (the last component). -/
inductive Step (w : WithDefault) : Heap × List Val → Heap × List Val → Option Val → Prop
  | alloc {h : Heap} {roots : List Val} (o : Obj) (hi : ∀ x ∈ o.items, Usable h roots x) :
      Step w (h, roots) (h ++ [o], .ref h.length :: roots) none
  | write {h : Heap} {roots : List Val} (i : Nat) (o : Obj) (items : List Val) (hr : ReachAny h roots (.ref i))
      (ho : h[i]? = some o) (hm : o.mutable = true) (hi : ∀ x ∈ items, Usable h roots x) :
      Step w (h, roots) (h.set i { o with items := items }, roots) none
  | take {h : Heap} {roots : List Val} (x : Val) (hx : Usable h roots x) : Step w (h, roots) (h, x :: roots) none
  | default {h h' : Heap} {roots : List Val} {v : Val} (hd : DefaultValue w h h' v) :
      Step w (h, roots) (h', v :: roots) (some v)

/-- Any number of steps. -/
inductive Run (w : WithDefault) (s : Heap × List Val) : Heap × List Val → Prop
  | refl : Run w s s
  | step {t u : Heap × List Val} {d : Option Val} (hr : Run w s t) (hs : Step w t u d) : Run w s u

/-- `v` refers to no object that can change. -/
def Frozen (h : Heap) (v : Val) : Prop := ∀ (i : Nat) (o : Obj), Reach h v (.ref i) → h[i]? = some o → o.mutable = false

/-- The program can get at no part of `v` that can change. -/
def Apart (h : Heap) (roots : List Val) (v : Val) : Prop :=
  ∀ (i : Nat) (o : Obj), ReachAny h roots (.ref i) → Reach h v (.ref i) → h[i]? = some o → o.mutable = false

end PC.Dflt
