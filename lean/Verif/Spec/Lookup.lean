import Verif.Model.LookupKey

/-
Vocabulary in which the properties of alias lookup (C08, C09) are stated.
-/

namespace PC.Lookup
variable {α : Type}

/-- The alias paths an alias declares, in order. -/
def Alias.declared : Alias → List (List Item)
  | .name a => [[.s a]]
  | .path items => [items]
  | .paths ps => ps

/-- The paths that may supply a field: its aliases if alias lookup is on, then its name if name
lookup is on; a field without alias is always found by its name. -/
def searched (alias? : Option Alias) (name : String) (byAlias byName : Bool) : List (List Item) :=
  match alias? with
  | none => [[.s name]]
  | some a => (if byAlias then a.declared else []) ++ (if byName then [[.s name]] else [])

/-- The alias path a lookup path stands for. -/
def LookupPath.items (p : LookupPath) : List Item := .s p.first :: p.rest.map PathItem.toPy

/-- Subscripting `v` with the items one after the other gives `w`; strings are not subscripted. -/
inductive Follows (ops : PyOps α) : α → List Item → α → Prop where
  | nil (v : α) : Follows ops v [] v
  | cons {v v' w : α} {item : Item} {rest : List Item} (hs : ops.isStr v = false)
      (hg : ops.getItem v item = some v') (hr : Follows ops v' rest w) :
      Follows ops v (item :: rest) w

/-- The path resolves to `w` in the dict with the given `get`. -/
def Resolves (ops : PyOps α) (get : String → Except PyErr (Option α)) (path : List Item) (w : α) :
    Prop :=
  ∃ k rest v, path = .s k :: rest ∧ get k = .ok (some v) ∧ Follows ops v rest w

/-- One step of a path in an object: integers subscript, names are attributes except of dicts. -/
def attrStep (ops : PyOps α) (v : α) (item : Item) : Except PyErr (Option α) :=
  match item with
  | .s k =>
    if ops.isDict v then .ok (if ops.isStr v then none else ops.getItem v item) else ops.getAttr v k
  | .i _ => .ok (if ops.isStr v then none else ops.getItem v item)

/-- Following the attributes and subscripts of the path from `v` gives `w`. -/
inductive AttrFollows (ops : PyOps α) : α → List Item → α → Prop where
  | nil (v : α) : AttrFollows ops v [] v
  | cons {v v' w : α} {item : Item} {rest : List Item} (hg : attrStep ops v item = .ok (some v'))
      (hr : AttrFollows ops v' rest w) : AttrFollows ops v (item :: rest) w

/-- `r` is the value at the first of the `paths` that resolves, if any does. -/
def IsFirst (Res : List Item → α → Prop) (paths : List (List Item)) (r : Option (List Item × α)) :
    Prop :=
  match r with
  | some (p, v) => ∃ pre post, paths = pre ++ p :: post ∧ Res p v ∧ ∀ q ∈ pre, ∀ w, ¬ Res q w
  | none => ∀ q ∈ paths, ∀ w, ¬ Res q w

/-! ## Data with both a JSON and a Python form -/

/-- Python objects made of `None`, `bool`, numbers, `str`, `list` and `dict` (with `str` and `int`
keys, in insertion order). -/
inductive Py where
  | none
  | bool (b : Bool)
  | num (text : String)
  | str (s : String)
  | list (items : List Py)
  | dict (entries : List (Item × Py))

/-- `d[k] = v` on a dict. -/
def setEntry (k : Item) (v : Py) : List (Item × Py) → List (Item × Py)
  | [] => [(k, v)]
  | (k', v') :: rest => if k' = k then (k, v) :: rest else (k', v') :: setEntry k v rest

/-- `d.get(k)`. -/
def getEntry (k : Item) : List (Item × Py) → Option Py
  | [] => Option.none
  | (k', v) :: rest => if k' = k then some v else getEntry k rest

mutual
/-- The Python form of a JSON value: `json.loads` of it. -/
def Json.toPy : Json → Py
  | .null => .none
  | .bool b => .bool b
  | .num t => .num t
  | .str s => .str s
  | .arr items => .list (Json.toPyList items)
  | .obj entries => .dict (Json.toPyEntries entries [])
def Json.toPyList : List Json → List Py
  | [] => []
  | j :: rest => j.toPy :: Json.toPyList rest
/-- Set the entries one after the other in the dict `d`. -/
def Json.toPyEntries : List (String × Json) → List (Item × Py) → List (Item × Py)
  | [], d => d
  | (k, v) :: rest, d => Json.toPyEntries rest (setEntry (.s k) v.toPy d)
end

/-- `l[i]` on a list: negative indices count from the end. -/
def listItem (items : List Py) (i : Int) : Option Py :=
  if 0 ≤ i then items[i.toNat]?
  else if -(items.length : Int) ≤ i then items[(items.length + i).toNat]?
  else Option.none

/-- Subscription and attributes of these Python objects (attributes: none of interest). -/
def pyOps : PyOps Py where
  isStr := fun v => match v with
    | .str _ => true
    | _ => false
  isDict := fun v => match v with
    | .dict _ => true
    | _ => false
  getItem := fun v item => match v with
    | .dict entries => getEntry item entries
    | .list items =>
      match item with
      | .i i => listItem items i
      | .s _ => Option.none
    | .str s =>
      match item with
      | .i i => (if 0 ≤ i then s.toList[i.toNat]? else s.toList[(s.length + i).toNat]?).map
          fun c => .str (toString c)
      | .s _ => Option.none
    | _ => Option.none
  getAttr := fun _ _ => .ok Option.none

end PC.Lookup
