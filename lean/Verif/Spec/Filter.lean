/-
What `include` and `exclude` mean, written without reference to how the filters are implemented.
-/
import Verif.Model.Filter

namespace PC.Filter

/-- Key `j` of a filter refers to the item at key `k`. In a sequence of `n` items (`len = some n`) the
key `-1` refers to the last item, `-2` to the one before, and so on. -/
def refers (len : Option Nat) (j k : Key) : Bool :=
  j == k ||
    match len, j, k with
    | some n, .i b, .i a => decide (b < 0) && decide (b + n = a)
    | _, _, _ => false

/-- What a filter says about the item at key `k`: `none` if it does not mention it, `ell` if it names
the item as a whole, otherwise the filter for what is inside the item. An entry for the item itself
comes before an entry for `__all__`. -/
def entry (len : Option Nat) (f : FVal) (k : Key) : Option FVal :=
  match f with
  | .set ks => if ks.any (fun j => refers len j k || j == Key.all) then some .ell else Option.none
  | .dict es =>
    match es.find? (fun e => refers len e.1 k) with
    | some e => some e.2
    | Option.none => (es.find? (fun e => e.1 == Key.all)).map (·.2)
  | _ => Option.none

/-- Has a filter been given at all? (`None` is no filter.) -/
def given : FVal → Bool
  | .none => false
  | _ => true

/-- The filter to use inside an item, from what was said about the item. -/
def inside : Option FVal → FVal
  | some .ell => .none
  | some f => f
  | Option.none => .none

/-- Is the item at key `k` kept, and with which filters is its content then filtered? It goes when
`exclude` names it, and it goes when there is an `include` that does not mention it. -/
def verdict (len : Option Nat) (k : Key) (incl excl : FVal) : Option (FVal × FVal) :=
  if (entry len excl k).any FVal.isEll then Option.none
  else if given incl && (entry len incl k).isNone then Option.none
  else some (inside (entry len incl k), inside (entry len excl k))

mutual
/-- The value that is left after `include` and `exclude`. -/
def select (v : Val) (incl excl : FVal) : Val :=
  match v with
  | .leaf n => .leaf n
  | .list items => .list (selectItems items.length 0 items incl excl)
  | .dict es => .dict (selectPairs es incl excl)
/-- The items that are left of a sequence of `len` items, from `index` on. -/
def selectItems (len index : Nat) (items : List Val) (incl excl : FVal) : List Val :=
  match items with
  | [] => []
  | v :: rest =>
    match verdict (some len) (.i index) incl excl with
    | Option.none => selectItems len (index + 1) rest incl excl
    | some (ni, ne) => select v ni ne :: selectItems len (index + 1) rest incl excl
/-- The entries that are left of a dict. -/
def selectPairs (es : List (Key × Val)) (incl excl : FVal) : List (Key × Val) :=
  match es with
  | [] => []
  | (k, v) :: rest =>
    match verdict Option.none k incl excl with
    | Option.none => selectPairs rest incl excl
    | some (ni, ne) => (k, select v ni ne) :: selectPairs rest incl excl
end

/-- The index in a sequence of `n` items meant by a key. -/
def resolve (n : Nat) : Key → Key
  | .i b => if b < 0 then .i (b + n) else .i b
  | k => k

/-- The key is an index of a sequence of `n` items (or not an integer). -/
def InRange (n : Nat) : Key → Prop
  | .i b => -(n : Int) ≤ b ∧ b < n
  | .s _ => True

/-- No item has a filter for its content both of its own and from `__all__` (these are merged, see
`merge_entry`). -/
def NoMerge (es : List (Key × FVal)) : Prop :=
  ∀ e ∈ es, ∀ a ∈ es, a.1 = Key.all → e.1 ≠ Key.all → e.2.isEll = true ∨ a.2.isEll = true

/-- The filter can be applied to the value: it is made of sets and dicts, integer keys meant for a
sequence are within its range and each means a different item, and nothing has to be merged. -/
inductive Fits : Val → FVal → Prop where
  | none (v : Val) : Fits v .none
  | leaf (n : Nat) (f : FVal) : Fits (.leaf n) f
  | listSet (items : List Val) (ks : List Key)
      (range : ∀ j ∈ ks, InRange items.length j) : Fits (.list items) (.set ks)
  | listDict (items : List Val) (es : List (Key × FVal))
      (range : ∀ e ∈ es, InRange items.length e.1)
      (distinct : (es.map (fun e => resolve items.length e.1)).Nodup)
      (noMerge : NoMerge es)
      (below : ∀ (i : Nat) (v : Val) (w : FVal), items[i]? = some v →
        entry (some items.length) (.dict es) (.i i) = some w → w.isEll = false → Fits v w) :
      Fits (.list items) (.dict es)
  | dictSet (es : List (Key × Val)) (ks : List Key) : Fits (.dict es) (.set ks)
  | dictDict (es : List (Key × Val)) (fs : List (Key × FVal))
      (distinct : (fs.map (·.1)).Nodup)
      (noAll : ∀ e ∈ es, e.1 ≠ Key.all)
      (noMerge : NoMerge fs)
      (below : ∀ (k : Key) (v : Val) (w : FVal), (k, v) ∈ es →
        entry Option.none (.dict fs) k = some w → w.isEll = false → Fits v w) :
      Fits (.dict es) (.dict fs)

/-- The serialiser has no `include` or `exclude` in its own schema. -/
def Ser.plain : Ser → Prop
  | .any => True
  | .list f s => (f = .any ∨ f = .schema Option.none Option.none) ∧ s.plain
  | .dict f s => (f = .any ∨ f = .schema Option.none Option.none) ∧ s.plain

mutual
/-- The first value is what is left of the second after leaving out some items, at any depth. -/
inductive Sub : Val → Val → Prop where
  | leaf (n : Nat) : Sub (.leaf n) (.leaf n)
  | list (xs ys : List Val) : SubItems xs ys → Sub (.list xs) (.list ys)
  | dict (xs ys : List (Key × Val)) : SubPairs xs ys → Sub (.dict xs) (.dict ys)
/-- The same for the items of a sequence, in order. -/
inductive SubItems : List Val → List Val → Prop where
  | nil : SubItems [] []
  | drop (xs : List Val) (y : Val) (ys : List Val) : SubItems xs ys → SubItems xs (y :: ys)
  | keep (x y : Val) (xs ys : List Val) : Sub x y → SubItems xs ys → SubItems (x :: xs) (y :: ys)
/-- The same for the entries of a dict. -/
inductive SubPairs : List (Key × Val) → List (Key × Val) → Prop where
  | nil : SubPairs [] []
  | drop (xs : List (Key × Val)) (y : Key × Val) (ys : List (Key × Val)) :
      SubPairs xs ys → SubPairs xs (y :: ys)
  | keep (k : Key) (x y : Val) (xs ys : List (Key × Val)) :
      Sub x y → SubPairs xs ys → SubPairs ((k, x) :: xs) ((k, y) :: ys)
end

/-- The second filter says at least as much as the first: it mentions every item the first mentions, it
names as a whole every item the first names as a whole, and where both have a filter for the content
of an item, the second's says at least as much. -/
inductive Weaker : FVal → FVal → Prop where
  | mk (f g : FVal)
      (mentioned : ∀ (len : Option Nat) (k : Key), (entry len f k).isSome = true →
        (entry len g k).isSome = true)
      (whole : ∀ (len : Option Nat) (k : Key), entry len f k = some .ell → entry len g k = some .ell)
      (content : ∀ (len : Option Nat) (k : Key) (w w' : FVal), entry len f k = some w →
        entry len g k = some w' → w.isEll = false → w'.isEll = false → Weaker w w') :
      Weaker f g

/-- `Says k f r`: the filter `f` (if any) says `r` about the key `k`, where dicts are read with
`merge_all_value` (described by `merge_entry`). -/
inductive Says (k : Key) : Option FVal → Option FVal → Prop where
  | absent : Says k Option.none Option.none
  | null : Says k (some .none) Option.none
  | set (ks : List Key) :
      Says k (some (.set ks)) (if ks.contains k || ks.contains Key.all then some .ell else Option.none)
  | dict (d : List (Key × FVal)) (r : Option FVal) (h : mergeAllValue d k = .ok r) :
      Says k (some (.dict d)) r

end PC.Filter
