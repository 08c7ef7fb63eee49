import Verif.Spec.Conforms

/-
What is assumed where outputs are validated again: an output is read back as what it was made of, scalar checks accept
their own outputs, values have a size.
-/

namespace PC.Engine
open PC.Comb PC.Coll PC.Union PC.Fields PC.Lookup
variable {α : Type}

/-- Outputs as inputs: lists, tuples, dicts and typed dicts are read back in the order they were made, sets in some
order (`src/input/input_python.rs:356-402,559-610,640-672,707-760`). -/
structure Rebuilds (W : World α) : Prop where
  none : W.isNone W.noneV = true
  isNone : ∀ a, W.isNone a = true → a = W.noneV
  list : ∀ strict ys, ∃ len py ex, W.asList strict (W.mkList ys) = .ok (⟨ys.map .ok, len, py⟩, ex)
  tuple : ∀ strict ys, ∃ len py ex, W.asTuple strict (W.mkTuple ys) = .ok (⟨ys.map .ok, len, py⟩, ex)
  set : ∀ strict ys, SetOk W.hashing ys → ∃ zs len py ex, W.asSet strict (W.mkSet ys) = .ok (⟨zs.map .ok, len, py⟩, ex) ∧
    zs.Perm ys ∧ W.mkSet zs = W.mkSet ys
  dict : ∀ strict kvs, DictOk W.hashing kvs → W.asDict strict (W.mkDict kvs) = .ok (kvs.map .ok)
  typed : ∀ strict d, (d.map Prod.fst).Nodup → ∃ (view : DictView α) (keys : String → α), W.view strict (W.mkTyped d) = .ok view ∧
    (∀ n, view.get (.simple (.ofStr n)) = .ok ((Dict.get n d).map fun v => (.ofStr n, v))) ∧
    view.isPyGetAttr = false ∧ view.entries = .ok (d.map fun kv => .ok (keys kv.1, kv.2)) ∧
    ∀ n, W.keyOps.str (keys n) = .ok n
  model : ∀ cls i, W.source cls (W.mkModel cls i) = .exact i
  fields : ∀ strict fa d, (d.map Prod.fst).Nodup → ∃ (view : DictView α) (keys : String → α),
    W.asFields strict fa (W.mkTyped d) = .ok view ∧
    (∀ n, view.get (.simple (.ofStr n)) = .ok ((Dict.get n d).map fun v => (.ofStr n, v))) ∧
    view.isPyGetAttr = false ∧ view.entries = .ok (d.map fun kv => .ok (keys kv.1, kv.2)) ∧
    ∀ n, W.keyOps.str (keys n) = .ok n
  same : ∀ x y, W.hashing.same x y = W.hashing.same y x

/-- Parts of a value are smaller than the value; an address is the address of one value. -/
structure Sized (W : World α) (size : α → Nat) : Prop where
  list : ∀ ys, ∀ x ∈ ys, size x < size (W.mkList ys)
  tuple : ∀ ys, ∀ x ∈ ys, size x < size (W.mkTuple ys)
  set : ∀ ys, ∀ x ∈ ys, size x < size (W.mkSet ys)
  dictKey : ∀ kvs, ∀ x ∈ kvs, size x.1 < size (W.mkDict kvs)
  dictValue : ∀ kvs, ∀ x ∈ kvs, size x.2 < size (W.mkDict kvs)
  typed : ∀ (d : Dict α), ∀ x ∈ d, size x.2 < size (W.mkTyped d)
  model : ∀ cls (i : Instance α), ∀ x ∈ i.dict, size x.2 < size (W.mkModel cls i)
  identity : ∀ y z id, W.identity y = some id → W.identity z = some id → size y = size z

/-- The check accepts its outputs and gives them back. -/
def Leaf.Idempotent (l : Leaf α) : Prop :=
  ∀ strict x y ex, l.check strict x = .ok (y, ex) → ∃ ex', l.check strict y = .ok (y, ex')

/-- Outputs are exact matches, and what matches exactly is given back. -/
def Leaf.ExactOutputs (l : Leaf α) : Prop :=
  (∀ strict x y ex, l.check strict x = .ok (y, ex) → l.check strict y = .ok (y, .exact)) ∧
  ∀ strict x y, l.check strict x = .ok (y, .exact) → y = x

/-- All members are scalars with exact outputs. -/
def Members.Scalars : Members α → Prop
  | .nil => True
  | .cons _ _ s rest => (∃ l, s = .leaf l ∧ l.ExactOutputs) ∧ rest.Scalars

/-- Schemas whose outputs can be validated again: idempotent scalars, smart unions of scalars only, tagged unions whose
outputs have the tag of their choice, typed dicts and revalidated models that look fields up by name and whose defaults
are of the field's type, revalidated root models where no input is `PydanticUndefined`; no functions, no lax-or-strict schemas.  `m` (strict), `byAlias`,
`byName` and `fromAttributes` are the flags of the run. -/
def revalidable (m byAlias byName fromAttributes : Option Bool) (W : World α) (defs : Nat → Schema α) : Schema α → Prop
  | .leaf l => l.Idempotent
  | .union ltr _ members => ltr = false ∧ members.Scalars
  | .typedDict cfg fields | .typedDictExtras cfg fields _ => fields.names.Nodup ∧
    (∀ n k r d s, fields.Has n k r d s →
      k.select ((byAlias.or cfg.byAlias).getD true) ((byName.or cfg.byName).getD false) = .ok (.simple (.ofStr n))) ∧
    ∀ n k r v s, fields.Has n k r (some v) s → Conforms m W defs s v
  | .tagged cfg choices => ∀ i s y, choices.at? i = some s → Conforms m W defs s y → ∃ tag item,
    findTag W cfg.key (m.getD false) (fromAttributes.getD cfg.fromAttributes) y = .ok (some tag) ∧
    cfg.index tag = some (item, i)
  | .model cfg fields => cfg.revalidate = .always → fields.names.Nodup ∧
    (∀ n k r d s, fields.Has n k r d s →
      k.select ((byAlias.or cfg.byAlias).getD true) ((byName.or cfg.byName).getD false) = .ok (.simple (.ofStr n))) ∧
    (cfg.extra = .allow → fields.ByName) ∧
    ∀ n k r v s, fields.Has n k r (some v) s → Conforms m W defs s v
  | .rootModel _ rv _ => rv = .always → ∀ x, W.isUndefined x = false
  | .laxOrStrict _ _ _ => False
  | .before _ _ => False
  | .after _ _ => False
  | .wrap _ _ => False
  | _ => True

end PC.Engine
