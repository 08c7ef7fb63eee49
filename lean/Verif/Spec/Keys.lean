import Verif.Model.Keys

/-
When two keys are of the same kind.
-/

namespace PC.Keys

mutual
/-- Keys of the same kind: the same type, and for tuples the same length with items of the same kinds in turn.
With infinite and nan values written as null only finite floats count. -/
def sameKind (nullFloats : Bool) : Key → Key → Bool
  | .none, .none => true
  | .bool _, .bool _ => true
  | .int _, .int _ => true
  | .float t, .float t' => !nullFloats || (isFinite t && isFinite t')
  | .str _, .str _ => true
  | .bytes _, .bytes _ => true
  | .other ty _, .other ty' _ => ty == ty'
  | .tuple ks, .tuple ks' => sameKinds nullFloats ks ks'
  | .enum cls v, .enum cls' v' => cls == cls' && sameKind nullFloats v v'
  | _, _ => false
/-- Lists of keys of the same kinds. -/
def sameKinds (nullFloats : Bool) : List Key → List Key → Bool
  | [], [] => true
  | k :: ks, k' :: ks' => sameKind nullFloats k k' && sameKinds nullFloats ks ks'
  | _, _ => false
end

mutual
/-- No comma in the texts that the parts of a tuple consist of. -/
def CommaFree (c : Cfg) : Key → Prop
  | .tuple ks => CommaFrees c ks
  | .enum _ v => CommaFree c v
  | k => ∀ t, inferKey c k = .ok t → ',' ∉ t
/-- The same for each key of a list. -/
def CommaFrees (c : Cfg) : List Key → Prop
  | [] => True
  | k :: ks => CommaFree c k ∧ CommaFrees c ks
end

/-- If the key is a tuple (or an enum member whose value is one), no comma in the texts of its parts. -/
def PartsCommaFree (c : Cfg) : Key → Prop
  | .tuple ks => CommaFrees c ks
  | .enum _ v => PartsCommaFree c v
  | _ => True

end PC.Keys
