import Verif.Lemmas.Literal
import Verif.Lemmas.Numbers

/-
C29: literals.  C59: enums.
-/

namespace PC.Lit
open PC.Num

variable {α : Type}

/-- C29, full statement: an input is accepted iff it equals a member, bools being equal only to
bools.  It fails: see `literal_not_exact`. -/
def LiteralExact (o : PyOps α) (expected : List α) : Prop :=
  ∀ x, (∃ v, validate o expected (.ofPy o x) = .ok v) ↔
    ∃ m ∈ expected, Matches o m x ∧ (o.strictBool m).isSome = (o.strictBool x).isSome

theorem extract_none {n : Int} : extractI64 n = none ↔ ¬ Small n := by
  unfold extractI64 Small i64Min i64Max
  by_cases h : -9223372036854775808 ≤ n ∧ n ≤ 9223372036854775807
  · rw [if_pos h]
    constructor
    · intro h'; cases h'
    · intro h'; exfalso; apply h'; omega
  · rw [if_neg h]
    constructor
    · intro _ h'; apply h; omega
    · intro _; rfl

theorem find_sound {β : Type} {o : PyOps α} (lo : Lawful o) {done : List (α × β)}
    {l : Lookup α β} (h : Inv o done l) {x : α} {id : Nat}
    (hf : l.find o (.ofPy o x) = .ok (some id)) : At done id fun m => Matches o m x := by
  unfold Lookup.find at hf
  cases h1 : l.findBool (.ofPy o x) with
  | some i =>
    rw [h1] at hf; dsimp only at hf; injection hf with hf; injection hf with hf; subst hf
    unfold Lookup.findBool LitInput.ofPy at h1
    dsimp only at h1
    have main : ∀ b, o.strictBool x = some b →
        At done i (fun k => o.strictBool k = some b) → At done i fun m => Matches o m x := by
      intro b hb hat
      refine hat.imp fun m hm => ?_
      unfold Matches
      rw [if_pos (lo.bool_hash _ _ hm)]
      exact ⟨lo.bool_hash _ _ hb, lo.bool_eq _ _ _ hm hb⟩
    cases hb : o.strictBool x with
    | none => rw [hb] at h1; cases h1
    | some b =>
      rw [hb] at h1
      cases b with
      | true => exact main true hb (h.trues.sound i h1)
      | false => exact main false hb (h.falses.sound i h1)
  | none =>
    rw [h1] at hf; dsimp only at hf
    cases h2 : l.findInt (.ofPy o x) with
    | error e => rw [h2] at hf; cases hf
    | ok r =>
      rw [h2] at hf
      cases r with
      | none =>
        dsimp only at hf; injection hf with hf
        exact findRest_sound lo h hf
      | some i =>
        dsimp only at hf; injection hf with hf; injection hf with hf; subst hf
        unfold Lookup.findInt LitInput.ofPy at h2
        dsimp only at h2
        by_cases he : l.ints.isEmpty = true
        · rw [if_pos he] at h2; cases h2
        · rw [if_neg he] at h2
          cases hi : o.exactInt x with
          | none => rw [hi] at h2; cases h2
          | some n =>
            rw [hi] at h2; dsimp only at h2
            cases hx : extractI64 n with
            | none => rw [hx] at h2; cases h2
            | some j =>
              rw [hx] at h2; dsimp only at h2; injection h2 with h2
              refine (h.ints.sound j i (lookup_some h2)).imp ?_
              rintro m ⟨k, hk1, hk2⟩
              have : k = n := by
                rw [← extractI64_some hk2, ← extractI64_some hx]
              subst this
              unfold Matches
              rw [if_pos (lo.int_hash _ _ hk1)]
              exact ⟨lo.int_hash _ _ hi, lo.int_eq _ _ _ hk1 hi⟩

/-- The case in which the code gives up: the input is an int of more than 64 bits while some
member is an int of at most 64. -/
def BigAgainstSmall (o : PyOps α) (expected : List α) (x : α) : Prop :=
  (∃ n, o.exactInt x = some n ∧ ¬ Small n) ∧
  ∃ m ∈ expected, ∃ n, o.exactInt m = some n ∧ Small n

theorem ints_empty {β : Type} {o : PyOps α} {done : List (α × β)}
    {l : Lookup α β} (h : Inv o done l) :
    l.ints.isEmpty = false ↔ ∃ kv ∈ done, ∃ n, o.exactInt kv.1 = some n ∧ Small n := by
  constructor
  · intro he
    cases hi : l.ints with
    | nil => rw [hi] at he; cases he
    | cons e rest =>
      obtain ⟨i, id⟩ := e
      obtain ⟨kv, h1, n, h2, h3⟩ := h.ints.sound i id (by rw [hi]; exact List.mem_cons_self ..)
      refine ⟨kv, List.mem_of_getElem? h1, n, h2, ?_⟩
      apply Classical.byContradiction
      intro hs
      rw [extract_none.2 hs] at h3; cases h3
  · rintro ⟨kv, hkv, n, h1, h2⟩
    cases hx : extractI64 n with
    | none => exact absurd h2 (extract_none.1 hx)
    | some i =>
      obtain ⟨id, hid⟩ := h.ints.complete kv hkv i ⟨n, h1, hx⟩
      cases hi : l.ints with
      | nil => rw [hi] at hid; cases hid
      | cons e rest => rfl

theorem find_ok {β : Type} {o : PyOps α} {done : List (α × β)}
    {l : Lookup α β} (h : Inv o done l) {x : α} (hb : ¬ BigAgainstSmall o (done.map (·.1)) x) :
    ∃ r, l.find o (.ofPy o x) = .ok r ∧ (r = none → l.findRest o (.ofPy o x) = none) := by
  unfold Lookup.find
  cases h1 : l.findBool (.ofPy o x) with
  | some i => exact ⟨_, rfl, fun h => by cases h⟩
  | none =>
    dsimp only
    have h2 : ∃ r, l.findInt (.ofPy o x) = .ok r := by
      unfold Lookup.findInt LitInput.ofPy
      dsimp only
      cases he : l.ints.isEmpty with
      | true => exact ⟨_, rfl⟩
      | false =>
        rw [if_neg (by decide)]
        cases hi : o.exactInt x with
        | none => exact ⟨_, rfl⟩
        | some n =>
          dsimp only
          cases hx : extractI64 n with
          | some j => exact ⟨_, rfl⟩
          | none =>
            exfalso
            apply hb
            obtain ⟨kv, hkv, k, hk⟩ := (ints_empty h).1 he
            exact ⟨⟨n, hi, extract_none.1 hx⟩, kv.1, List.mem_map.2 ⟨kv, hkv, rfl⟩, k, hk⟩
    obtain ⟨r, hr⟩ := h2
    rw [hr]
    cases r with
    | some i => exact ⟨_, rfl, fun h => by cases h⟩
    | none => exact ⟨_, rfl, fun h => h⟩

theorem inv_lit {o : PyOps α} (lo : Lawful o) (expected : List α) :
    Inv o (expected.map fun v => (v, v)) (Lookup.new o (expected.map fun v => (v, v))) :=
  inv_new lo _

theorem at_value {β : Type} {o : PyOps α} {done : List (α × β)} {l : Lookup α β}
    (h : Inv o done l) {id : Nat} {P : α → Prop} (hat : At done id P) :
    ∃ kv ∈ done, l.values[id]? = some kv.2 ∧ P kv.1 := by
  obtain ⟨kv, h1, h2⟩ := hat
  exact ⟨kv, List.mem_of_getElem? h1, by rw [h.values, List.getElem?_map, h1]; rfl, h2⟩

/-- C29: what is returned is a member that equals the input. -/
theorem literal_sound {o : PyOps α} (lo : Lawful o) {expected : List α} {x v : α}
    (h : validate o expected (.ofPy o x) = .ok v) : v ∈ expected ∧ Matches o v x := by
  have hinv := inv_lit lo expected
  unfold validate Lookup.validate at h
  cases hf : (Lookup.new o (expected.map fun v => (v, v))).find o (.ofPy o x) with
  | error e => rw [hf] at h; cases h
  | ok r =>
    rw [hf] at h
    cases r with
    | none => cases h
    | some id =>
      obtain ⟨kv, hkv, h1, h2⟩ := at_value hinv (find_sound lo hinv hf)
      obtain ⟨m, hm, rfl⟩ := List.mem_map.1 hkv
      dsimp only at h h1
      rw [h1] at h
      injection h with h
      subst h
      exact ⟨hm, h2⟩

/-- C29: an input that equals a member is accepted, unless it is an int of more than 64 bits while
a smaller int is listed (see `literal_big_int_rejected`); any other input is rejected with
`literal_error`. -/
theorem literal_complete_partial {o : PyOps α} (lo : Lawful o) {expected : List α} {x : α}
    (hb : ¬ BigAgainstSmall o expected x) :
    (∃ m ∈ expected, Matches o m x) ∧ (∃ v, validate o expected (.ofPy o x) = .ok v) ∨
    (¬ ∃ m ∈ expected, Matches o m x) ∧
      validate o expected (.ofPy o x) = .err (.other "literal_error") := by
  have hinv := inv_lit lo expected
  have hb' : ¬ BigAgainstSmall o ((expected.map fun v => (v, v)).map (·.1)) x := by
    simpa [List.map_map, Function.comp_def] using hb
  obtain ⟨r, hr, hrest⟩ := find_ok hinv hb'
  cases r with
  | some id =>
    obtain ⟨kv, hkv, h1, h2⟩ := at_value hinv (find_sound lo hinv hr)
    obtain ⟨m, hm, rfl⟩ := List.mem_map.1 hkv
    refine .inl ⟨⟨m, hm, h2⟩, m, ?_⟩
    unfold validate Lookup.validate
    rw [hr]; dsimp only at h1 ⊢; rw [h1]
  | none =>
    refine .inr ⟨?_, ?_⟩
    · rintro ⟨m, hm, hmx⟩
      obtain ⟨id, hid⟩ := findRest_complete lo hinv (kv := (m, m))
        (List.mem_map.2 ⟨m, hm, rfl⟩) hmx
      rw [hrest rfl] at hid; cases hid
    · unfold validate Lookup.validate
      rw [hr]

/-- C29 fails: an int of more than 64 bits is rejected, whatever the members, as soon as one of
them is a smaller int. -/
theorem literal_big_int_rejected {o : PyOps α} (lo : Lawful o) {expected : List α} {x : α}
    (hb : BigAgainstSmall o expected x) (hx : o.strictBool x = none) :
    validate o expected (.ofPy o x) = .err (.other "int_parsing_size") := by
  have hinv := inv_lit lo expected
  obtain ⟨⟨n, hn, hs⟩, m, hm, k, hk⟩ := hb
  have he := (ints_empty hinv).2 ⟨(m, m), List.mem_map.2 ⟨m, hm, rfl⟩, k, hk⟩
  unfold validate Lookup.validate Lookup.find Lookup.findBool Lookup.findInt LitInput.ofPy
  dsimp only
  rw [hx, hn]
  dsimp only
  rw [if_neg (by rw [he]; decide), extract_none.2 hs]

/-- C29: a bool that is listed gives that bool, also if an equal int is listed, in whatever
order; likewise for ints of at most 64 bits and bools. -/
theorem literal_same_type {o : PyOps α} (lo : Lawful o) {expected : List α} {x : α} :
    (∀ b, o.strictBool x = some b → (∃ m ∈ expected, o.strictBool m = some b) →
      ∃ v ∈ expected, o.strictBool v = some b ∧ validate o expected (.ofPy o x) = .ok v) ∧
    (∀ n, o.strictBool x = none → o.exactInt x = some n → Small n →
      (∃ m ∈ expected, o.exactInt m = some n) →
      ∃ v ∈ expected, o.exactInt v = some n ∧ validate o expected (.ofPy o x) = .ok v) ∧
    (∀ s, o.strictBool x = none → o.exactInt x = none → o.exactStr x = some s →
      (∃ m ∈ expected, o.exactInt m = none ∧ o.exactStr m = some s) →
      ∃ v ∈ expected, o.exactStr v = some s ∧ validate o expected (.ofPy o x) = .ok v) := by
  have hinv := inv_lit lo expected
  refine ⟨?_, ?_, ?_⟩
  · rintro b hb ⟨m, hm, hmb⟩
    have key : ∃ id, (Lookup.new o (expected.map fun v => (v, v))).findBool (.ofPy o x) = some id ∧
        At (expected.map fun v => (v, v)) id (fun k => o.strictBool k = some b) := by
      unfold Lookup.findBool LitInput.ofPy
      dsimp only
      rw [hb]
      cases b with
      | true =>
        obtain ⟨id, hid⟩ := hinv.trues.complete (m, m) (List.mem_map.2 ⟨m, hm, rfl⟩) hmb
        exact ⟨id, hid, hinv.trues.sound id hid⟩
      | false =>
        obtain ⟨id, hid⟩ := hinv.falses.complete (m, m) (List.mem_map.2 ⟨m, hm, rfl⟩) hmb
        exact ⟨id, hid, hinv.falses.sound id hid⟩
    obtain ⟨id, hid, hat⟩ := key
    obtain ⟨kv, hkv, h1, h2⟩ := at_value hinv hat
    obtain ⟨v, hv, rfl⟩ := List.mem_map.1 hkv
    refine ⟨v, hv, h2, ?_⟩
    unfold validate Lookup.validate Lookup.find
    rw [hid]; dsimp only at h1 ⊢; rw [h1]
  · rintro n hb hn hs ⟨m, hm, hmn⟩
    cases hx : extractI64 n with
    | none => exact absurd hs (extract_none.1 hx)
    | some i =>
      obtain ⟨id0, hid0⟩ := hinv.ints.complete (m, m) (List.mem_map.2 ⟨m, hm, rfl⟩) i ⟨n, hmn, hx⟩
      obtain ⟨id, hid⟩ := lookup_isSome hid0
      have he := (ints_empty hinv).2 ⟨(m, m), List.mem_map.2 ⟨m, hm, rfl⟩, n, hmn, hs⟩
      obtain ⟨kv, hkv, h1, k, h2, h3⟩ := at_value hinv (hinv.ints.sound i id (lookup_some hid))
      obtain ⟨v, hv, rfl⟩ := List.mem_map.1 hkv
      have : k = n := by rw [← extractI64_some h3, ← extractI64_some hx]
      subst this
      refine ⟨v, hv, h2, ?_⟩
      unfold validate Lookup.validate Lookup.find Lookup.findBool Lookup.findInt LitInput.ofPy
      dsimp only
      rw [hb, hn]
      dsimp only
      rw [if_neg (by rw [he]; decide), hx]
      dsimp only
      rw [hid]; dsimp only at h1 ⊢; rw [h1]
  · rintro s hb hn hs ⟨m, hm, hmi, hms⟩
    obtain ⟨id0, hid0⟩ := hinv.strs.complete (m, m) (List.mem_map.2 ⟨m, hm, rfl⟩) s ⟨hmi, hms⟩
    obtain ⟨id, hid⟩ := lookup_isSome hid0
    obtain ⟨kv, hkv, h1, h2⟩ := at_value hinv (hinv.strs.sound s id (lookup_some hid))
    obtain ⟨v, hv, rfl⟩ := List.mem_map.1 hkv
    refine ⟨v, hv, h2.2, ?_⟩
    unfold validate Lookup.validate Lookup.find Lookup.findBool Lookup.findInt Lookup.findRest
      Lookup.findStr LitInput.ofPy
    dsimp only
    rw [hb, hn, hs]
    dsimp only
    rw [hid]
    dsimp only at h1
    by_cases hE : (Lookup.new o (expected.map fun v => (v, v))).ints.isEmpty = true
    · rw [if_pos hE]; dsimp only; rw [h1]
    · rw [if_neg hE]; dsimp only; rw [h1]

namespace Demo

/-- A few kinds of Python object: `float n` is a float of integral value, `list` is unhashable,
`sub` is a str subclass. -/
inductive Obj where
  | none
  | bool (b : Bool)
  | int (n : Int)
  | float (n : Int)
  | str (s : List Char)
  | sub (s : List Char)
  | list (xs : List Nat)
  deriving DecidableEq

/-- What Python's `==` compares. -/
def Obj.key : Obj → Obj
  | .bool b => .int (if b then 1 else 0)
  | .float n => .int n
  | .sub s => .str s
  | x => x

/-- The operations on these objects. -/
def ops : PyOps Obj where
  strictBool x := match x with | .bool b => some b | _ => Option.none
  exactInt x := match x with | .int n => some n | _ => Option.none
  exactStr x := match x with | .str s => some s | _ => Option.none
  hashable x := match x with | .list _ => false | _ => true
  keyEq x y := decide (x.key = y.key)
  eq x y := decide (x.key = y.key)

theorem lawful : Lawful ops where
  symm x y _ _ h := by simpa [ops] using (of_decide_eq_true h).symm
  trans x y z _ _ _ h1 h2 := by
    have := (of_decide_eq_true h1).trans (of_decide_eq_true h2)
    simpa [ops] using this
  refl x _ := by simp [ops]
  bool_hash x b h := by cases x <;> first | rfl | (simp [ops] at h)
  int_hash x b h := by cases x <;> first | rfl | (simp [ops] at h)
  str_hash x b h := by cases x <;> first | rfl | (simp [ops] at h)
  bool_eq x y b h1 h2 := by
    cases x <;> cases y <;> simp_all [ops]
  int_eq x y b h1 h2 := by
    cases x <;> cases y <;> simp_all [ops]
  str_eq x y b h1 h2 := by
    cases x <;> cases y <;> simp_all [ops]

end Demo

open Demo in
-- members of several kinds; `1` and `True` are told apart when both are listed
example : validate ops [.int 1, .bool true, .str ['a'], .list [1, 2]] (.ofPy ops (.bool true))
      = .ok (.bool true) ∧
    validate ops [.bool true, .int 1, .str ['a'], .list [1, 2]] (.ofPy ops (.int 1)) = .ok (.int 1) ∧
    validate ops [.bool true, .int 1, .str ['a'], .list [1, 2]] (.ofPy ops (.list [1, 2]))
      = .ok (.list [1, 2]) ∧
    validate ops [.bool true, .int 1, .str ['a'], .list [1, 2]] (.ofPy ops (.sub ['a']))
      = .ok (.str ['a']) ∧
    validate ops [.bool true, .int 1, .str ['a'], .list [1, 2]] (.ofPy ops (.int 2))
      = .err (.other "literal_error") := by decide

open Demo in
example : ¬ BigAgainstSmall ops [.int 1, .str ['a']] (.str ['a']) := by
  rintro ⟨⟨n, h, _⟩, _⟩; cases h

open Demo in
-- 2^63 is listed, but so is 1
example : BigAgainstSmall ops [.int 1, .int (2 ^ 63)] (.int (2 ^ 63)) := by
  refine ⟨⟨2 ^ 63, rfl, ?_⟩, .int 1, by simp, 1, rfl, ?_⟩ <;> unfold Small <;> omega

open Demo in
/-- C29 fails: `Literal[1]` accepts `True` (and returns 1). -/
theorem literal_accepts_bool_for_int :
    validate ops [.int 1] (.ofPy ops (.bool true)) = .ok (.int 1) := by decide

open Demo in
theorem literal_not_exact : ¬ LiteralExact ops [.int 1] := by
  intro h
  obtain ⟨m, hm, _, h2⟩ := (h (.bool true)).1 ⟨_, literal_accepts_bool_for_int⟩
  rw [List.mem_singleton.1 hm] at h2
  cases h2

open Demo in
/-- C29 fails: `Literal[1, 2**63]` rejects 2**63. -/
theorem literal_rejects_listed_int :
    validate ops [.int 1, .int (2 ^ 63)] (.ofPy ops (.int (2 ^ 63)))
      = .err (.other "int_parsing_size") := by decide

/-! ### Enums -/

/-- The input, read as the enum's type prescribes, equals the member value `k`. -/
def Reads (o : PyOps α) (t : SubType) (strict : Bool) (x : EnumInput α) (k : α) : Prop :=
  match t with
  | .plain => Matches o k x.obj ∨
      strict = false ∧ ((∃ s, x.anyStr false = some s ∧ o.exactStr k = some s) ∨
        ∃ n, x.anyInt false = some n ∧ o.exactInt k = some n)
  | .int => ∃ n, x.anyInt strict = some n ∧ o.exactInt k = some n
  | .str => ∃ s, x.anyStr strict = some s ∧ o.exactStr k = some s
  | .float => ∃ f, x.anyFloat strict = some f ∧ Matches o k f

/-- An input is described consistently: the parts used by literals are those of its object. -/
def Consistent (o : PyOps α) (x : EnumInput α) : Prop := x.toLitInput = .ofPy o x.obj

theorem validateInt_sound {o : PyOps α} {members : List (α × α)}
    {l : Lookup α α} (h : Inv o members l) {i : Option Int} {v : α}
    (hv : l.validateInt i = .ok (some v)) :
    ∃ n k, i = some n ∧ (k, v) ∈ members ∧ o.exactInt k = some n := by
  unfold Lookup.validateInt at hv
  by_cases he : l.ints.isEmpty = true
  · rw [if_pos he] at hv; cases hv
  · rw [if_neg he] at hv
    cases i with
    | none => cases hv
    | some n =>
      dsimp only at hv
      cases hx : extractI64 n with
      | none => rw [hx] at hv; cases hv
      | some j =>
        rw [hx] at hv; dsimp only at hv
        cases hl : l.ints.lookup j with
        | none => rw [hl] at hv; cases hv
        | some id =>
          rw [hl] at hv; dsimp only at hv; injection hv with hv
          obtain ⟨kv, hkv, h1, m, h2, h3⟩ := at_value h (h.ints.sound j id (lookup_some hl))
          have : m = n := by rw [← extractI64_some h3, ← extractI64_some hx]
          subst this
          rw [h1] at hv; injection hv with hv
          exact ⟨m, kv.1, rfl, by rw [← hv]; exact hkv, h2⟩

theorem validateStr_sound {o : PyOps α} {members : List (α × α)}
    {l : Lookup α α} (h : Inv o members l) {i : Option (List Char)} {v : α}
    (hv : l.validateStr i = some v) :
    ∃ s k, i = some s ∧ (k, v) ∈ members ∧ o.exactStr k = some s := by
  unfold Lookup.validateStr at hv
  cases i with
  | none => cases hv
  | some s =>
    dsimp only at hv
    cases hl : l.strs.lookup s with
    | none => rw [hl] at hv; cases hv
    | some id =>
      rw [hl] at hv; dsimp only at hv
      obtain ⟨kv, hkv, h1, h2⟩ := at_value h (h.strs.sound s id (lookup_some hl))
      rw [h1] at hv; injection hv with hv
      exact ⟨s, kv.1, rfl, by rw [← hv]; exact hkv, h2.2⟩

theorem enumValue_sound {o : PyOps α} (lo : Lawful o) {members : List (α × α)}
    {l : Lookup α α} (h : Inv o members l) {t : SubType} {x : EnumInput α} {strict : Bool} {v : α}
    (hc : Consistent o x) (hv : enumValue o t l x strict = .ok (some v)) :
    ∃ k, (k, v) ∈ members ∧ Reads o t strict x k := by
  cases t with
  | plain =>
    simp only [enumValue] at hv
    unfold Consistent at hc
    rw [hc] at hv
    unfold Lookup.validate at hv
    have fall : plainFallback l x strict = .ok (some v) →
        ∃ k, (k, v) ∈ members ∧ Reads o .plain strict x k := by
      intro hv
      unfold plainFallback at hv
      by_cases h1 : (!strict && x.py.isSome) = true
      · rw [if_pos h1] at hv
        have hs : strict = false := by
          cases strict with
          | false => rfl
          | true => cases h1
        by_cases h2 : x.isStr = true
        · rw [if_pos h2] at hv
          injection hv with hv
          obtain ⟨s, k, hs1, hs2, hs3⟩ := validateStr_sound h hv
          exact ⟨k, hs2, .inr ⟨hs, .inl ⟨s, hs1, hs3⟩⟩⟩
        · rw [if_neg h2] at hv
          have hi : l.validateInt (x.anyInt false) = .ok (some v) := by
            by_cases h3 : x.isInt = true
            · rwa [if_pos h3] at hv
            · rw [if_neg h3] at hv
              by_cases h4 : x.isFloat = true
              · rwa [if_pos h4] at hv
              · rw [if_neg h4] at hv; cases hv
          obtain ⟨n, k, hs1, hs2, hs3⟩ := validateInt_sound h hi
          exact ⟨k, hs2, .inr ⟨hs, .inr ⟨n, hs1, hs3⟩⟩⟩
      · rw [if_neg h1] at hv; cases hv
    cases hf : l.find o (.ofPy o x.obj) with
    | error e => rw [hf] at hv; cases hv
    | ok r =>
      rw [hf] at hv
      cases r with
      | none => dsimp only at hv; exact fall hv
      | some id =>
        obtain ⟨kv, hkv, h1, h2⟩ := at_value h (find_sound lo h hf)
        dsimp only at hv
        rw [h1] at hv
        dsimp only at hv
        injection hv with hv; injection hv with hv
        exact ⟨kv.1, by rw [← hv]; exact hkv, .inl h2⟩
  | int =>
    simp only [enumValue] at hv
    obtain ⟨n, k, h1, h2, h3⟩ := validateInt_sound h hv
    exact ⟨k, h2, n, h1, h3⟩
  | str =>
    simp only [enumValue] at hv
    injection hv with hv
    obtain ⟨n, k, h1, h2, h3⟩ := validateStr_sound h hv
    exact ⟨k, h2, n, h1, h3⟩
  | float =>
    simp only [enumValue] at hv
    injection hv with hv
    unfold Lookup.validateFloat at hv
    cases hf : x.anyFloat strict with
    | none => rw [hf] at hv; cases hv
    | some f =>
      rw [hf] at hv; dsimp only at hv
      cases hl : findDict o l.pyDict f with
      | none => rw [hl] at hv; cases hv
      | some id =>
        rw [hl] at hv; dsimp only at hv
        obtain ⟨kv, hkv, h1, h2⟩ := at_value h (dict_sound lo h.dict hl).2
        rw [h1] at hv; injection hv with hv
        exact ⟨kv.1, by rw [← hv]; exact hkv, f, hf, h2.2⟩

/-- C59, full statement: an enum returns only the input itself (a member), the member whose value
the input is read as, or what the class or its `missing` hook makes of the input. -/
def EnumSound (o : PyOps α) (c : EnumClass α) (t : SubType) (members : List (α × α))
    (strict pythonInput : Bool) (x : EnumInput α) : Prop :=
  ∀ v, enumValidate o c t (Lookup.new o members) strict pythonInput x = .ok v →
    (x.py = some v ∧ c.isMember v = true) ∨ (∃ k, (k, v) ∈ members ∧ Reads o t strict x k) ∨
    c.call x.obj = some v ∨
    ∃ f, c.missing = some f ∧ f x.obj = some v ∧ c.isInstance v = true

/-- C59 holds for Python inputs.  (For JSON inputs see `enum_json_none_member`.) -/
theorem enum_sound_partial {o : PyOps α} (lo : Lawful o) (c : EnumClass α) (t : SubType)
    (members : List (α × α)) (strict pythonInput : Bool) (x : EnumInput α)
    (hc : Consistent o x) (hpy : x.py = some x.obj) :
    EnumSound o c t members strict pythonInput x := by
  intro v hv
  have hinv := inv_new lo members
  unfold enumValidate at hv
  cases hf : x.py.filter c.isMember with
  | some w =>
    rw [hf] at hv; injection hv with hv; subst hv
    have := Option.filter_eq_some_iff.1 hf
    exact .inl this
  | none =>
    rw [hf] at hv; dsimp only at hv
    by_cases hs : (strict && pythonInput) = true
    · rw [if_pos hs] at hv; cases hv
    · rw [if_neg hs] at hv
      cases he : enumValue o t (Lookup.new o members) x strict with
      | error e => rw [he] at hv; cases hv
      | ok r =>
        rw [he] at hv
        cases r with
        | some w =>
          injection hv with hv; subst hv
          exact .inr (.inl (enumValue_sound lo hinv hc he))
        | none =>
          dsimp only at hv
          rw [hpy] at hv
          cases hcall : c.call x.obj with
          | some w =>
            rw [show (some x.obj).getD c.pyNone = x.obj from rfl, hcall] at hv
            injection hv with hv; subst hv
            exact .inr (.inr (.inl rfl))
          | none =>
            rw [show (some x.obj).getD c.pyNone = x.obj from rfl, hcall] at hv
            dsimp only at hv
            unfold enumMissing at hv
            cases hm : c.missing with
            | none => rw [hm] at hv; cases hv
            | some f =>
              rw [hm] at hv; dsimp only at hv
              cases hfx : f x.obj with
              | none => rw [hfx] at hv; cases hv
              | some w =>
                rw [hfx] at hv; dsimp only at hv
                by_cases h1 : c.isInstance w = true
                · rw [if_pos h1] at hv; injection hv with hv; subst hv
                  exact .inr (.inr (.inr ⟨f, rfl, hfx, h1⟩))
                · rw [if_neg h1] at hv
                  by_cases h2 : c.isNone w = true
                  · rw [if_pos h2] at hv; cases hv
                  · rw [if_neg h2] at hv; cases hv

/-- C59: in strict mode a Python input is accepted iff it is a member, and returned as it is. -/
theorem enum_strict_python (o : PyOps α) (c : EnumClass α) (t : SubType)
    (l : Lookup α α) (x : EnumInput α) (v : α) :
    enumValidate o c t l true true x = .ok v ↔ x.py = some v ∧ c.isMember v = true := by
  unfold enumValidate
  cases hf : x.py.filter c.isMember with
  | some w =>
    dsimp only
    have := Option.filter_eq_some_iff.1 hf
    constructor
    · intro h; injection h with h; subst h; exact this
    · rintro ⟨h1, _⟩
      rw [this.1] at h1; injection h1 with h1; subst h1; rfl
  | none =>
    dsimp only
    rw [if_pos (by rfl)]
    constructor
    · intro h; cases h
    · rintro ⟨h1, h2⟩
      rw [h1] at hf
      simp [Option.filter, h2] at hf

/-- C59: an input read as an int (of at most 64 bits) equal to the value of a member of an int
enum is accepted and gives a member of that value. -/
theorem enum_int_accepted {o : PyOps α} (lo : Lawful o) (c : EnumClass α)
    (members : List (α × α)) (pythonInput : Bool) (x : EnumInput α) {k m : α} {n : Int}
    (hm : (k, m) ∈ members) (hk : o.exactInt k = some n) (hs : Small n)
    (hx : x.anyInt false = some n) (hmem : ∀ v, x.py = some v → c.isMember v = false) :
    ∃ v k', (k', v) ∈ members ∧ o.exactInt k' = some n ∧
      enumValidate o c .int (Lookup.new o members) false pythonInput x = .ok v := by
  have hinv := inv_new lo members
  cases he : extractI64 n with
  | none => exact absurd hs (extract_none.1 he)
  | some i =>
    obtain ⟨id0, hid0⟩ := hinv.ints.complete (k, m) hm i ⟨n, hk, he⟩
    obtain ⟨id, hid⟩ := lookup_isSome hid0
    obtain ⟨kv, hkv, h1, n', h2, h3⟩ := at_value hinv (hinv.ints.sound i id (lookup_some hid))
    have hn : n' = n := by rw [← extractI64_some h3, ← extractI64_some he]
    subst hn
    refine ⟨kv.2, kv.1, hkv, h2, ?_⟩
    have hempty := (ints_empty hinv).2 ⟨(k, m), hm, n', hk, hs⟩
    have hf : x.py.filter c.isMember = none := by
      cases hp : x.py with
      | none => rfl
      | some v => simp [Option.filter, hmem v hp]
    unfold enumValidate
    rw [hf]
    simp only [enumValue, Lookup.validateInt, hempty, hx, he, hid, h1]
    rfl

namespace Demo

/-- An enum with members of values 1 and None: the members are represented by strings. -/
def members : List (Obj × Obj) := [(.int 1, .str ['A']), (.none, .str ['N'])]

/-- Its class: calling it with 1 or None gives the member. -/
def cls : EnumClass Obj where
  isMember x := x == .str ['A'] || x == .str ['N']
  call x := if x = .int 1 then some (.str ['A']) else if x = .none then some (.str ['N']) else Option.none
  pyNone := .none
  missing := Option.none
  isInstance x := x == .str ['A'] || x == .str ['N']
  isNone x := x == .none

/-- A JSON int as input. -/
def jsonInt (n : Int) : EnumInput Obj :=
  { LitInput.ofPy ops (.int n) with
    py := Option.none, anyInt := fun _ => some n, anyStr := fun _ => Option.none,
    anyFloat := fun _ => some (.float n), isStr := false, isInt := false, isFloat := false }

/-- A Python int as input. -/
def pyInt (n : Int) : EnumInput Obj :=
  { jsonInt n with py := some (.int n), isInt := true }

end Demo

open Demo in
example : Consistent ops (pyInt 1) ∧ (pyInt 1).py = some (pyInt 1).obj ∧
    enumValidate ops cls .plain (Lookup.new ops members) false true (pyInt 1) = .ok (.str ['A']) ∧
    enumValidate ops cls .plain (Lookup.new ops members) false true (pyInt 5)
      = .err (.other "enum") := ⟨rfl, rfl, by decide, by decide⟩

open Demo in
example : enumValidate ops cls .int (Lookup.new ops members) false false (jsonInt 1)
    = .ok (.str ['A']) := by decide

open Demo in
/-- C59 fails: with JSON input `5`, an enum with members of values 1 and None gives the member of
value None, because the class is called with `input.as_python()`, which is None. -/
theorem enum_json_none_member :
    enumValidate ops cls .plain (Lookup.new ops members) false false (jsonInt 5)
      = .ok (.str ['N']) := by decide

open Demo in
theorem enum_not_sound : ¬ EnumSound ops cls .plain members false false (jsonInt 5) := by
  intro h
  rcases h _ enum_json_none_member with ⟨h, _⟩ | ⟨k, hk, hr⟩ | h | ⟨f, h, _⟩
  · cases h
  · have : k = .none := by
      simp [members] at hk; exact hk
    subst this
    rcases hr with hr | ⟨_, ⟨s, hs, _⟩ | ⟨n, _, hn⟩⟩
    · exact absurd hr.2 (by decide)
    · cases hs
    · cases hn
  · exact absurd h (by decide)
  · cases h

/-- **C59**: an enum of ints refuses an input with `int_parsing_size`, instead of saying that it is no member,
exactly if it is an int of more than 64 bits while some member is smaller; an input that is no int at all is
no member. -/
theorem int_enum_errors {o : PyOps α} (lo : Lawful o) (members : List (α × α)) (x : EnumInput α)
    (strict : Bool) :
    (∀ e, enumValue o .int (Lookup.new o members) x strict = .error e ↔
      e = .other "int_parsing_size" ∧ (∃ kv ∈ members, ∃ k, o.exactInt kv.1 = some k ∧ Small k) ∧
        ∃ n, x.anyInt strict = some n ∧ ¬ Small n) ∧
    (x.anyInt strict = none → enumValue o .int (Lookup.new o members) x strict = .ok none) := by
  have hinv := inv_new lo members
  simp only [enumValue, Lookup.validateInt, ← ints_empty hinv]
  cases he : (Lookup.new o members).ints.isEmpty with
  | true => simp
  | false =>
    simp only [Bool.false_eq_true, if_false]
    cases hx : x.anyInt strict with
    | none => simp
    | some n =>
      dsimp only
      cases hn : extractI64 n with
      | none =>
        have := extract_none.1 hn
        simp only [Except.error.injEq, Option.some.injEq, exists_eq_left', this, not_false_eq_true, and_true,
          reduceCtorEq, false_implies]
        exact fun e => ⟨fun h => h.symm, fun h => h.symm⟩
      | some i =>
        have : Small n := by
          apply Classical.byContradiction
          intro h
          rw [extract_none.2 h] at hn; cases hn
        dsimp only
        cases (Lookup.new o members).ints.lookup i <;> simp [this]

open Demo in
example : enumValue ops .int (Lookup.new ops members) (pyInt (2 ^ 63)) false = .error (.other "int_parsing_size") ∧
    ∃ kv ∈ members, ∃ k, ops.exactInt kv.1 = some k ∧ Small k :=
  ⟨by decide, (.int 1, .str ['A']), by simp [members], 1, rfl, by unfold Small; omega⟩

end PC.Lit
