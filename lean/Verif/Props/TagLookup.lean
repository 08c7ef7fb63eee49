import Verif.Lemmas.TagLookup

/-
C107: which choice of a tagged union serialises a value.
-/

namespace PC.TagLookup
open PC.SerUnion PC.Lit

/-- **C107**: the serialiser of a tagged union takes the last choice whose key prints as the tag
does. -/
theorem serializer_choice_iff (str : α → Text) (keys : List α) (tag : α) (i : Nat) :
    serIndex str keys tag = some i ↔ LastPrinting str keys (str tag) i := by
  unfold serIndex build
  rw [lookup_buildFrom]
  constructor
  · rintro (⟨n, rfl, h⟩ | ⟨_, h⟩)
    · rwa [Nat.zero_add]
    · cases h
  · intro h
    exact Or.inl ⟨i, by omega, h⟩

/-- **C107**: no choice is taken exactly if no key prints as the tag does. -/
theorem serializer_choice_none (str : α → Text) (keys : List α) (tag : α) :
    serIndex str keys tag = none ↔ ∀ k ∈ keys, str k ≠ str tag := by
  constructor
  · intro h k hk hs
    have key : ∀ (ks : List α) (idx : Nat) (table : List (Text × Nat)),
        (k ∈ ks ∨ (table.lookup (str tag)).isSome) →
        ((buildFrom str idx ks table).lookup (str tag)).isSome := by
      intro ks
      induction ks with
      | nil => intro idx table h; rcases h with h | h; cases h; exact h
      | cons k0 rest ih =>
        intro idx table h
        unfold buildFrom
        apply ih
        rw [List.lookup_cons]
        by_cases hb : (str tag == str k0) = true
        · right; rw [hb]; rfl
        · rw [eq_false_of_ne_true hb]
          rcases h with h | h
          · rcases List.mem_cons.1 h with rfl | h
            · exact absurd (by simp [hs]) hb
            · exact Or.inl h
          · exact Or.inr h
    have := key keys 0 [] (Or.inl hk)
    unfold serIndex build at h
    rw [h] at this; cases this
  · intro h
    cases hi : serIndex str keys tag with
    | none => rfl
    | some i =>
      obtain ⟨k, h1, h2, _⟩ := (serializer_choice_iff ..).1 hi
      exact absurd h2 (h k (List.mem_of_getElem? h1))

/-- **C107**, in part: the choice that the tag would validate with is the one that serialises, if the
keys print differently from each other and a key that equals the tag prints as the tag.  Missing: keys or
tags for which this is not so; there the claim is false (`int_and_text_keys_collide`,
`equal_tag_not_found`). -/
theorem same_choice_partial {o : PyOps α} (lo : Lawful o) (str : α → Text) (keys : List α) (tag : α)
    (apart : PrintApart str keys) (alike : PrintAlike o str keys tag) : SameChoice o str keys tag := by
  intro i h
  obtain ⟨k, hk, hm⟩ := valIndex_sound lo h
  have hs := alike k (List.mem_of_getElem? hk) hm
  refine (serializer_choice_iff ..).2 ⟨k, hk, hs, ?_⟩
  intro j k' hj hk' hs'
  have := apart i j k k' hk hk' (hs.trans hs'.symm)
  omega

/-- **C107**: the discriminator gives the serialiser the tag of the value: the item if the value is a
dict, else the attribute, or what the function returns.  No tag means that there is none or that reading
it raised: the exception is dropped. -/
theorem tag_iff (d : Disc α) (v t : α) : discValue d v = some t ↔ HasTag d v t := by
  cases d with
  | path isDict item attr =>
    unfold discValue
    dsimp only
    constructor
    · intro h
      cases hd : isDict v with
      | true =>
        rw [hd, if_pos rfl] at h
        cases hi : item v with
        | error e => rw [hi] at h; cases h
        | ok r => rw [hi] at h; exact .item hd (hi.trans (congrArg _ h))
      | false =>
        rw [hd, if_neg (by decide)] at h
        cases hi : attr v with
        | error e => rw [hi] at h; cases h
        | ok r => rw [hi] at h; exact .attr hd (hi.trans (congrArg _ h))
    · intro h
      cases h with
      | item hd hi => rw [if_pos hd, hi]; rfl
      | attr hd hi => rw [hd, if_neg (by decide), hi]; rfl
  | func call =>
    unfold discValue
    dsimp only
    constructor
    · intro h
      cases hc : call v with
      | error e => rw [hc] at h; cases h
      | ok r => rw [hc] at h; injection h with h; subst h; exact .func hc
    · intro h
      cases h with
      | func hc => rw [hc]; rfl

/-- **C107**: a value of which validation finds the tag has the same tag in serialisation. -/
theorem tag_as_validated (isNone : α → Bool) (d : Disc α) (v t : α) (h : valTag isNone d v = .tag t) :
    HasTag d v t := by
  rw [← tag_iff]
  cases d with
  | path isDict item attr =>
    unfold valTag at h
    dsimp only at h
    unfold discValue
    dsimp only
    by_cases hd : isDict v = true
    · rw [if_pos hd] at h ⊢
      cases hi : item v with
      | error e => rw [hi] at h; cases h
      | ok r =>
        rw [hi] at h
        cases r with
        | none => cases h
        | some x => injection h with h; subst h; rfl
    · rw [if_neg hd] at h ⊢
      cases hi : attr v with
      | error e => rw [hi] at h; cases h
      | ok r =>
        rw [hi] at h
        cases r with
        | none => cases h
        | some x => injection h with h; subst h; rfl
  | func call =>
    unfold valTag at h
    dsimp only at h
    unfold discValue
    dsimp only
    cases hc : call v with
    | error e => rw [hc] at h; cases h
    | ok r =>
      rw [hc] at h
      dsimp only at h
      split at h
      · cases h
      · injection h with h; subst h; rfl

/-- **C107**, the whole: a value whose tag validates with choice `i` is what the serialiser of choice `i`
makes of it, without warning, if that serialiser accepts the value.  Missing as in
`same_choice_partial`. -/
theorem serialized_by_its_choice_partial {ε β : Type} {o : PyOps α} (lo : Lawful o) (str : α → Text)
    (isNone : α → Bool) (warnOn : Bool) (join : List ε → ε) (noTag : ε) (check : Check) (d : Disc α)
    (keys : List α) (ms : List (Member ε β)) (v t : α) (w : List ε) (i : Nat) (m : Member ε β) (r : β)
    (ht : valTag isNone d v = .tag t) (hv : valIndex o keys t = some i)
    (apart : PrintApart str keys) (alike : PrintAlike o str keys t)
    (hm : ms[i]? = some m) (hq : Quiet ms) (ha : Accepts .strict m r) :
    serialize str warnOn join noTag check d keys ms v w = (.ok (some r), w) := by
  unfold serialize
  rw [(tag_iff ..).2 (tag_as_validated isNone d v t ht)]
  exact tagged_picks warnOn join noTag check t _ ms w hq i m
    (same_choice_partial lo str keys t apart alike i hv) hm r (Or.inl ha)

/-- **C107**: if no key prints as the tag, all choices are tried in order, and nothing is said about the
tag. -/
theorem unknown_tag_silent {ε β : Type} (str : α → Text) (warnOn : Bool) (join : List ε → ε) (noTag : ε)
    (check : Check) (d : Disc α) (keys : List α) (ms : List (Member ε β)) (v t : α) (w : List ε)
    (ht : HasTag d v t) (h : ∀ k ∈ keys, str k ≠ str t) (hq : Quiet ms) :
    serialize str warnOn join noTag check d keys ms v w
      = unionSerialize warnOn join check (retryAny ms) ms w := by
  unfold serialize
  rw [(tag_iff ..).2 ht]
  exact tagged_falls_back warnOn join noTag check t _ ms w hq
    (Or.inl ((serializer_choice_none ..).2 h))

/-- **C107**: the warning that the tag was not found is given exactly at top level for a value without
tag. -/
theorem no_tag_warns {ε β : Type} (str : α → Text) (warnOn : Bool) (join : List ε → ε) (noTag : ε)
    (check : Check) (d : Disc α) (keys : List α) (ms : List (Member ε β)) (v : α) (w : List ε)
    (ht : ∀ t, ¬ HasTag d v t) :
    serialize str warnOn join noTag check d keys ms v w
      = unionSerialize warnOn join check (retryAny ms) ms
          (if check = .none ∧ warnOn = true then w ++ [noTag] else w) := by
  have : discValue d v = none := by
    cases h : discValue d v with
    | none => rfl
    | some t => exact absurd ((tag_iff ..).1 h) (ht t)
  unfold serialize
  rw [this]
  exact tagged_no_tag warnOn join noTag check _ ms w

/-! ### Witnesses -/

open Lit.Demo in
/-- What Python's `str` gives for some objects; a `sub` is a member of a `str` enum, which prints as its
name. -/
def pyStr : Obj → Text
  | .none => "None".toList
  | .bool b => if b then "True".toList else "False".toList
  | .int n => (toString n).toList
  | .float n => (toString n).toList ++ ".0".toList
  | .str s => s
  | .sub s => "E.".toList ++ s
  | .list _ => "[]".toList

open Lit.Demo in
/-- The hypotheses of `same_choice_partial` are met by the keys `'a'`, `'b'`, `3`. -/
example : PrintApart pyStr [.str ['a'], .str ['b'], .int 3] ∧
    PrintAlike ops pyStr [.str ['a'], .str ['b'], .int 3] (.str ['b']) ∧
    valIndex ops [.str ['a'], .str ['b'], .int 3] (.str ['b']) = some 1 ∧
    serIndex pyStr [.str ['a'], .str ['b'], .int 3] (.str ['b']) = some 1 := by
  refine ⟨?_, ?_, by decide, by decide⟩
  · intro i j ki kj hi hj hs
    match i, j with
    | 0, 0 | 1, 1 | 2, 2 => rfl
    | 0, 1 | 0, 2 | 1, 0 | 1, 2 | 2, 0 | 2, 1 =>
      simp at hi hj; subst hi; subst hj; revert hs; decide
    | n + 3, _ => simp at hi
    | 0, n + 3 | 1, n + 3 | 2, n + 3 => simp at hj
  · intro k hk hm
    simp only [List.mem_cons, List.not_mem_nil, or_false] at hk
    rcases hk with rfl | rfl | rfl
    · exact absurd hm (by simp [Matches, ops, Obj.key])
    · rfl
    · exact absurd hm (by simp [Matches, ops, Obj.key])

open Lit.Demo in
/-- The claim fails: with the keys `1` and `'1'` a value tagged `1` is validated by the first choice and
serialised by the second. -/
theorem int_and_text_keys_collide :
    valIndex ops [.int 1, .str ['1']] (.int 1) = some 0 ∧
    serIndex pyStr [.int 1, .str ['1']] (.int 1) = some 1 ∧
    ¬ SameChoice ops pyStr [.int 1, .str ['1']] (.int 1) := by
  refine ⟨by decide, by decide, ?_⟩
  intro h
  have := h 0 (by decide)
  revert this; decide

open Lit.Demo in
/-- The claim fails: a member of a `str` enum that equals the key `'a'`, or `True` for the key `1`, is
validated by that choice and not found in serialisation. -/
theorem equal_tag_not_found :
    valIndex ops [.str ['a'], .str ['b']] (.sub ['a']) = some 0 ∧
    serIndex pyStr [.str ['a'], .str ['b']] (.sub ['a']) = none ∧
    valIndex ops [.int 1] (.bool true) = some 0 ∧
    serIndex pyStr [.int 1] (.bool true) = none := by
  refine ⟨by decide, by decide, by decide, by decide⟩

open Lit.Demo in
/-- A function that returns `None` finds no tag in validation; in serialisation `None` is the tag, so that
the key `'None'` is taken.  One that raises stops validation and only warns in serialisation. -/
theorem function_none_and_raise :
    (valTag (fun x => x == Obj.none) (.func fun _ => .ok Obj.none) (.int 5) = .notFound) ∧
    HasTag (.func fun _ => .ok Obj.none) (.int 5) Obj.none ∧
    serIndex pyStr [.str "None".toList] Obj.none = some 0 ∧
    (valTag (fun x => x == Obj.none) (.func fun _ => .error ()) (.int 5) = .raised) ∧
    (∀ t, ¬ HasTag (.func fun _ => .error ()) (Obj.int 5) t) :=
  ⟨by rfl, .func rfl, by decide, by rfl, by intro t h; cases h with | func h => cases h⟩

open Lit.Demo in
/-- A value that is a dict with the tag `'b'`, serialised by the second choice; without tag the first
choice and a warning. -/
example :
    let ms : List (Member Nat String) :=
      [simpleMember .exact false false "one" "" 0, simpleMember .exact false false "two" "" 0]
    let d : Disc Obj := .path (fun _ => true) (fun v => .ok (if v = .int 5 then some (.str ['b']) else none))
      (fun _ => .error ())
    valTag (fun x => x == Obj.none) d (.int 5) = .tag (.str ['b']) ∧
    serialize pyStr true (fun _ => 9) 8 .none d [.str ['a'], .str ['b']] ms (.int 5) []
      = (.ok (some "two"), []) ∧
    serialize pyStr true (fun _ => 9) 8 .none d [.str ['a'], .str ['b']] ms (.int 6) []
      = (.ok (some "one"), [8]) := ⟨by rfl, by rfl, by rfl⟩

end PC.TagLookup
