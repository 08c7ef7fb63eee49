import Verif.Model.Generator

/-
C36: bounds of lazily validated generators.  C64: lazily serialised generators.
-/

namespace PC.Gen
variable {α β ε : Type}

/-! ### Specification -/

/-- The answers of the iterator over a Python list (or of any iterator that yields `xs` and then keeps
signalling its end). -/
def listAnswers (xs : List α) : Nat → Answer α ε := fun n =>
  match xs[n]? with
  | some x => .item x
  | none => .done

/-- The iterator yields exactly `xs`: a Python iterator, or a JSON array. -/
def Yields (it : Iter α ε) (xs : List α) : Prop := it = ofPy (listAnswers xs) ∨ it = ofJson xs

/-- Number of items among the first `n` answers. -/
def delivered (answers : Nat → Answer α ε) : Nat → Nat
  | 0 => 0
  | n + 1 =>
    match answers n with
    | .item _ => delivered answers n + 1
    | _ => delivered answers n

/-- `n` items are allowed. -/
def Within (maxLength : Option Nat) (n : Nat) : Prop := ∀ m, maxLength = some m → n ≤ m

/-- `n` items are enough. -/
def Enough (minLength : Option Nat) (n : Nat) : Prop := ∀ m, minLength = some m → m ≤ n

/-- `ys` are the validated values of the first items of `xs`, in order. -/
def Validated (v : Nat → α → Except ε β) (xs : List α) (ys : List β) : Prop :=
  ∀ (i : Nat) y, ys[i]? = some y → ∃ x, xs[i]? = some x ∧ v i x = .ok y

/-! ### Helper lemmas -/

theorem py_after (ans : Nat → Answer α ε) (v : Option (Nat → α → Except ε β)) (raw : α → β)
    (mn mx : Option Nat) (n : Nat) :
    (validate (ofPy ans) v raw mn mx).after n = ⟨.py ⟨ans, n, delivered ans n⟩, v, raw, mn, mx⟩ := by
  induction n with
  | zero => rfl
  | succ n ih =>
    rw [VIter.after, ih]
    have hit : ((PyIter.next ⟨ans, n, delivered ans n⟩).2 : PyIter α ε) = ⟨ans, n + 1, delivered ans (n + 1)⟩ := by
      simp only [PyIter.next, delivered]
      cases ans n <;> rfl
    have : ∀ g : VIter α β ε, g.next.2 = { g with iterator := g.iterator.next.2 } := by
      intro g
      simp only [VIter.next]
      repeat' split
      all_goals rfl
    rw [this]
    simp only [Iter.next, hit]

theorem next_state (g : VIter α β ε) : g.next.2 = { g with iterator := g.iterator.next.2 } := by
  simp only [VIter.next]
  repeat' split
  all_goals rfl

theorem json_after (xs : List α) (v : Option (Nat → α → Except ε β)) (raw : α → β)
    (mn mx : Option Nat) (n : Nat) :
    (validate (ofJson xs) v raw mn mx).after n = ⟨.json ⟨xs, min n xs.length⟩, v, raw, mn, mx⟩ := by
  induction n with
  | zero => simp [VIter.after, validate, ofJson]
  | succ n ih =>
    rw [VIter.after, ih, next_state]
    have hit : ((JsonIter.next ⟨xs, min n xs.length⟩).2 : JsonIter α) = ⟨xs, min (n + 1) xs.length⟩ := by
      simp only [JsonIter.next]
      split
      · rename_i h; dsimp only at h ⊢; congr 1; omega
      · rename_i h; dsimp only at h ⊢; congr 1; omega
    simp only [Iter.next, hit]

theorem delivered_list (xs : List α) (n : Nat) :
    delivered (listAnswers xs : Nat → Answer α ε) n = min n xs.length := by
  induction n with
  | zero => simp [delivered]
  | succ n ih =>
    simp only [delivered, listAnswers]
    cases h : xs[n]? with
    | some x =>
      have : n < xs.length := (List.getElem?_eq_some_iff.1 h).1
      simp only [ih]; omega
    | none =>
      have : xs.length ≤ n := by simpa using h
      simp only [ih]; omega

/-- Both kinds of iterator answer call `n` with item `n`, or with the end. -/
theorem yields_next (it : Iter α ε) (xs : List α) (hy : Yields it xs)
    (v : Option (Nat → α → Except ε β)) (raw : α → β) (mn mx : Option Nat) (n : Nat) :
    let g := (validate it v raw mn mx).after n
    g.validator = v ∧ g.raw = raw ∧ g.minLength = mn ∧ g.maxLength = mx ∧
    g.iterator.index = min n xs.length ∧
    g.iterator.next.1 = .ok (xs[n]?.map (fun x => (x, n))) ∧
    g.iterator.next.2.index = min (n + 1) xs.length := by
  dsimp only
  rcases hy with rfl | rfl
  · rw [py_after]
    refine ⟨rfl, rfl, rfl, rfl, delivered_list xs n, ?_, ?_⟩
    · simp only [Iter.next, PyIter.next, listAnswers]
      cases h : xs[n]? with
      | some x =>
        have : n < xs.length := (List.getElem?_eq_some_iff.1 h).1
        have hd : delivered (listAnswers xs : Nat → Answer α ε) n = n := by rw [delivered_list]; omega
        simp [hd]
      | none => rfl
    · simp only [Iter.next, PyIter.next, listAnswers]
      have hd := delivered_list (ε := ε) xs n
      cases h : xs[n]? with
      | some x =>
        have : n < xs.length := (List.getElem?_eq_some_iff.1 h).1
        simp only [Iter.index, hd]; omega
      | none =>
        have : xs.length ≤ n := by simpa using h
        simp only [Iter.index, hd]; omega
  · rw [json_after]
    refine ⟨rfl, rfl, rfl, rfl, rfl, ?_, ?_⟩
    · simp only [Iter.next, JsonIter.next]
      by_cases h : n < xs.length
      · have hm : min n xs.length = n := by omega
        simp only [hm, h, dif_pos]
        rw [List.getElem?_eq_getElem h]; rfl
      · have hm : min n xs.length = xs.length := by omega
        simp only [hm, Nat.lt_irrefl, dif_neg, not_false_eq_true]
        simp [show xs.length ≤ n by omega]
    · simp only [Iter.next, JsonIter.next]
      by_cases h : n < xs.length
      · have hm : min n xs.length = n := by omega
        simp only [hm, h, dif_pos, Iter.index]; omega
      · have hm : min n xs.length = xs.length := by omega
        simp only [hm, Nat.lt_irrefl, dif_neg, not_false_eq_true, Iter.index]; omega

theorem not_exceeded (mx : Option Nat) (n : Nat) (hw : Within mx (n + 1)) : exceeded mx n = none := by
  cases mx with
  | none => rfl
  | some m => have := hw m rfl; simp only [exceeded, ge_iff_le]; rw [if_neg (by omega)]

theorem is_exceeded (m n : Nat) (h : m ≤ n) : exceeded (some m) n = some m := by
  simp [exceeded, h]

/-! ### C36 -/

/-- C36, call by call. The iterator yields `xs` and there is an item validator. Call number `n` of `next`
* yields the validated item `n` if that is within `max_length` and valid,
* raises the item's error, located at its index, if it is within `max_length` and invalid,
* raises `too_long` for an item past `max_length`, without validating it,
* after the last item raises `too_short` if there were fewer than `min_length`, and stops otherwise.

Partial: without an item validator `max_length` is not enforced, see `any_generator_ignores_max`. -/
theorem next_exact_partial (it : Iter α ε) (xs : List α) (hy : Yields it xs) (v : Nat → α → Except ε β)
    (raw : α → β) (mn mx : Option Nat) (n : Nat) :
    let out := (validate it (some v) raw mn mx).outcome n
    (∀ x y, xs[n]? = some x → Within mx (n + 1) → v n x = .ok y → out = .yield y) ∧
    (∀ x e, xs[n]? = some x → Within mx (n + 1) → v n x = .error e → out = .raise (.item e)) ∧
    (∀ m, n < xs.length → mx = some m → m ≤ n → out = .raise (.tooLong m)) ∧
    (∀ m, xs.length ≤ n → mn = some m → xs.length < m → out = .raise (.tooShort m xs.length)) ∧
    (xs.length ≤ n → Enough mn xs.length → out = .stop) := by
  obtain ⟨hv, _, hmn, hmx, _, hn, hi⟩ := yields_next it xs hy (some v) raw mn mx n
  generalize hg : (validate it (some v) raw mn mx).after n = g at *
  dsimp only [VIter.outcome]
  rw [hg]
  have key : ∀ x, xs[n]? = some x → Within mx (n + 1) →
      g.next.1 = (match v n x with | .ok b => .yield b | .error e => .raise (.item e)) := by
    intro x hx hw
    simp only [VIter.next, hn, hx, Option.map_some, hv, hmx]
    simp only [not_exceeded mx _ hw]
    cases v n x <;> rfl
  refine ⟨?_, ?_, ?_, ?_, ?_⟩
  · intro x y hx hw hvx; rw [key x hx hw, hvx]
  · intro x e hx hw hvx; rw [key x hx hw, hvx]
  · intro m hlt hm hle
    have hx := List.getElem?_eq_getElem hlt
    simp only [VIter.next, hn, hx, Option.map_some, hv, hmx, hm, is_exceeded m n hle]
  · intro m hle hm hlt
    have hx : xs[n]? = none := by simpa using hle
    have : min (n + 1) xs.length = xs.length := by omega
    simp only [VIter.next, hn, hx, Option.map_none, hmn, hm, hi, this]
    simp [hlt]
  · intro hle henough
    have hx : xs[n]? = none := by simpa using hle
    have : min (n + 1) xs.length = xs.length := by omega
    simp only [VIter.next, hn, hx, Option.map_none, hmn, hi, this]
    cases mn with
    | none => rfl
    | some m => have := henough m rfl; simp only; rw [if_neg (by omega)]

/-- Positive numbers are valid and doubled. -/
private def demo : Nat → Int → Except String Int := fun i x =>
  if x > 0 then .ok (2 * x) else .error s!"bad item {i}"

/-- `[1, 0, 2, 3]` with at most three items: yields 2, raises on the 0, yields 4, raises `too_long`, stops. -/
example : (List.range 5).map (validate (ofJson [1, 0, 2, 3]) (some demo) id (some 2) (some 3)).outcome
    = [.yield 2, .raise (.item "bad item 1"), .yield 4, .raise (.tooLong 3), .stop] := by decide

/-- C36. For any iterator whatever, even one that raises in between or goes on after its end: each call
passes on an exception of the iterator, and counts as the index of an item the number of items the iterator
delivered before. -/
theorem next_any_source_partial (ans : Nat → Answer α ε) (v : Nat → α → Except ε β) (raw : α → β)
    (mn mx : Option Nat) (n : Nat) :
    let out := (validate (ofPy ans) (some v) raw mn mx).outcome n
    (∀ e, ans n = .raised e → out = .raise (.source e)) ∧
    (∀ x y, ans n = .item x → Within mx (delivered ans n + 1) → v (delivered ans n) x = .ok y → out = .yield y) ∧
    (∀ x e, ans n = .item x → Within mx (delivered ans n + 1) → v (delivered ans n) x = .error e →
      out = .raise (.item e)) ∧
    (∀ x m, ans n = .item x → mx = some m → m ≤ delivered ans n → out = .raise (.tooLong m)) ∧
    (∀ m, ans n = .done → mn = some m → delivered ans n < m → out = .raise (.tooShort m (delivered ans n))) ∧
    (ans n = .done → Enough mn (delivered ans n) → out = .stop) := by
  dsimp only [VIter.outcome]
  rw [py_after]
  have key : ∀ x, ans n = .item x → Within mx (delivered ans n + 1) →
      (VIter.next ⟨.py ⟨ans, n, delivered ans n⟩, some v, raw, mn, mx⟩).1
        = (match v (delivered ans n) x with | .ok b => .yield b | .error e => .raise (.item e)) := by
    intro x hx hw
    simp only [VIter.next, Iter.next, PyIter.next, hx]
    simp only [not_exceeded mx _ hw]
    cases v (delivered ans n) x <;> rfl
  refine ⟨?_, ?_, ?_, ?_, ?_, ?_⟩
  · intro e he; simp only [VIter.next, Iter.next, PyIter.next, he]
  · intro x y hx hw hvx; rw [key x hx hw, hvx]
  · intro x e hx hw hvx; rw [key x hx hw, hvx]
  · intro x m hx hm hle
    simp only [VIter.next, Iter.next, PyIter.next, hx, hm, is_exceeded m _ hle]
  · intro m hd hm hlt
    simp only [VIter.next, Iter.next, PyIter.next, hd, hm, Iter.index]
    simp [hlt]
  · intro hd he
    simp only [VIter.next, Iter.next, PyIter.next, hd, Iter.index]
    cases mn with
    | none => rfl
    | some m => have := he m rfl; simp only; rw [if_neg (by omega)]

/-- An iterator that raises once and goes on: the index of the next item is not advanced. -/
example : (List.range 4).map (validate (ofPy (fun n => match n with
      | 0 => .item (1 : Int) | 1 => .raised "oops" | 2 => .item 0 | _ => .done)) (some demo) id none none).outcome
    = [.yield 2, .raise (.source "oops"), .raise (.item "bad item 1"), .stop] := by decide

/-- C36. Lazy: validation itself takes nothing from the input, and each call of `next` asks the underlying
iterator once; the attribute `index` counts the items taken. -/
theorem takes_one_at_a_time (ans : Nat → Answer α ε) (v : Option (Nat → α → Except ε β)) (raw : α → β)
    (mn mx : Option Nat) (n : Nat) :
    ∃ it, ((validate (ofPy ans) v raw mn mx).after n).iterator = .py it ∧ it.calls = n ∧
      it.index = delivered ans n ∧ it.answers = ans := by
  rw [py_after]; exact ⟨_, rfl, rfl, rfl, rfl⟩

/-- The attribute `index` on an iterator or JSON array that yields `xs`. -/
theorem index_counts (it : Iter α ε) (xs : List α) (hy : Yields it xs) (v : Option (Nat → α → Except ε β))
    (raw : α → β) (mn mx : Option Nat) (n : Nat) :
    ((validate it v raw mn mx).after n).iterator.index = min n xs.length :=
  (yields_next it xs hy v raw mn mx n).2.2.2.2.1

example : ((validate (ofJson ([5, 6, 7] : List Int)) (some demo) id none none).after 2).iterator.index = 2 := by decide

theorem after_next (g : VIter α β ε) (n : Nat) : (g.after n).next = (g.outcome n, g.after (n + 1)) := rfl

/-- The loop, from any point where everything so far was fine. -/
theorem loop_from (it : Iter α ε) (xs : List α) (hy : Yields it xs) (v : Nat → α → Except ε β)
    (raw : α → β) (mn mx : Option Nat) (fuel n : Nat) (acc : List β) (hfuel : xs.length < n + fuel)
    (hacc : acc.length = n) (hn : n ≤ xs.length) (hv : Validated v xs acc) (hw : Within mx n) :
    (∃ ys, ((validate it (some v) raw mn mx).after n).loop fuel acc = .finished ys ∧
      ys.length = xs.length ∧ Validated v xs ys ∧ Within mx xs.length ∧ Enough mn xs.length) ∨
    (∃ ys e, ((validate it (some v) raw mn mx).after n).loop fuel acc = .raised ys e ∧
      Validated v xs ys ∧ Within mx ys.length ∧
      ((∃ x e', xs[ys.length]? = some x ∧ Within mx (ys.length + 1) ∧ v ys.length x = .error e' ∧ e = .item e') ∨
       (∃ m, mx = some m ∧ ys.length = m ∧ m < xs.length ∧ e = .tooLong m) ∨
       (∃ m, mn = some m ∧ ys.length = xs.length ∧ xs.length < m ∧ e = .tooShort m xs.length))) := by
  induction fuel generalizing n acc with
  | zero => omega
  | succ fuel ih =>
    obtain ⟨h1, h2, h3, h4, h5⟩ := next_exact_partial it xs hy v raw mn mx n
    simp only [VIter.loop, after_next]
    by_cases hlt : n < xs.length
    · have hx := List.getElem?_eq_getElem hlt
      by_cases hwn : Within mx (n + 1)
      · cases hvx : v n xs[n] with
        | ok y =>
          rw [h1 _ y hx hwn hvx]
          dsimp only
          refine ih (n + 1) (acc ++ [y]) (by omega) (by simp [hacc]) (by omega) ?_ hwn
          intro i z hz
          by_cases hi : i < acc.length
          · rw [List.getElem?_append_left hi] at hz; exact hv i z hz
          · rw [List.getElem?_append_right (by omega)] at hz
            have hi0 : i = n := by
              have := (List.getElem?_eq_some_iff.1 hz).1
              simp at this; omega
            subst hi0
            rw [hacc] at hz
            simp at hz
            subst hz
            exact ⟨_, hx, hvx⟩
        | error e =>
          rw [h2 _ e hx hwn hvx]
          refine .inr ⟨acc, .item e, rfl, hv, hacc ▸ hw, .inl ⟨xs[n], e, ?_, ?_, ?_, rfl⟩⟩
          · rw [hacc]; exact hx
          · rw [hacc]; exact hwn
          · rw [hacc]; exact hvx
      · cases hm : mx with
        | none => exact absurd (fun m h => by rw [hm] at h; cases h) hwn
        | some m =>
          have hle : m ≤ n := by
            apply Nat.le_of_not_lt
            intro h; apply hwn; intro m' h'; rw [hm] at h'; cases h'; exact h
          have := hw m hm
          rw [hm] at h3
          rw [h3 m hlt rfl hle]
          exact .inr ⟨acc, .tooLong m, rfl, hv, by rw [hacc, ← hm]; exact hw,
            .inr (.inl ⟨m, rfl, by omega, by omega, rfl⟩)⟩
    · have hlen : n = xs.length := by omega
      by_cases he : Enough mn xs.length
      · rw [h5 (by omega) he]
        exact .inl ⟨acc, rfl, by omega, hv, hlen ▸ hw, he⟩
      · cases hm : mn with
        | none => exact absurd (fun m h => by rw [hm] at h; cases h) he
        | some m =>
          have hlt' : xs.length < m := by
            apply Nat.lt_of_not_le
            intro h; apply he; intro m' h'; rw [hm] at h'; cases h'; exact h
          rw [hm] at h4
          rw [h4 m (by omega) rfl hlt']
          exact .inr ⟨acc, .tooShort m xs.length, rfl, hv, hacc ▸ hw,
            .inr (.inr ⟨m, rfl, by omega, hlt', rfl⟩)⟩

/-- C36, as a loop over the whole generator. The loop ends: either normally, and then every item was valid,
the number of items respects both bounds and the loop saw the validated items in order; or with an
exception, and then the items before it were seen, validated and in order, and the exception is the error
of the first invalid item, or `too_long` right after `max_length` items, or `too_short` after all items.

Partial: as for `next_exact_partial`. -/
theorem loop_exact_partial (it : Iter α ε) (xs : List α) (hy : Yields it xs) (v : Nat → α → Except ε β)
    (raw : α → β) (mn mx : Option Nat) (fuel : Nat) (hfuel : xs.length < fuel) :
    (∃ ys, (validate it (some v) raw mn mx).loop fuel [] = .finished ys ∧
      ys.length = xs.length ∧ Validated v xs ys ∧ Within mx xs.length ∧ Enough mn xs.length) ∨
    (∃ ys e, (validate it (some v) raw mn mx).loop fuel [] = .raised ys e ∧
      Validated v xs ys ∧ Within mx ys.length ∧
      ((∃ x e', xs[ys.length]? = some x ∧ Within mx (ys.length + 1) ∧ v ys.length x = .error e' ∧ e = .item e') ∨
       (∃ m, mx = some m ∧ ys.length = m ∧ m < xs.length ∧ e = .tooLong m) ∨
       (∃ m, mn = some m ∧ ys.length = xs.length ∧ xs.length < m ∧ e = .tooShort m xs.length))) :=
  loop_from it xs hy v raw mn mx fuel 0 [] (by omega) rfl (by omega) (by intro i y h; simp at h)
    (by intro m _; omega)

/-- Two items where three are needed. -/
example : Yields (ofPy (listAnswers [4, 5]) : Iter Int String) [4, 5] ∧
    (validate (ofPy (listAnswers [4, 5])) (some demo) id (some 3) none).loop 9 [] = .raised [8, 10] (.tooShort 3 2) :=
  ⟨.inl rfl, by rfl⟩

/-- C36. The loop ends normally exactly when all items are valid and their number is within the bounds. -/
theorem loop_finishes_iff_partial (it : Iter α ε) (xs : List α) (hy : Yields it xs) (v : Nat → α → Except ε β)
    (raw : α → β) (mn mx : Option Nat) (fuel : Nat) (hfuel : xs.length < fuel) :
    (∃ ys, (validate it (some v) raw mn mx).loop fuel [] = .finished ys) ↔
      ((∀ (i : Nat) x, xs[i]? = some x → ∃ y, v i x = .ok y) ∧ Within mx xs.length ∧ Enough mn xs.length) := by
  rcases loop_exact_partial it xs hy v raw mn mx fuel hfuel with ⟨ys, h, hl, hv, hw, he⟩ | ⟨ys, e, h, hv, hw, hr⟩
  · refine ⟨fun _ => ⟨?_, hw, he⟩, fun _ => ⟨ys, h⟩⟩
    intro i x hx
    have hi : i < ys.length := by rw [hl]; exact (List.getElem?_eq_some_iff.1 hx).1
    obtain ⟨x', hx', hy'⟩ := hv i _ (List.getElem?_eq_getElem hi)
    rw [hx] at hx'; cases hx'
    exact ⟨_, hy'⟩
  · constructor
    · rintro ⟨ys', h'⟩; rw [h] at h'; cases h'
    · rintro ⟨hall, hw', he'⟩
      rcases hr with ⟨x, e', hx, _, hvx, _⟩ | ⟨m, hm, _, hlt, _⟩ | ⟨m, hm, _, hlt, _⟩
      · obtain ⟨y, hy'⟩ := hall _ _ hx
        rw [hvx] at hy'; cases hy'
      · have := hw' m hm; omega
      · have := he' m hm; omega

example : (validate (ofJson [4, 5]) (some demo) id (some 2) (some 2)).loop 3 [] = .finished [8, 10] := by rfl

/-- Against C36: a generator without item validator (`generator[any]`) yields every item, whatever
`max_length` is. -/
theorem any_generator_ignores_max (it : Iter α ε) (xs : List α) (hy : Yields it xs) (raw : α → β)
    (mn mx : Option Nat) (n : Nat) (x : α) (hx : xs[n]? = some x) :
    (validate it none raw mn mx).outcome n = .yield (raw x) := by
  obtain ⟨hv, hr, _, _, _, hn, _⟩ := yields_next it xs hy none raw mn mx n
  generalize hg : (validate it none raw mn mx).after n = g at *
  simp only [VIter.outcome, hg, VIter.next, hn, hx, Option.map_some, hv, hr]

/-- Three items although at most one is allowed. -/
example : (validate (ofJson [4, 5, 6]) none id none (some 1) : VIter Int Int String).loop 9 [] = .finished [4, 5, 6] := by
  rfl

/-- C36. `min_length` is enforced also without item validator. -/
theorem any_generator_min (it : Iter α ε) (xs : List α) (hy : Yields it xs) (raw : α → β)
    (mn mx : Option Nat) (n : Nat) (hn : xs.length ≤ n) :
    (∀ m, mn = some m → xs.length < m →
      (validate it none raw mn mx).outcome n = .raise (.tooShort m xs.length)) ∧
    (Enough mn xs.length → (validate it none raw mn mx).outcome n = .stop) := by
  obtain ⟨_, _, hmn, _, _, hnx, hi⟩ := yields_next it xs hy none raw mn mx n
  generalize hg : (validate it none raw mn mx).after n = g at *
  have hx : xs[n]? = none := by simpa using hn
  have : min (n + 1) xs.length = xs.length := by omega
  constructor
  · intro m hm hlt
    have hmn' : g.minLength = some m := hmn.trans hm
    simp only [VIter.outcome, hg, VIter.next, hnx, hx, Option.map_none, hmn', hi, this]
    simp [hlt]
  · intro he
    simp only [VIter.outcome, hg, VIter.next, hnx, hx, Option.map_none, hmn, hi, this]
    cases mn with
    | none => rfl
    | some m => have := he m rfl; simp only; rw [if_neg (by omega)]

example : (validate (ofJson [4]) none id (some 2) none : VIter Int Int String).outcome 1 = .raise (.tooShort 2 1) := by
  decide

/-! ### C64 -/

theorem siter_loop_from (f : Filter.Filt) (incl excl : Option Filter.FVal)
    (ser : α → Option Filter.FVal → Option Filter.FVal → Except ε β) (rest : List (Except ε α)) (i fuel : Nat)
    (acc : List β) (hf : rest.length < fuel) :
    (SIter.mk rest i f incl excl ser).loop fuel acc = some (jsonLoop f incl excl ser rest i acc) := by
  induction rest generalizing i fuel acc with
  | nil =>
    cases fuel with
    | zero => simp at hf
    | succ fuel => rfl
  | cons a rest ih =>
    cases fuel with
    | zero => simp at hf
    | succ fuel =>
      simp only [List.length_cons] at hf
      cases a with
      | error e => rfl
      | ok x =>
        simp only [SIter.loop, SIter.next, siterNext, jsonLoop]
        rcases hff : Filter.indexFilter f i incl excl none with e | (_ | ⟨ni, ne⟩)
        · rfl
        · dsimp only
          have := ih (i + 1) (fuel + 1) acc (by omega)
          simp only [SIter.loop, SIter.next] at this
          exact this
        · dsimp only
          cases hs : ser x ni ne with
          | error e => rfl
          | ok b => exact ih (i + 1) fuel (acc ++ [b]) (by omega)

/-- C64. Iterating over the lazily serialised generator (Python mode) gives exactly the list that JSON mode
builds at once, or ends with the same error. -/
theorem lazy_serialisation_agrees (f : Filter.Filt) (incl excl : Option Filter.FVal)
    (ser : α → Option Filter.FVal → Option Filter.FVal → Except ε β) (items : List (Except ε α)) (fuel : Nat)
    (hf : items.length < fuel) :
    (SIter.mk items 0 f incl excl ser).loop fuel [] = some (jsonLoop f incl excl ser items 0 []) :=
  siter_loop_from f incl excl ser items 0 fuel [] hf

/-- Excluding item 1 of three. -/
example : (SIter.mk [.ok 4, .ok 5, .ok 6] 0 .any Option.none (some (.set [.i 1]))
      (fun x _ _ => .ok (10 * x)) : SIter Int Int String).loop 4 [] = some (.ok [40, 60]) := by rfl

end PC.Gen
