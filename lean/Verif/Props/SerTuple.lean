import Verif.Model.SerTuple

/-
C65: which serialiser each item of a tuple gets.
-/

namespace PC.SerTuple

variable {α N S E σ O W : Type}

/-- The serialiser that position `i` of a tuple of `n` items should have. Without variadic item: the `i`-th, or
`anySer` beyond the end. With variadic item `v`: before it the `i`-th; the serialisers after it belong to the
last items of the tuple; those between get the variadic one. -/
def serializerFor (t : TupSer S) (anySer : S) (n i : Nat) : Option S :=
  match t.variadic with
  | none => some (t.sers[i]?.getD anySer)
  | some v =>
    let after := t.sers.length - 1 - v
    if i < v then t.sers[i]?
    else if n - i ≤ after then t.sers[t.sers.length - (n - i)]?
    else t.sers[v]?

/-- Visiting the items from position `i` on: the filter first, then the callback with the serialiser. -/
def visit (flt : Nat → Except E (Option N)) (f : Entry α N S → σ → Except E σ) (pick : Nat → Option S) :
    List α → Nat → σ → Except (Stop E) σ
  | [], _, st => .ok st
  | x :: xs, i, st =>
    match pick i with
    | none => .error .panic
    | some s =>
      match turn flt f i x s st with
      | .error e => .error e
      | .ok st' => visit flt f pick xs (i + 1) st'

theorem useSerializers_visit (flt : Nat → Except E (Option N)) (f : Entry α N S → σ → Except E σ)
    (pick : Nat → Option S) : ∀ (ss : List S) (i : Nat) (items : List α) (st : σ), items.length ≤ ss.length →
    (∀ j : Nat, j < items.length → pick (i + j) = ss[j]?) →
    (match useSerializers flt f ss i items st with
     | .error e => .error e
     | .ok (st', _) => .ok st') = visit flt f pick items i st
  | [], i, [], st, _, _ => rfl
  | [], i, x :: xs, st, h, _ => by simp at h
  | s :: ss, i, [], st, _, _ => rfl
  | s :: ss, i, x :: xs, st, h, hp => by
    rw [useSerializers, visit]
    have h0 := hp 0 (by simp)
    simp only [Nat.add_zero, List.getElem?_cons_zero] at h0
    rw [h0]
    dsimp only
    cases turn flt f i x s st with
    | error e => rfl
    | ok st' =>
      dsimp only
      refine useSerializers_visit flt f pick ss (i + 1) xs st' (by simpa using h) (fun j hj => ?_)
      have := hp (j + 1) (by simpa using hj)
      rw [List.getElem?_cons_succ] at this
      rw [← this]; congr 1; omega

/-- With all serialisers used up, the items left are the ones beyond. -/
theorem useSerializers_rest (flt : Nat → Except E (Option N)) (f : Entry α N S → σ → Except E σ)
    (pick : Nat → Option S) : ∀ (ss : List S) (i : Nat) (items : List α) (st : σ),
    (∀ j : Nat, j < ss.length → pick (i + j) = ss[j]?) →
    useSerializers flt f ss i items st =
      match visit flt f pick (items.take ss.length) i st with
      | .error e => .error e
      | .ok st' => .ok (st', items.drop ss.length)
  | [], i, items, st, _ => by simp [useSerializers, visit]
  | s :: ss, i, [], st, _ => by simp [useSerializers, visit]
  | s :: ss, i, x :: xs, st, hp => by
    rw [useSerializers, List.length_cons, List.take_succ_cons, List.drop_succ_cons, visit]
    have h0 := hp 0 (by simp)
    simp only [Nat.add_zero, List.getElem?_cons_zero] at h0
    rw [h0]
    dsimp only
    cases turn flt f i x s st with
    | error e => rfl
    | ok st' =>
      dsimp only
      refine useSerializers_rest flt f pick ss (i + 1) xs st' (fun j hj => ?_)
      have := hp (j + 1) (by simpa using hj)
      rw [List.getElem?_cons_succ] at this
      rw [← this]; congr 1; omega

theorem extraItems_visit (flt : Nat → Except E (Option N)) (f : Entry α N S → σ → Except E σ) (anySer : S)
    (warn : σ → σ) (base : Nat) (pick : Nat → Option S) : ∀ (items : List α) (i : Nat) (st : σ),
    (∀ j, i + base ≤ j → pick j = some anySer) →
    extraItems flt f anySer warn base items i true st = visit flt f pick items (i + base) st
  | [], i, st, _ => rfl
  | x :: xs, i, st, hp => by
    rw [extraItems, visit, hp _ (Nat.le_refl _)]
    simp only [if_true]
    cases turn flt f (i + base) x anySer st with
    | error e => rfl
    | ok st' =>
      dsimp only
      rw [extraItems_visit flt f anySer warn base pick xs (i + 1) st' (fun j hj => hp j (by omega))]
      congr 1; omega

theorem visit_append (flt : Nat → Except E (Option N)) (f : Entry α N S → σ → Except E σ) (pick : Nat → Option S) :
    ∀ (l l' : List α) (i : Nat) (st : σ), visit flt f pick (l ++ l') i st =
      match visit flt f pick l i st with
      | .error e => .error e
      | .ok st' => visit flt f pick l' (i + l.length) st'
  | [], l', i, st => by simp [visit]
  | x :: xs, l', i, st => by
    rw [List.cons_append, visit, visit]
    cases pick i with
    | none => rfl
    | some s =>
      dsimp only
      cases turn flt f i x s st with
      | error e => rfl
      | ok st' =>
        dsimp only
        rw [visit_append flt f pick xs l' (i + 1) st', List.length_cons]
        have : i + 1 + xs.length = i + (xs.length + 1) := by omega
        rw [this]

/-- **C65**, tuples with a variadic item that have at least as many items as there are other serialisers: every
item, in order, gets the serialiser of its position (counted from the end behind the variadic item). -/
theorem variadic_exact_partial (t : TupSer S) (v : Nat) (hv : t.variadic = some v) (hlt : v < t.sers.length)
    (flt : Nat → Except E (Option N)) (f : Entry α N S → σ → Except E σ) (anySer : S) (warn : σ → σ) (strict : Bool)
    (items : List α) (hn : t.sers.length ≤ items.length + 1) (st : σ) :
    forEach t flt f anySer warn strict items st =
      visit flt f (serializerFor t anySer items.length) items 0 st := by
  unfold forEach
  rw [hv]
  dsimp only
  rw [List.getElem?_eq_getElem hlt]
  dsimp only
  refine useSerializers_visit flt f (serializerFor t anySer items.length) _ 0 items st ?_ ?_
  · simp only [List.length_append, List.length_take, List.length_replicate, List.length_drop]
    omega
  · intro j hj
    simp only [serializerFor, hv, Nat.zero_add]
    rw [List.append_assoc, List.getElem?_append]
    simp only [List.length_take]
    have hmin : min v t.sers.length = v := by omega
    rw [hmin]
    by_cases h1 : j < v
    · rw [if_pos h1, if_pos h1, List.getElem?_take, if_pos h1]
    · rw [if_neg h1, if_neg h1, List.getElem?_append]
      simp only [List.length_replicate]
      by_cases h2 : items.length - j ≤ t.sers.length - 1 - v
      · rw [if_pos h2, if_neg (by omega), List.getElem?_drop]
        congr 1; omega
      · rw [if_neg h2, if_pos (by omega), List.getElem?_replicate, if_pos (by omega),
          List.getElem?_eq_getElem hlt]

/-- **C65**, tuples without variadic item: each item gets the serialiser of its position; if there are more
items than serialisers these are inferred, after one warning. In strict mode another number of items is an
error. -/
theorem fixed_exact (t : TupSer S) (hv : t.variadic = none)
    (flt : Nat → Except E (Option N)) (f : Entry α N S → σ → Except E σ) (anySer : S) (warn : σ → σ) (strict : Bool)
    (items : List α) (st : σ) :
    forEach t flt f anySer warn strict items st =
      if strict = true ∧ items.length ≠ t.sers.length then .error (.unexpected t.sers.length items.length)
      else
        match visit flt f (serializerFor t anySer items.length) (items.take t.sers.length) 0 st with
        | .error e => .error e
        | .ok st' =>
          visit flt f (serializerFor t anySer items.length) (items.drop t.sers.length) t.sers.length
            (if items.length ≤ t.sers.length then st' else warn st') := by
  unfold forEach
  rw [hv]
  dsimp only
  have hb : (strict && items.length != t.sers.length) = true ↔ strict = true ∧ items.length ≠ t.sers.length := by
    simp
  by_cases hs : strict = true ∧ items.length ≠ t.sers.length
  · rw [if_pos (hb.2 hs), if_pos hs]
  · rw [if_neg (fun h => hs (hb.1 h)), if_neg hs,
      useSerializers_rest flt f (serializerFor t anySer items.length) t.sers 0 items st (by
        intro j hj
        simp only [serializerFor, hv, Nat.zero_add]
        rw [List.getElem?_eq_getElem hj]; rfl)]
    cases visit flt f (serializerFor t anySer items.length) (items.take t.sers.length) 0 st with
    | error e => rfl
    | ok st' =>
      dsimp only
      have hp : ∀ j, t.sers.length ≤ j → serializerFor t anySer items.length j = some anySer := by
        intro j hj
        simp only [serializerFor, hv]
        rw [List.getElem?_eq_none hj]; rfl
      cases hd : items.drop t.sers.length with
      | nil =>
        have hlen : items.length ≤ t.sers.length := List.drop_eq_nil_iff.1 hd
        rw [if_pos hlen]; rfl
      | cons x xs =>
        have hlen : ¬ items.length ≤ t.sers.length := by
          intro h
          rw [List.drop_eq_nil_of_le h] at hd; cases hd
        rw [if_neg hlen, extraItems, visit, hp _ (Nat.le_refl _), Nat.zero_add]
        simp only [Bool.false_eq_true, if_false]
        cases turn flt f t.sers.length x anySer (warn st') with
        | error e => rfl
        | ok st2 =>
          dsimp only
          rw [extraItems_visit flt f anySer warn t.sers.length (serializerFor t anySer items.length) xs 1 st2
            (fun j hj => hp j (by omega)), Nat.add_comm 1]

/-- **C65**: when the number of items fits, every item is serialised once, by the serialiser of its position,
and no warning is added. -/
theorem fixed_exact_fits (t : TupSer S) (hv : t.variadic = none)
    (flt : Nat → Except E (Option N)) (f : Entry α N S → σ → Except E σ) (anySer : S) (warn : σ → σ) (strict : Bool)
    (items : List α) (hn : items.length = t.sers.length) (st : σ) :
    forEach t flt f anySer warn strict items st =
      visit flt f (serializerFor t anySer items.length) items 0 st := by
  rw [fixed_exact t hv, if_neg (fun h => h.2 hn), ← hn, List.take_length, List.drop_length]
  cases visit flt f (serializerFor t anySer items.length) items 0 st with
  | error e => rfl
  | ok st' => simp [visit]

/-- With a variadic item and too few items, the serialisers after the variadic one are not counted from the
end: of `tuple[int, *tuple[str, ...], bool, bytes]` the last of two items is serialised as `bool`. Strict mode
does not check the length either. -/
theorem variadic_short_shifted :
    forEach (E := Unit) (σ := List (Nat × String)) ⟨["int", "str", "bool", "bytes"], some 1⟩
      (fun _ => .ok (some ())) (fun e st => .ok (st ++ [(e.item, e.ser)])) "any" id true [10, 11] [] =
      .ok [(10, "int"), (11, "bool")] ∧
    serializerFor ⟨["int", "str", "bool", "bytes"], some 1⟩ "any" 2 1 = some "bytes" := by
  constructor <;> rfl

/-- The number of items is one that the schema expects. -/
def Fits (t : TupSer S) (n : Nat) : Prop :=
  match t.variadic with
  | none => n = t.sers.length
  | some v => v < t.sers.length ∧ t.sers.length ≤ n + 1

/-- A serialiser that adds no warnings. -/
def quiet (g : S → α → Except E O) (s : S) (x : α) (_ : N) (ws : List W) : Except E (O × List W) :=
  match g s x with
  | .error e => .error e
  | .ok o => .ok (o, ws)

theorem visit_all (g : S → α → Except E O) (pick : Nat → Option S) (n0 : N) : ∀ (items : List α) (i : Nat) (os os' : List O) (ws ws' : List W),
    visit (fun _ => .ok (some n0)) (pushItem (quiet g)) pick items i (os, ws) = .ok (os', ws') →
    ws' = ws ∧ ∃ new : List O, os' = os ++ new ∧ new.length = items.length ∧
      ∀ (j : Nat) x, items[j]? = some x → ∃ s o, pick (i + j) = some s ∧ g s x = .ok o ∧ new[j]? = some o
  | [], i, os, os', ws, ws', h => by cases h; exact ⟨rfl, [], by simp, rfl, by simp⟩
  | x :: xs, i, os, os', ws, ws', h => by
    rw [visit] at h
    cases hp : pick i with
    | none => rw [hp] at h; cases h
    | some s =>
      rw [hp] at h
      dsimp only [turn, pushItem, quiet] at h
      cases hg : g s x with
      | error e => rw [hg] at h; cases h
      | ok o =>
        rw [hg] at h
        obtain ⟨h0, new, h1, h2, h3⟩ := visit_all g pick n0 xs (i + 1) (os ++ [o]) os' ws ws' h
        refine ⟨h0, o :: new, by rw [h1]; simp, by rw [List.length_cons, h2]; rfl, ?_⟩
        intro j y hy
        cases j with
        | zero =>
          rw [List.getElem?_cons_zero] at hy; cases hy
          exact ⟨s, o, hp, hg, rfl⟩
        | succ j =>
          rw [List.getElem?_cons_succ] at hy
          obtain ⟨s', o', a, b, c⟩ := h3 j y hy
          exact ⟨s', o', by rw [← a]; congr 1; omega, b, by rw [List.getElem?_cons_succ]; exact c⟩

/-- **C65**: with a number of items that the schema expects and no filter, the result has as many items, no
warning is added, and each item is what the serialiser of its position makes of it. -/
theorem tuple_items_serialised (t : TupSer S) (g : S → α → Except E O) (anySer : S) (extraWarning : W)
    (strict : Bool) (items : List α) (hf : Fits t items.length) (ws ws' : List W) (os : List O)
    (h : toPython t (fun _ => .ok (some ()))
      (quiet g) anySer extraWarning strict items ws = .ok (os, ws')) :
    ws' = ws ∧ os.length = items.length ∧
    ∀ (j : Nat) x, items[j]? = some x → ∃ s o, serializerFor t anySer items.length j = some s ∧ g s x = .ok o ∧
      os[j]? = some o := by
  unfold toPython at h
  have h' : visit (fun _ => .ok (some ())) (pushItem (quiet g)) (serializerFor t anySer items.length) items 0 ([], ws) =
      .ok (os, ws') := by
    rw [← h]
    unfold Fits at hf
    cases hv : t.variadic with
    | none => rw [hv] at hf; exact (fixed_exact_fits t hv _ _ _ _ _ items hf _).symm
    | some v => rw [hv] at hf; exact (variadic_exact_partial t v hv hf.1 _ _ _ _ _ items hf.2 _).symm
  obtain ⟨h0, new, h1, h2, h3⟩ := visit_all g _ () items 0 [] os ws ws' h'
  rw [List.nil_append] at h1
  subst h1
  refine ⟨h0, h2, fun j x hx => ?_⟩
  have := h3 j x hx
  rw [Nat.zero_add] at this; exact this

/-! Cases that meet the hypotheses: `tuple[int, *tuple[str, ...], bytes]` with five items, and a fixed tuple. -/

example : forEach (E := Unit) (σ := List (Nat × String)) ⟨["int", "str", "bytes"], some 1⟩
    (fun _ => .ok (some ())) (fun e st => .ok (st ++ [(e.item, e.ser)])) "any" id true [10, 11, 12, 13, 14] [] =
    .ok [(10, "int"), (11, "str"), (12, "str"), (13, "str"), (14, "bytes")] := by
  rw [variadic_exact_partial _ 1 rfl (by decide) _ _ _ _ _ _ (by decide)]
  rfl

example : forEach (E := Unit) (σ := List (Nat × String)) ⟨["int", "str"], none⟩
    (fun i => .ok (if i = 0 then none else some ())) (fun e st => .ok (st ++ [(e.item, e.ser)])) "any"
    (fun st => st ++ [(0, "warning")]) false [10, 11, 12, 13] [] =
    .ok [(11, "str"), (0, "warning"), (12, "any"), (13, "any")] := by
  rw [fixed_exact _ rfl]
  rfl

example : Fits (⟨["int", "str", "bytes"], some 1⟩ : TupSer String) 5 ∧
    toPython (E := Unit) ⟨["int", "str", "bytes"], some 1⟩ (fun _ => .ok (some ()))
      (fun s (x : Nat) _ (ws : List Nat) => .ok ((s, x), ws)) "any" 0 true [1, 2, 3] [] =
      .ok ([("int", 1), ("str", 2), ("bytes", 3)], []) := by
  exact ⟨⟨by decide, by decide⟩, rfl⟩

end PC.SerTuple
