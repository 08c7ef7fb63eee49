import Verif.Spec.LazyWarn

/-
C110: the warnings of generators.
-/

namespace PC.LazyWarn
open PC.Filter (FVal Filt indexFilter)
open PC.SerFunction (WarnMode)

variable {α β ε ω : Type}

/-- One call on a source whose next kept item is `k`. -/
theorem next_kept (E : Env α β ε ω) (hf : FilterFine E) :
    ∀ (xs : List α) (i : Nat) (ws : List ω),
      match kept E i xs with
      | [] => (next E (xs.map .ok) i ws).1 = ⟨.ok none, none⟩
      | k :: ks =>
        CallDoes E (register E.mode ws (warnsOf E k)) (value E k) (next E (xs.map .ok) i ws).1 ∧
        ∃ ys j, (next E (xs.map .ok) i ws).2 = ⟨ys.map .ok, j, register E.mode ws (warnsOf E k)⟩ ∧ kept E j ys = ks := by
  intro xs
  induction xs with
  | nil => intro i ws; rfl
  | cons x xs ih =>
    intro i ws
    obtain ⟨r, hr⟩ := hf i
    cases r with
    | none =>
      have h1 : kept E i (x :: xs) = kept E (i + 1) xs := by simp only [kept, hr]
      have h2 : next E ((x :: xs).map .ok) i ws = next E (xs.map .ok) (i + 1) ws := by
        simp only [List.map_cons, next, hr]
      rw [h1, h2]
      exact ih (i + 1) ws
    | some r =>
      obtain ⟨ni, ne⟩ := r
      have h1 : kept E i (x :: xs) = (x, ni, ne) :: kept E (i + 1) xs := by simp only [kept, hr]
      rw [h1]
      dsimp only
      simp only [List.map_cons, next, hr]
      have hv : E.ser x ni ne = (value E (x, ni, ne), warnsOf E (x, ni, ne)) := rfl
      rw [hv]
      generalize warnsOf E (x, ni, ne) = new
      generalize value E (x, ni, ne) = v
      cases v with
      | error e => exact ⟨.fails, xs, i + 1, rfl, rfl⟩
      | ok b =>
        dsimp only
        generalize register E.mode ws new = w
        unfold finalCheck
        cases hm : E.mode with
        | none => exact ⟨.silent (Or.inl hm), xs, i + 1, rfl, rfl⟩
        | warn =>
          cases w with
          | nil => exact ⟨.silent (Or.inr rfl), xs, i + 1, rfl, rfl⟩
          | cons a w =>
            dsimp only
            cases hr : E.raises (a :: w) with
            | none => exact ⟨.warns hm (by simp) hr, xs, i + 1, rfl, rfl⟩
            | some e => exact ⟨.warningRaises hm (by simp) hr, xs, i + 1, rfl, rfl⟩
        | error =>
          cases w with
          | nil => exact ⟨.silent (Or.inr rfl), xs, i + 1, rfl, rfl⟩
          | cons a w => exact ⟨.raises hm (by simp), xs, i + 1, rfl, rfl⟩

theorem register_append (m : WarnMode) (a b c : List ω) :
    register m (register m a b) c = register m a (b ++ c) := by
  unfold register
  split <;> simp_all

/-- The state after some calls. -/
theorem after_kept (E : Env α β ε ω) (hf : FilterFine E) (xs : List α) (ws : List ω) :
    ∀ n, n ≤ (kept E 0 xs).length → ∃ ys j,
      after E ⟨xs.map .ok, 0, ws⟩ n = ⟨ys.map .ok, j, register E.mode ws (allWarns E ((kept E 0 xs).take n))⟩ ∧
      kept E j ys = (kept E 0 xs).drop n := by
  intro n
  induction n with
  | zero =>
    intro _
    refine ⟨xs, 0, ?_, by simp⟩
    simp only [after, List.take_zero, allWarns, List.flatMap_nil, register, List.append_nil, ite_self]
  | succ n ih =>
    intro hn
    obtain ⟨ys, j, h1, h2⟩ := ih (by omega)
    have hk := next_kept E hf ys j (register E.mode ws (allWarns E ((kept E 0 xs).take n)))
    have hlt : n < (kept E 0 xs).length := by omega
    rw [h2, List.drop_eq_getElem_cons hlt] at hk
    dsimp only at hk
    obtain ⟨_, ys', j', h3, h4⟩ := hk
    refine ⟨ys', j', ?_, h4⟩
    simp only [after, step, h1]
    rw [h3, register_append]
    have e : allWarns E ((kept E 0 xs).take (n + 1)) =
        allWarns E ((kept E 0 xs).take n) ++ warnsOf E (kept E 0 xs)[n] := by
      rw [List.take_succ_eq_append_getElem hlt]
      unfold allWarns
      rw [List.flatMap_append]
      simp
    rw [e]

/-- **C110**: call number `n` of `next` serialises the `n`-th item that the filter keeps, and warns of it, of all items
before it, and of what was warned of before the iterator was made (`ws`). -/
theorem call_exact (E : Env α β ε ω) (hf : FilterFine E) (xs : List α) (ws : List ω) (n : Nat)
    (k : α × Option FVal × Option FVal) (hk : (kept E 0 xs)[n]? = some k) :
    CallDoes E (register E.mode ws (allWarns E ((kept E 0 xs).take (n + 1)))) (value E k)
      (call E ⟨xs.map .ok, 0, ws⟩ n) := by
  obtain ⟨hlt, hke⟩ := List.getElem?_eq_some_iff.1 hk
  obtain ⟨ys, j, h1, h2⟩ := after_kept E hf xs ws n (by omega)
  have h := next_kept E hf ys j (register E.mode ws (allWarns E ((kept E 0 xs).take n)))
  rw [h2, List.drop_eq_getElem_cons hlt, hke] at h
  dsimp only at h
  have h := h.1
  rw [register_append] at h
  have e : allWarns E ((kept E 0 xs).take (n + 1)) = allWarns E ((kept E 0 xs).take n) ++ warnsOf E k := by
    rw [List.take_succ_eq_append_getElem hlt, hke]
    simp [allWarns]
  rw [e]
  unfold call step
  rw [h1]
  exact h

/-- **C110**: after the items the iteration stops, silently. -/
theorem call_stops (E : Env α β ε ω) (hf : FilterFine E) (xs : List α) (ws : List ω) :
    call E ⟨xs.map .ok, 0, ws⟩ (kept E 0 xs).length = ⟨.ok none, none⟩ := by
  obtain ⟨ys, j, h1, h2⟩ := after_kept E hf xs ws _ (Nat.le_refl _)
  have h := next_kept E hf ys j (register E.mode ws (allWarns E ((kept E 0 xs).take (kept E 0 xs).length)))
  rw [h2, List.drop_length] at h
  unfold call step
  rw [h1]
  exact h

/-- **C110**: with `warnings='error'`, once an item was warned of no later call returns an item. -/
theorem error_mode_never_recovers (E : Env α β ε ω) (hf : FilterFine E) (hm : E.mode = .error) (xs : List α)
    (ws : List ω) (m n : Nat) (hmn : m ≤ n) (k k' : α × Option FVal × Option FVal)
    (hk : (kept E 0 xs)[m]? = some k) (hw : warnsOf E k ≠ []) (hk' : (kept E 0 xs)[n]? = some k') :
    ∃ e, (call E ⟨xs.map .ok, 0, ws⟩ n).result = .error e := by
  have h := call_exact E hf xs ws n k' hk'
  have hne : register E.mode ws (allWarns E ((kept E 0 xs).take (n + 1))) ≠ [] := by
    unfold register
    rw [hm, if_neg (by decide)]
    intro hnil
    have h2 := (List.append_eq_nil_iff.1 hnil).2
    unfold allWarns at h2
    rw [List.flatMap_eq_nil_iff] at h2
    refine hw (h2 k ?_)
    obtain ⟨hlt, hke⟩ := List.getElem?_eq_some_iff.1 hk
    rw [← hke]
    exact List.mem_take_iff_getElem.2 ⟨m, by omega, by simp⟩
  generalize register E.mode ws (allWarns E ((kept E 0 xs).take (n + 1))) = w at h hne
  generalize value E k' = v at h
  generalize call E ⟨xs.map .ok, 0, ws⟩ n = o at h
  cases h with
  | fails => exact ⟨_, rfl⟩
  | silent h =>
    rcases h with h | h
    · rw [hm] at h; cases h
    · exact absurd h hne
  | warns h => rw [hm] at h; cases h
  | warningRaises h => rw [hm] at h; cases h
  | raises => exact ⟨_, rfl⟩

/-- **C110**: with `warnings='warn'`, what an item warns of is issued again with every later item. -/
theorem warnings_repeat (E : Env α β ε ω) (hf : FilterFine E) (hm : E.mode = .warn) (xs : List α)
    (ws : List ω) (m n : Nat) (hmn : m ≤ n) (k k' : α × Option FVal × Option FVal) (b : β)
    (hk : (kept E 0 xs)[m]? = some k) (hk' : (kept E 0 xs)[n]? = some k') (hv : value E k' = .ok b)
    (w : ω) (hw : w ∈ ws ∨ w ∈ warnsOf E k) :
    ∃ l, (call E ⟨xs.map .ok, 0, ws⟩ n).issued = some l ∧ w ∈ l := by
  have h := call_exact E hf xs ws n k' hk'
  rw [hv] at h
  have hmem : w ∈ register E.mode ws (allWarns E ((kept E 0 xs).take (n + 1))) := by
    unfold register
    rw [hm, if_neg (by decide)]
    rcases hw with hw | hw
    · exact List.mem_append_left _ hw
    · refine List.mem_append_right _ (List.mem_flatMap.2 ⟨k, ?_, hw⟩)
      obtain ⟨hlt, hke⟩ := List.getElem?_eq_some_iff.1 hk
      rw [← hke]
      exact List.mem_take_iff_getElem.2 ⟨m, by omega, by simp⟩
  generalize register E.mode ws (allWarns E ((kept E 0 xs).take (n + 1))) = l at h hmem
  generalize call E ⟨xs.map .ok, 0, ws⟩ n = o at h
  cases h with
  | silent h =>
    rcases h with h | h
    · rw [hm] at h; cases h
    · subst h; cases hmem
  | warns => exact ⟨_, rfl, hmem⟩
  | warningRaises => exact ⟨_, rfl, hmem⟩
  | raises h => rw [hm] at h; cases h

/-- **C110**: without warnings before and by the items, lazy serialisation is silent in every mode. -/
theorem silent_without_warnings (E : Env α β ε ω) (hf : FilterFine E) (xs : List α)
    (h0 : ∀ k ∈ kept E 0 xs, warnsOf E k = []) (n : Nat) (k : α × Option FVal × Option FVal)
    (hk : (kept E 0 xs)[n]? = some k) :
    (call E ⟨xs.map .ok, 0, []⟩ n).issued = none ∧
    ∀ b, value E k = .ok b → (call E ⟨xs.map .ok, 0, []⟩ n).result = .ok (some b) := by
  have h := call_exact E hf xs [] n k hk
  have e : register E.mode [] (allWarns E ((kept E 0 xs).take (n + 1))) = [] := by
    have : allWarns E ((kept E 0 xs).take (n + 1)) = [] := by
      unfold allWarns
      rw [List.flatMap_eq_nil_iff]
      intro k hk
      exact h0 k (List.mem_of_mem_take hk)
    rw [this]
    unfold register
    simp
  rw [e] at h
  generalize hv : value E k = v at h
  generalize call E ⟨xs.map .ok, 0, []⟩ n = o at h
  cases h with
  | fails => exact ⟨rfl, nofun⟩
  | silent => exact ⟨rfl, fun b h => by injection h with h; rw [h]⟩
  | warns _ h => exact absurd rfl h
  | warningRaises _ h => exact absurd rfl h
  | raises _ h => exact absurd rfl h

theorem jsonLoop_exact (E : Env α β ε ω) (hf : FilterFine E) : ∀ (xs : List α) (i : Nat) (ws : List ω) (acc bs : List β),
    (kept E i xs).map (value E) = bs.map .ok →
    jsonLoop E (xs.map .ok) i ws acc = (.ok (acc ++ bs), register E.mode ws (allWarns E (kept E i xs))) := by
  intro xs
  induction xs with
  | nil =>
    intro i ws acc bs h
    cases bs with
    | nil => simp [jsonLoop, kept, allWarns, register]
    | cons b bs => simp [kept] at h
  | cons x xs ih =>
    intro i ws acc bs h
    obtain ⟨r, hr⟩ := hf i
    cases r with
    | none =>
      have h1 : kept E i (x :: xs) = kept E (i + 1) xs := by simp only [kept, hr]
      rw [h1] at h ⊢
      simp only [List.map_cons, jsonLoop, hr]
      exact ih _ _ _ _ h
    | some r =>
      obtain ⟨ni, ne⟩ := r
      have h1 : kept E i (x :: xs) = (x, ni, ne) :: kept E (i + 1) xs := by simp only [kept, hr]
      rw [h1] at h ⊢
      cases bs with
      | nil => simp at h
      | cons b bs =>
        simp only [List.map_cons, List.cons.injEq] at h
        simp only [List.map_cons, jsonLoop, hr]
        have hv : E.ser x ni ne = (.ok b, warnsOf E (x, ni, ne)) := Prod.ext h.1 rfl
        rw [hv]
        dsimp only
        rw [ih _ _ _ _ h.2, register_append]
        simp [allWarns]

/-- **C110**: JSON mode warns once, of all items together; that is what the last call of lazy serialisation warns of. -/
theorem json_warns_once (E : Env α β ε ω) (hf : FilterFine E) (hm : E.mode = .warn) (xs : List α) (bs : List β)
    (hb : (kept E 0 xs).map (value E) = bs.map .ok) (hw : allWarns E (kept E 0 xs) ≠ [])
    (hr : E.raises (allWarns E (kept E 0 xs)) = none) :
    toJson E (xs.map .ok) = (.ok bs, some (allWarns E (kept E 0 xs))) ∧
    (call E ⟨xs.map .ok, 0, []⟩ ((kept E 0 xs).length - 1)).issued = some (allWarns E (kept E 0 xs)) := by
  have reg : ∀ l : List ω, register E.mode [] l = l := by
    intro l; unfold register; rw [hm, if_neg (by decide)]; rfl
  constructor
  · unfold toJson
    rw [jsonLoop_exact E hf xs 0 [] [] bs hb, reg]
    dsimp only
    unfold finalCheck
    rw [hm]
    generalize allWarns E (kept E 0 xs) = l at *
    cases l with
    | nil => exact absurd rfl hw
    | cons a l => dsimp only; rw [hr]; rfl
  · have hlen : kept E 0 xs ≠ [] := by
      intro h; rw [h] at hw; exact hw rfl
    have hpos : 0 < (kept E 0 xs).length := List.length_pos_iff.2 hlen
    have hlast : (kept E 0 xs)[(kept E 0 xs).length - 1]? = some ((kept E 0 xs)[(kept E 0 xs).length - 1]'(by omega)) :=
      List.getElem?_eq_getElem (by omega)
    have h := call_exact E hf xs [] _ _ hlast
    have e : (kept E 0 xs).length - 1 + 1 = (kept E 0 xs).length := by omega
    rw [e, List.take_length, reg] at h
    have hmem := List.getElem_mem (l := kept E 0 xs) (n := (kept E 0 xs).length - 1) (by omega)
    have hv : ∃ b, value E ((kept E 0 xs)[(kept E 0 xs).length - 1]'(by omega)) = .ok b := by
      have := List.mem_map_of_mem (f := value E) hmem
      rw [hb] at this
      obtain ⟨b, _, hb⟩ := List.mem_map.1 this
      exact ⟨b, hb.symm⟩
    obtain ⟨b, hv⟩ := hv
    rw [hv] at h
    generalize allWarns E (kept E 0 xs) = l at *
    generalize call E ⟨xs.map .ok, 0, []⟩ ((kept E 0 xs).length - 1) = o at *
    cases h with
    | silent h =>
      rcases h with h | h
      · rw [hm] at h; cases h
      · exact absurd h hw
    | warns => rfl
    | warningRaises => rfl
    | raises h => rw [hm] at h; cases h

/-! ### Witnesses -/

/-- Numbers, of which odd ones are not of the type expected. -/
def odd (m : WarnMode) : Env Nat Nat String Nat :=
  ⟨m, fun _ => none, .any, none, none, fun x _ _ => (.ok x, if x % 2 = 1 then [x] else [])⟩

theorem odd_fine (m : WarnMode) : FilterFine (odd m) := fun _ => ⟨some (none, none), rfl⟩

/-- False in full: of `[1, 2]` with `warnings='error'` neither item is ever returned, although nothing is wrong with the
second; with `'warn'` there are two warnings, both of the first item. -/
theorem second_item_lost :
    call (odd .error) ⟨[.ok 1, .ok 2], 0, []⟩ 1 = ⟨.error (.serError [1]), none⟩ ∧
    (call (odd .warn) ⟨[.ok 1, .ok 2], 0, []⟩ 0).issued = some [1] ∧
    (call (odd .warn) ⟨[.ok 1, .ok 2], 0, []⟩ 1).issued = some [1] ∧
    ¬ WarnsOfItsOwn (odd .error) [1, 2] := by
  refine ⟨rfl, rfl, rfl, ?_⟩
  intro h
  have h1 := h 1 (2, none, none) 2 rfl rfl
  have e : call (odd .error) ⟨[1, 2].map .ok, 0, []⟩ 1 = ⟨.error (.serError [1]), none⟩ := rfl
  rw [e] at h1
  cases h1

/-- Hypotheses met: `[1, 2, 3]`, excluding nothing. -/
example : toJson (odd .warn) ([1, 2, 3].map .ok) = (.ok [1, 2, 3], some [1, 3]) ∧
    (call (odd .warn) ⟨[1, 2, 3].map .ok, 0, []⟩ 2).issued = some [1, 3] :=
  json_warns_once (odd .warn) (odd_fine _) rfl [1, 2, 3] [1, 2, 3] rfl (by decide) rfl

end PC.LazyWarn
