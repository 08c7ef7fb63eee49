/-
C37 (`include` and `exclude` select exactly), C38 (indices in filters), C39 (excluding more never brings
an item back).
-/
import Verif.Lemmas.Filter

namespace PC.Filter

/-! ### C37 -/

/-- C37. Serialising lists and dicts, nested to any depth, leaves exactly what `select` says: an item goes
when `exclude` names it, it goes when there is an `include` that does not mention it, and otherwise it
stays, with the nested parts of the filters applied to it.

Missing for the full claim: filters that do not fit the value (indices out of range: see
`index_out_of_range`; an item's own nested filter together with one from `__all__`: see
`merge_entry`; objects that are neither set nor dict), serialisers with filters in their schema (see
`schema_filter_exact`, `include_overrides_schema_exclude`), models. -/
theorem select_exact_partial (hash : Key → Int) (s : Ser) (v : Val) (incl excl : Option FVal)
    (hs : s.plain) (hi : Fits v (incl.getD .none)) (he : Fits v (excl.getD .none)) :
    toPython hash s v incl excl = .ok (select v (incl.getD .none) (excl.getD .none)) :=
  toPython_select hash v s incl excl hs hi he

/-- Excluding `{-1: {'a'}}` from `[1, {'a': 2, 'b': 3}]`. -/
example : ∃ (v : Val) (excl : FVal), Fits v excl ∧
    select v .none excl = .list [.leaf 1, .dict [(.s "b", .leaf 3)]] := by
  refine ⟨.list [.leaf 1, .dict [(.s "a", .leaf 2), (.s "b", .leaf 3)]],
    .dict [(.i (-1), .set [.s "a"])], ?_, by rfl⟩
  refine Fits.listDict _ _ ?_ ?_ ?_ ?_
  · intro e he
    simp only [List.mem_singleton] at he
    subst he
    exact ⟨by decide, by decide⟩
  · decide
  · intro e he a ha h1
    simp only [List.mem_singleton] at ha
    subst ha
    exact absurd h1 (by decide)
  · intro i v w hv hw _
    match i with
    | 0 => simp only [List.getElem?_cons_zero, Option.some.injEq] at hv; subst hv; exact Fits.leaf _ _
    | 1 =>
      simp only [List.getElem?_cons_succ, List.getElem?_cons_zero, Option.some.injEq] at hv
      have : entry (some 2) (.dict [(.i (-1), .set [.s "a"])]) (.i (1 : Nat)) = some (.set [.s "a"]) := rfl
      rw [show ([Val.leaf 1, Val.dict [(.s "a", .leaf 2), (.s "b", .leaf 3)]] : List Val).length = 2 from rfl,
        this] at hw
      cases hw
      subst hv
      exact Fits.dictSet _ _
    | n + 2 => simp at hv

/-- C37. With neither `include` nor `exclude` (or with `None`) nothing is dropped, whatever the nesting. -/
theorem no_filter_keeps_everything (hash : Key → Int) (s : Ser) (v : Val) (hs : s.plain)
    (incl excl : Option FVal) (hi : incl = Option.none ∨ incl = some .none)
    (he : excl = Option.none ∨ excl = some .none) : toPython hash s v incl excl = .ok v := by
  have h1 : incl.getD .none = .none := by rcases hi with h | h <;> subst h <;> rfl
  have h2 : excl.getD .none = .none := by rcases he with h | h <;> subst h <;> rfl
  rw [toPython_select hash v s incl excl hs (by rw [h1]; exact Fits.none v)
    (by rw [h2]; exact Fits.none v), h1, h2, select_none]

example : toPython (fun _ => 0) (.list .any .any) (.list [.leaf 1, .dict [(.s "a", .leaf 2)]])
    (some .none) Option.none = .ok (.list [.leaf 1, .dict [(.s "a", .leaf 2)]]) := by rfl

/-- C37. `exclude` beats `include`: an item named by the exclude set is left out, whatever `include`
and the filters of the schema say. -/
theorem exclude_beats_include (f : Filt) (k : Key) (ik : Int) (incl : Option FVal) (ks : List Key)
    (h : k ∈ ks ∨ Key.all ∈ ks) : filter f k ik incl (some (.set ks)) = .ok Option.none := by
  have : (ks.contains k || ks.contains Key.all) = true := by
    rcases h with h | h <;> simp [h]
  simp only [filter, excludeStep, this, if_true]

example : filter (.schema (some [1]) Option.none) (.i 1) 1 (some (.set [.i 1])) (some (.set [.i 1]))
    = .ok Option.none := exclude_beats_include _ _ _ _ _ (Or.inl (by decide))

/-- C37. The same for an exclude dict that has `...` for the item. -/
theorem exclude_dict_beats_include (f : Filt) (k : Key) (ik : Int) (incl : Option FVal)
    (d : List (Key × FVal)) (h : kget d k = some .ell) :
    filter f k ik incl (some (.dict d)) = .ok Option.none := by
  have : mergeAllValue d k = .ok (some .ell) := by
    simp only [mergeAllValue, h]
    cases kget d Key.all <;> rfl
  simp only [filter, excludeStep, this]
  rfl

example : filter .any (.s "a") 0 (some (.set [.s "a"])) (some (.dict [(.s "a", .ell), (.s "b", .none)]))
    = .ok Option.none := exclude_dict_beats_include _ _ _ _ _ (by rfl)

/-- C37. Without call-time filters, the filters of the schema keep an item exactly when it is not in the
schema's exclude set and the schema has no include set or has the item in it. Nothing is passed on to
the nested value. -/
theorem schema_filter_exact (incl excl : Option (List Int)) (k : Key) (ik : Int) :
    (filter (.schema incl excl) k ik Option.none Option.none
        = .ok (some (Option.none, Option.none)) ∧
      ((∀ l, excl = some l → ik ∉ l) ∧ ∀ l, incl = some l → ik ∈ l)) ∨
    (filter (.schema incl excl) k ik Option.none Option.none = .ok Option.none ∧
      ¬ ((∀ l, excl = some l → ik ∉ l) ∧ ∀ l, incl = some l → ik ∈ l)) := by
  have key : (Filt.schema incl excl).defaultFilter ik = true ↔
      ((∀ l, excl = some l → ik ∉ l) ∧ ∀ l, incl = some l → ik ∈ l) := by
    cases incl <;> cases excl <;> simp [Filt.defaultFilter, and_comm]
  by_cases h : (Filt.schema incl excl).defaultFilter ik = true
  · left
    refine ⟨?_, key.1 h⟩
    simp [filter, excludeStep, includeStep, h]
  · right
    refine ⟨?_, fun hh => h (key.2 hh)⟩
    simp [filter, excludeStep, includeStep, h]

example : filter (.schema (some [0, 1]) (some [1])) (.i 0) 0 Option.none Option.none
    = .ok (some (Option.none, Option.none)) ∧
    filter (.schema (some [0, 1]) (some [1])) (.i 1) 1 Option.none Option.none = .ok Option.none := ⟨by rfl, by rfl⟩

/-- C37. The decision with all four filters, for a key `k`, where `ri` and `re` are what the call's
`include` and `exclude` say about `k`: named in `exclude` it goes; mentioned in `include` it stays;
with an `include` that does not mention it, it goes unless the schema's include set has it; then a
nested `exclude` keeps it, and otherwise the schema decides. -/
theorem filter_decision (f : Filt) (k : Key) (ik : Int) (inc exc ri re : Option FVal)
    (hi : Says k inc ri) (he : Says k exc re) :
    filter f k ik inc exc = .ok
      (if re.any FVal.isEll then Option.none
       else if ri.isSome then some (ri.bind (fun v => if v.isEll then Option.none else some v), re)
       else if given (inc.getD .none) && !f.explicitInclude ik then Option.none
       else if re.isSome || f.defaultFilter ik then some (Option.none, re) else Option.none) := by
  simp only [filter, excludeStep_says k exc re he]
  by_cases h : re.any FVal.isEll = true
  · simp [h]
  · simp only [h, Bool.false_eq_true, if_false]
    have hrest : (if re.isSome then .ok (some (Option.none, re))
        else if f.defaultFilter ik then .ok (some (Option.none, Option.none)) else .ok Option.none
          : Except Err Next)
        = .ok (if re.isSome || f.defaultFilter ik then some (Option.none, re) else Option.none) := by
      cases re with
      | none => by_cases hd : f.defaultFilter ik = true <;> simp [hd]
      | some v => rfl
    cases hi with
    | absent => simp only [includeStep, hrest]; simp [given]
    | null => simp only [includeStep, hrest]; simp [given]
    | set ks =>
      simp only [includeStep, hrest]
      by_cases hc : (ks.contains k || ks.contains Key.all) = true
      · simp only [hc, if_true, Option.isSome_some]; rfl
      · simp only [hc, Bool.false_eq_true, if_false, Option.isSome_none, Option.getD_some, given]
        by_cases hx : f.explicitInclude ik = true <;> simp [hx]
    | dict d r h =>
      simp only [includeStep, hrest, h]
      cases ri with
      | none =>
        simp only [Option.isSome_none, Bool.false_eq_true, if_false, Option.getD_some, given]
        by_cases hx : f.explicitInclude ik = true <;> simp [hx]
      | some v => by_cases hv : v.isEll = true <;> simp [hv]

example : Says (.i 1) (some (.set [.i 1])) (some .ell) ∧ Says (.i 1) Option.none Option.none ∧
    filter (.schema (some [0]) Option.none) (.i 1) 1 (some (.set [.i 1])) Option.none
      = .ok (some (Option.none, Option.none)) := ⟨Says.set _, Says.absent, by rfl⟩

/-- C37 fails for serialisers with their own filters: an item that the schema excludes is serialised when
the call's `include` mentions it. -/
theorem include_overrides_schema_exclude :
    toPython (fun _ => 0) (.list (.schema Option.none (some [0])) .any) (.list [.leaf 1, .leaf 2])
      Option.none Option.none = .ok (.list [.leaf 2]) ∧
    toPython (fun _ => 0) (.list (.schema Option.none (some [0])) .any) (.list [.leaf 1, .leaf 2])
      (some (.set [.i 0])) Option.none = .ok (.list [.leaf 1]) := ⟨by rfl, by rfl⟩

/-- C37. An item with a nested filter of its own (`item`) and one from `__all__` (`fs`) gets both, key by
key: a key that only one has is taken from it, where the item's own says `...` it stays `...`,
where only `__all__` says `...` the item's own nested filter stays, and two nested filters are merged
the same way. -/
theorem merge_entry (item fs m : List (Key × FVal)) (hnodup : (fs.map (·.1)).Nodup)
    (h : mergeDicts item (.dict fs) = .ok m) (k : Key) :
    (kget fs k = Option.none → kget m k = kget item k) ∧
    (kget item k = Option.none → kget m k = kget fs k) ∧
    (∀ v a, kget item k = some v → kget fs k = some a → v.isEll = true ∨ a.isEll = true →
      kget m k = some v) ∧
    (∀ v a, kget item k = some v → kget fs k = some a → v.isEll = false → a.isEll = false →
      ∃ vd m', asDict v = .ok vd ∧ mergeDicts vd a = .ok m' ∧ kget m k = some (.dict m')) := by
  simp only [mergeDicts] at h
  induction fs generalizing item with
  | nil =>
    simp only [mergeLoop] at h
    cases h
    exact ⟨fun _ => rfl, (fun h => by rw [h]; rfl), (fun _ _ _ h => by cases h), (fun _ _ _ h => by cases h)⟩
  | cons e rest ih =>
    obtain ⟨j, a⟩ := e
    simp only [List.map_cons, List.nodup_cons] at hnodup
    by_cases hjk : j = k
    · subst hjk
      have hfs : kget ((j, a) :: rest) j = some a := by simp [kget]
      rw [hfs]
      refine ⟨(fun h => by cases h), ?_, ?_, ?_⟩
      · intro hn
        simp only [mergeLoop, hn] at h
        rw [mergeLoop_other _ _ _ _ hnodup.1 h, kget_kset, if_pos rfl]
      · intro v a' hv ha hor
        cases ha
        simp only [mergeLoop, hv] at h
        by_cases hell : v.isEll = true
        · rw [if_pos hell] at h; rw [mergeLoop_other _ _ _ _ hnodup.1 h, hv]
        · have ha : a.isEll = true := by rcases hor with h | h; exact absurd h hell; exact h
          rw [if_neg hell] at h
          cases hd : asDict v with
          | error e => rw [hd] at h; cases h
          | ok vd =>
            rw [hd] at h; dsimp only at h
            rw [if_pos ha] at h
            rw [mergeLoop_other _ _ _ _ hnodup.1 h, hv]
      · intro v a' hv ha hve hae
        cases ha
        simp only [mergeLoop, hv, hve, hae, Bool.false_eq_true, if_false] at h
        cases hd : asDict v with
        | error e => rw [hd] at h; cases h
        | ok vd =>
          rw [hd] at h; dsimp only at h
          cases hm : mergeDicts vd a with
          | error e => rw [hm] at h; cases h
          | ok m' =>
            rw [hm] at h; dsimp only at h
            exact ⟨vd, m', rfl, hm, by rw [mergeLoop_other _ _ _ _ hnodup.1 h, kget_kset, if_pos rfl]⟩
    · have hfs : kget ((j, a) :: rest) k = kget rest k := by simp [kget, hjk]
      rw [hfs]
      have step : ∃ item', kget item' k = kget item k ∧ mergeLoop item' rest = .ok m := by
        simp only [mergeLoop] at h
        cases hv : kget item j with
        | none =>
          rw [hv] at h; dsimp only at h
          exact ⟨_, by rw [kget_kset, if_neg hjk], h⟩
        | some v =>
          rw [hv] at h; dsimp only at h
          by_cases hell : v.isEll = true
          · rw [if_pos hell] at h; exact ⟨_, rfl, h⟩
          · rw [if_neg hell] at h
            cases hd : asDict v with
            | error e => rw [hd] at h; cases h
            | ok vd =>
              rw [hd] at h; dsimp only at h
              by_cases ha : a.isEll = true
              · rw [if_pos ha] at h; exact ⟨_, rfl, h⟩
              · rw [if_neg ha] at h
                cases hm : mergeDicts vd a with
                | error e => rw [hm] at h; cases h
                | ok m' =>
                  rw [hm] at h; dsimp only at h
                  exact ⟨_, by rw [kget_kset, if_neg hjk], h⟩
      obtain ⟨item', hk, hm⟩ := step
      have := ih item' hnodup.2 hm
      rwa [hk] at this

/-- C37. When the filter of `__all__` is a set, its keys are added as `...` unless the item's own filter
has them. -/
theorem merge_set_entry (item : List (Key × FVal)) (ks : List Key) :
    ∃ m, mergeDicts item (.set ks) = .ok m ∧
      ∀ k, kget m k = (kget item k).or (if ks.contains k then some .ell else Option.none) :=
  ⟨_, by simp only [mergeDicts], mergeSet_get ks item⟩

example : ∃ m, mergeDicts [(.s "a", .set [.s "x"])] (.set [.s "a", .s "b"]) = .ok m ∧
    kget m (.s "b") = some .ell := ⟨_, by rfl, by rfl⟩

/-- C37. When the item's own filter is a set, it counts as `...` for each of its keys. -/
theorem set_as_dict (ks : List Key) :
    ∃ d, asDict (.set ks) = .ok d ∧
      ∀ k, kget d k = if ks.contains k then some .ell else Option.none := by
  refine ⟨_, rfl, ?_⟩
  intro k
  have key : ∀ (ks : List Key) (d : List (Key × FVal)),
      kget (ks.foldl (fun d k => kset d k .ell) d) k
        = if ks.contains k then some .ell else kget d k := by
    intro ks
    induction ks with
    | nil => intro d; rfl
    | cons a rest ih =>
      intro d
      rw [List.foldl_cons, ih, kget_kset, List.contains_cons]
      by_cases h : a = k
      · subst h; simp
      · have : (k == a) = false := by simpa using Ne.symm h
        rw [this, Bool.false_or, if_neg h]
  exact key ks []

example : ∃ d, asDict (.set [.s "a"]) = .ok d ∧ kget d (.s "a") = some .ell := ⟨_, by rfl, by rfl⟩

/-- `{0: {'a': {'x'}}, '__all__': {'a': {'y'}, 'b': ...}}` applied to item 0. -/
example : mergeDicts [(.s "a", .set [.s "x"])] (.dict [(.s "a", .set [.s "y"]), (.s "b", .ell)])
    = .ok [(.s "a", .dict [(.s "x", .ell), (.s "y", .ell)]), (.s "b", .ell)] := by rfl

/-! ### C38 -/

/-- C38. In a sequence of `n` items, a filter key within the range `-n ≤ j < n` refers to exactly one
item: `j` itself if it is not negative, `n + j` if it is.

Missing for the full claim: keys out of range, which should refer to no item (see
`index_out_of_range`). -/
theorem index_refers_partial (f : Filt) (n i : Nat) (j : Int)
    (hj : -(n : Int) ≤ j) (hj' : j < n) :
    (indexFilter f i Option.none (some (.set [.i j])) (some n) = .ok Option.none ∧
        (0 ≤ j ∧ j = i ∨ j < 0 ∧ n + j = i)) ∨
    (indexFilter f i Option.none (some (.set [.i j])) (some n)
        = indexFilter f i Option.none Option.none (some n) ∧
      ¬ (0 ≤ j ∧ j = i ∨ j < 0 ∧ n + j = i)) := by
  have hr : InRange n (.i j) := ⟨hj, hj'⟩
  have hm : mapSetKeys (some n) [.i j] = .ok [resolve n (.i j)] :=
    mapSetKeys_ok n [.i j] (by intro k hk; simp only [List.mem_singleton] at hk; subst hk; exact hr)
  by_cases h : (0 ≤ j ∧ j = i ∨ j < 0 ∧ n + j = i)
  · left
    refine ⟨?_, h⟩
    have : resolve n (.i j) = .i i := by
      simp only [resolve]
      rcases h with ⟨h1, h2⟩ | ⟨h1, h2⟩
      · rw [if_neg (by omega), h2]
      · rw [if_pos h1]; congr 1; omega
    simp [indexFilter, mapOpt, mapNegativeIndices, hm, Except.map, this, filter, excludeStep]
  · right
    refine ⟨?_, h⟩
    have : resolve n (.i j) ≠ .i i := by
      simp only [resolve]
      intro hh
      apply h
      by_cases hneg : j < 0
      · rw [if_pos hneg] at hh
        have := Key.i.inj hh
        right; exact ⟨hneg, by omega⟩
      · rw [if_neg hneg] at hh
        have := Key.i.inj hh
        left; exact ⟨by omega, this⟩
    have hall : resolve n (.i j) ≠ Key.all := by
      simp only [resolve]; split <;> simp [Key.all]
    simp [indexFilter, mapOpt, mapNegativeIndices, hm, Except.map, filter, excludeStep,
      Ne.symm this, Ne.symm hall]

example : indexFilter .any 2 Option.none (some (.set [.i (-1)])) (some 3) = .ok Option.none ∧
    indexFilter .any 1 Option.none (some (.set [.i (-1)])) (some 3)
      = .ok (some (Option.none, Option.none)) := ⟨by rfl, by rfl⟩

/-- C38, the same for an `include` set: exactly that item is kept. -/
theorem index_includes_partial (n i : Nat) (j : Int)
    (hj : -(n : Int) ≤ j) (hj' : j < n) :
    (indexFilter .any i (some (.set [.i j])) Option.none (some n)
        = .ok (some (Option.none, Option.none)) ∧ (0 ≤ j ∧ j = i ∨ j < 0 ∧ n + j = i)) ∨
    (indexFilter .any i (some (.set [.i j])) Option.none (some n) = .ok Option.none ∧
      ¬ (0 ≤ j ∧ j = i ∨ j < 0 ∧ n + j = i)) := by
  have hr : InRange n (.i j) := ⟨hj, hj'⟩
  have hm : mapSetKeys (some n) [.i j] = .ok [resolve n (.i j)] :=
    mapSetKeys_ok n [.i j] (by intro k hk; simp only [List.mem_singleton] at hk; subst hk; exact hr)
  have hall : resolve n (.i j) ≠ Key.all := by
    simp only [resolve]; split <;> simp [Key.all]
  have key : resolve n (.i j) = .i i ↔ (0 ≤ j ∧ j = i ∨ j < 0 ∧ n + j = i) := by
    simp only [resolve]
    by_cases hneg : j < 0
    · rw [if_pos hneg, Key.i.injEq]; omega
    · rw [if_neg hneg, Key.i.injEq]; omega
  by_cases h : resolve n (.i j) = .i i
  · left
    refine ⟨?_, key.1 h⟩
    simp [indexFilter, mapOpt, mapNegativeIndices, hm, Except.map, h, filter, excludeStep, includeStep]
  · right
    refine ⟨?_, fun hh => h (key.2 hh)⟩
    simp [indexFilter, mapOpt, mapNegativeIndices, hm, Except.map, filter, excludeStep, includeStep,
      Ne.symm h, Ne.symm hall, Filt.explicitInclude]

example : indexFilter .any 0 (some (.set [.i (-3)])) Option.none (some 3)
    = .ok (some (Option.none, Option.none)) := by rfl

/-- C38. What a key does in general: an excluded key `j` removes the item at `j` modulo the length. -/
theorem index_modulo (n i : Nat) (j : Int) (hn : 0 < n) :
    indexFilter .any i Option.none (some (.set [.i j])) (some n) = .ok Option.none ↔ (i : Int) = j % n := by
  have hm : mapSetKeys (some n) [.i j] = .ok [.i (j % n)] := by
    simp only [mapSetKeys, mapNegativeIndex, if_neg (Nat.pos_iff_ne_zero.1 hn)]; rfl
  have hall : Key.all ≠ .i (j % n) := by simp [Key.all]
  by_cases h : (i : Int) = j % n
  · simp [indexFilter, mapOpt, mapNegativeIndices, hm, Except.map, filter, excludeStep, h]
  · simp [indexFilter, mapOpt, mapNegativeIndices, hm, Except.map, filter, excludeStep, h, hall,
      includeStep, Filt.defaultFilter]

example : indexFilter .any 1 Option.none (some (.set [.i (-5)])) (some 3) = .ok Option.none :=
  (index_modulo 3 1 (-5) (by decide)).2 (by decide)

/-- C38 fails out of range: `exclude={5}` removes the last item of a three-item list, and `exclude={-4}`
does too. -/
theorem index_out_of_range :
    toPython (fun _ => 0) .any (.list [.leaf 1, .leaf 2, .leaf 3]) Option.none (some (.set [.i 5]))
      = .ok (.list [.leaf 1, .leaf 2]) ∧
    toPython (fun _ => 0) .any (.list [.leaf 1, .leaf 2, .leaf 3]) Option.none (some (.set [.i (-4)]))
      = .ok (.list [.leaf 1, .leaf 2]) := ⟨by rfl, by rfl⟩

/-- C38. For an iterator, whose length is not known, a negative index is an error rather than a guess. -/
theorem index_unsized_negative (f : Filt) (i : Nat) (j : Int) (excl : List Key) (hj : j < 0)
    (h : .i j ∈ excl) : indexFilter f i Option.none (some (.set excl)) Option.none = .error .value := by
  have key : ∀ ks : List Key, .i j ∈ ks → mapSetKeys Option.none ks = .error .value := by
    intro ks
    induction ks with
    | nil => intro h; cases h
    | cons k rest ih =>
      intro h
      simp only [mapSetKeys]
      cases k with
      | s t =>
        have h : .i j ∈ rest := by
          rcases List.mem_cons.1 h with h | h
          · cases h
          · exact h
        simp only [mapNegativeIndex, ih h]
      | i b =>
        by_cases hb : b < 0
        · simp only [mapNegativeIndex, if_pos hb]
        · have h : .i j ∈ rest := by
            rcases List.mem_cons.1 h with h | h
            · cases h; exact absurd hj hb
            · exact h
          simp only [mapNegativeIndex, if_neg hb, ih h]
  simp [indexFilter, mapOpt, mapNegativeIndices, key excl h, Except.map]

example : indexFilter .any 0 Option.none (some (.set [.i 4, .i (-1)])) Option.none = .error .value :=
  index_unsized_negative _ _ (-1) _ (by decide) (by decide)

/-! ### C39 -/

/-- C39. Excluding more never brings anything back: with an `exclude` that says at least as much, what
is serialised is what was serialised before, less some items.

Missing for the full claim: as for `select_exact_partial`; and an entry added for an item that
`__all__` names as a whole does bring the item back (see `exclude_entry_brings_back`), as does a nested
exclude for an item that the schema excludes (see `nested_exclude_overrides_schema`). -/
theorem exclude_monotone_partial (hash : Key → Int) (s : Ser) (v : Val) (incl : Option FVal)
    (f g : FVal) (hs : s.plain) (hi : Fits v (incl.getD .none)) (hf : Fits v f) (hg : Fits v g)
    (hw : Weaker f g) :
    ∃ a b, toPython hash s v incl (some f) = .ok a ∧ toPython hash s v incl (some g) = .ok b ∧ Sub b a :=
  ⟨_, _, toPython_select hash v s incl (some f) hs hi hf, toPython_select hash v s incl (some g) hs hi hg,
    select_mono v _ f g hw⟩

/-- C39. Growing the schema's own exclude set never brings an item back, whatever the call's filters. -/
theorem schema_exclude_monotone (incl : Option (List Int)) (exc exc' : List Int)
    (h : ∀ x ∈ exc, x ∈ exc') (k : Key) (ik : Int) (ci ce : Option FVal)
    (hnone : filter (.schema incl (some exc)) k ik ci ce = .ok Option.none) :
    filter (.schema incl (some exc')) k ik ci ce = .ok Option.none := by
  have hd : (Filt.schema incl (some exc)).defaultFilter ik = false →
      (Filt.schema incl (some exc')).defaultFilter ik = false := by
    cases incl with
    | none => simpa [Filt.defaultFilter] using h ik
    | some l =>
      simp only [Filt.defaultFilter, Bool.and_eq_false_iff, Bool.not_eq_false', List.contains_iff_mem]
      rintro (hl | hl)
      · exact Or.inl hl
      · exact Or.inr (h ik hl)
  have he : (Filt.schema incl (some exc')).explicitInclude ik
      = (Filt.schema incl (some exc)).explicitInclude ik := by cases incl <;> rfl
  revert hnone
  unfold filter
  cases excludeStep k ce with
  | error e => intro h; cases h
  | ok o =>
    cases o with
    | none => intro _; rfl
    | some ne =>
      dsimp only
      have hrest : (if ne.isSome then .ok (some (Option.none, ne))
          else if (Filt.schema incl (some exc)).defaultFilter ik then
            .ok (some (Option.none, Option.none)) else .ok Option.none : Except Err Next) = .ok Option.none →
          (if ne.isSome then .ok (some (Option.none, ne))
          else if (Filt.schema incl (some exc')).defaultFilter ik then
            .ok (some (Option.none, Option.none)) else .ok Option.none : Except Err Next) = .ok Option.none := by
        cases hn : ne.isSome with
        | true => simp
        | false =>
          simp only [Bool.false_eq_true, if_false]
          intro hh
          have : (Filt.schema incl (some exc)).defaultFilter ik = false := by
            cases hb : (Filt.schema incl (some exc)).defaultFilter ik with
            | false => rfl
            | true => rw [hb] at hh; simp at hh
          rw [hd this]; rfl
      have habs : (if !(Filt.schema incl (some exc)).explicitInclude ik then .ok Option.none
          else (if ne.isSome then .ok (some (Option.none, ne))
          else if (Filt.schema incl (some exc)).defaultFilter ik then
            .ok (some (Option.none, Option.none)) else .ok Option.none) : Except Err Next) = .ok Option.none →
          (if !(Filt.schema incl (some exc')).explicitInclude ik then .ok Option.none
          else (if ne.isSome then .ok (some (Option.none, ne))
          else if (Filt.schema incl (some exc')).defaultFilter ik then
            .ok (some (Option.none, Option.none)) else .ok Option.none) : Except Err Next) = .ok Option.none := by
        rw [he]
        split
        · exact id
        · exact hrest
      unfold includeStep
      cases ci with
      | none => exact hrest
      | some ci =>
        cases ci with
        | none => exact hrest
        | ell => exact id
        | dict d =>
          dsimp only
          cases mergeAllValue d k with
          | error e => exact id
          | ok o => cases o with
            | none => exact habs
            | some v => exact id
        | set ks =>
          dsimp only
          split
          · exact id
          · exact habs
        | other c =>
          dsimp only
          cases checkContains c k with
          | error e => exact id
          | ok o => cases o with
            | none => exact id
            | some b => cases b with
              | true => exact id
              | false => exact habs

example : filter (.schema Option.none (some [1])) (.i 1) 1 Option.none Option.none = .ok Option.none ∧
    (∀ x ∈ [(1 : Int)], x ∈ [(0 : Int), 1]) := ⟨by rfl, by decide⟩

/-- C39. Adding keys to an exclude set is such a strengthening. -/
theorem exclude_set_grows (ks ks' : List Key) (h : ∀ k ∈ ks, k ∈ ks') :
    Weaker (.set ks) (.set ks') := weaker_set ks ks' h

/-- C39. So is adding an entry, of whatever kind, to an exclude dict that has no `__all__` entry. -/
theorem exclude_dict_grows (es : List (Key × FVal)) (e : Key × FVal) (h : ∀ x ∈ es, x.1 ≠ Key.all) :
    Weaker (.dict es) (.dict (es ++ [e])) := weaker_dict es e h

example : Fits (.list [.leaf 1, .leaf 2]) (.set [.i 0]) ∧ Fits (.list [.leaf 1, .leaf 2]) (.set [.i 0, .i (-1)]) ∧
    Weaker (.set [.i 0]) (.set [.i 0, .i (-1)]) ∧
    toPython (fun _ => 0) .any (.list [.leaf 1, .leaf 2]) Option.none (some (.set [.i 0]))
      = .ok (.list [.leaf 2]) ∧
    toPython (fun _ => 0) .any (.list [.leaf 1, .leaf 2]) Option.none (some (.set [.i 0, .i (-1)]))
      = .ok (.list []) := by
  refine ⟨Fits.listSet _ _ ?_, Fits.listSet _ _ ?_, weaker_set _ _ (by decide), by rfl, by rfl⟩
  · intro j hj
    simp only [List.mem_singleton] at hj
    subst hj; exact ⟨by decide, by decide⟩
  · intro j hj
    simp only [List.mem_cons, List.not_mem_nil, or_false] at hj
    rcases hj with rfl | rfl <;> exact ⟨by decide, by decide⟩

example : Weaker (.dict [(.s "a", .ell)]) (.dict [(.s "a", .ell), (.s "b", .set [.s "c"])]) :=
  exclude_dict_grows [(.s "a", .ell)] _ (by decide)

/-- C39 fails with `__all__`: everything is excluded, and adding an entry for item 0 brings it back. -/
theorem exclude_entry_brings_back :
    toPython (fun _ => 0) .any (.list [.dict [(.s "a", .leaf 1), (.s "b", .leaf 2)]]) Option.none
      (some (.dict [(Key.all, .ell)])) = .ok (.list []) ∧
    toPython (fun _ => 0) .any (.list [.dict [(.s "a", .leaf 1), (.s "b", .leaf 2)]]) Option.none
      (some (.dict [(Key.all, .ell), (.i 0, .set [.s "a"])]))
      = .ok (.list [.dict [(.s "b", .leaf 2)]]) := ⟨by rfl, by rfl⟩

/-- C39 fails with schema filters: item 0 is excluded by the schema, and excluding a part of it at call
time brings the rest of it back. -/
theorem nested_exclude_overrides_schema :
    toPython (fun _ => 0) (.list (.schema Option.none (some [0])) .any)
      (.list [.dict [(.s "a", .leaf 1), (.s "b", .leaf 2)]]) Option.none Option.none = .ok (.list []) ∧
    toPython (fun _ => 0) (.list (.schema Option.none (some [0])) .any)
      (.list [.dict [(.s "a", .leaf 1), (.s "b", .leaf 2)]]) Option.none
      (some (.dict [(.i 0, .set [.s "a"])]))
      = .ok (.list [.dict [(.s "b", .leaf 2)]]) := ⟨by rfl, by rfl⟩

/-- C39 fails with indices: adding a key that means the same item as an earlier one replaces what was
said about it (`{1: ...}` and then `{1: ..., -1: {'a'}}` on a two-item list). -/
theorem exclude_index_twice :
    toPython (fun _ => 0) .any (.list [.leaf 0, .dict [(.s "a", .leaf 1), (.s "b", .leaf 2)]]) Option.none
      (some (.dict [(.i 1, .ell)])) = .ok (.list [.leaf 0]) ∧
    toPython (fun _ => 0) .any (.list [.leaf 0, .dict [(.s "a", .leaf 1), (.s "b", .leaf 2)]]) Option.none
      (some (.dict [(.i 1, .ell), (.i (-1), .set [.s "a"])]))
      = .ok (.list [.leaf 0, .dict [(.s "b", .leaf 2)]]) := ⟨by rfl, by rfl⟩

end PC.Filter
