import Verif.Spec.Filter

namespace PC.Filter

theorem isEll_iff (f : FVal) : f.isEll = true ↔ f = .ell := by
  cases f <;> simp [FVal.isEll]

theorem kget_map {V : Type} (g : Key → Key) (es : List (Key × V)) (k : Key) :
    kget (es.map (fun e => (g e.1, e.2))) k = (es.find? (fun e => g e.1 == k)).map (·.2) := by
  induction es with
  | nil => rfl
  | cons e rest ih =>
    simp only [List.map_cons, kget, List.find?_cons]
    by_cases h : g e.1 = k
    · simp [h]
    · have : (g e.1 == k) = false := by simpa using h
      simp only [if_neg h, ih, this]

theorem kget_eq_find {V : Type} (es : List (Key × V)) (k : Key) :
    kget es k = (es.find? (fun e => e.1 == k)).map (·.2) := by
  have := kget_map id es k
  simpa using this

theorem kset_new {V : Type} (es : List (Key × V)) (k : Key) (v : V) (h : k ∉ es.map (·.1)) :
    kset es k v = es ++ [(k, v)] := by
  induction es with
  | nil => rfl
  | cons e rest ih =>
    simp only [List.map_cons, List.mem_cons, not_or] at h
    simp only [kset, if_neg (fun hh => h.1 (Eq.symm hh)), ih h.2, List.cons_append]

theorem kget_kset {V : Type} (es : List (Key × V)) (k : Key) (v : V) (q : Key) :
    kget (kset es k v) q = if k = q then some v else kget es q := by
  induction es with
  | nil => rfl
  | cons e rest ih =>
    simp only [kset]
    by_cases h : e.1 = k
    · simp only [h, if_true, kget]
      by_cases h2 : k = q
      · simp [h2]
      · simp [h2]
    · simp only [if_neg h, kget, ih]
      by_cases h2 : k = q
      · subst h2; simp [h]
      · simp [h2]

theorem mapNegativeIndex_ok (n : Nat) (k : Key) (h : InRange n k) :
    mapNegativeIndex k (some n) = .ok (resolve n k) := by
  cases k with
  | s s => rfl
  | i b =>
    simp only [InRange] at h
    simp only [mapNegativeIndex, resolve]
    by_cases hn : n = 0
    · subst hn; exfalso; omega
    · rw [if_neg hn]
      by_cases hb : b < 0
      · rw [if_pos hb]
        congr 2
        have : b.emod n = (b + n).emod n := (Int.add_emod_right b n).symm
        rw [this]
        exact Int.emod_eq_of_lt (by omega) (by omega)
      · rw [if_neg hb]
        congr 2
        exact Int.emod_eq_of_lt (by omega) (by omega)

theorem mapSetKeys_ok (n : Nat) (ks : List Key) (h : ∀ j ∈ ks, InRange n j) :
    mapSetKeys (some n) ks = .ok (ks.map (resolve n)) := by
  induction ks with
  | nil => rfl
  | cons k rest ih =>
    simp only [mapSetKeys, mapNegativeIndex_ok n k (h k (by simp)),
      ih (fun j hj => h j (List.mem_cons_of_mem _ hj)), List.map_cons]

theorem mapDictKeys_ok (n : Nat) (es : List (Key × FVal)) : ∀ (out : List (Key × FVal)),
    (∀ e ∈ es, InRange n e.1) →
    ((out.map (·.1)) ++ es.map (fun e => resolve n e.1)).Nodup →
    mapDictKeys (some n) out es = .ok (out ++ es.map (fun e => (resolve n e.1, e.2))) := by
  induction es with
  | nil => intro out _ _; simp [mapDictKeys]
  | cons e rest ih =>
    intro out hr hn
    obtain ⟨k, v⟩ := e
    simp only [mapDictKeys, mapNegativeIndex_ok n k (hr (k, v) (by simp))]
    simp only [List.map_cons] at hn
    have hk : resolve n k ∉ out.map (·.1) := by
      intro hmem
      rw [List.nodup_append] at hn
      exact hn.2.2 _ hmem _ (by simp) rfl
    rw [kset_new _ _ _ hk, ih _ (fun e he => hr e (List.mem_cons_of_mem _ he))]
    · simp
    · simpa using hn

/-- In a sequence, resolving a key in range decides what it refers to. -/
theorem refers_resolve (n i : Nat) (j : Key) (h : InRange n j) :
    refers (some n) j (.i i) = (resolve n j == .i i) := by
  cases j with
  | s s => simp [refers, resolve]
  | i b =>
    simp only [InRange] at h
    simp only [refers, resolve]
    by_cases hb : b < 0
    · rw [if_pos hb]
      have : (Key.i b == Key.i (i : Int)) = false := by simp; omega
      rw [this]
      have : (Key.i (b + n) == Key.i (i : Int)) = decide (b + n = i) := by
        by_cases h : b + n = (i : Int) <;> simp [h]
      simp [this, hb]
    · rw [if_neg hb]; simp [hb]

theorem resolve_all (n : Nat) (j : Key) : (resolve n j == Key.all) = (j == Key.all) := by
  cases j with
  | s s => rfl
  | i b =>
    simp only [resolve]
    split <;> rfl

theorem find_congr {α : Type} (p q : α → Bool) (l : List α) (h : ∀ a ∈ l, p a = q a) :
    l.find? p = l.find? q := by
  induction l with
  | nil => rfl
  | cons a rest ih =>
    simp only [List.find?_cons, h a (by simp), ih (fun b hb => h b (List.mem_cons_of_mem _ hb))]

theorem any_congr {α : Type} (p q : α → Bool) (l : List α) (h : ∀ a ∈ l, p a = q a) :
    l.any p = l.any q := by
  induction l with
  | nil => rfl
  | cons a rest ih =>
    simp only [List.any_cons, h a (by simp), ih (fun b hb => h b (List.mem_cons_of_mem _ hb))]

theorem any_or {α : Type} (p q : α → Bool) (l : List α) :
    l.any (fun a => p a || q a) = (l.any p || l.any q) := by
  induction l with
  | nil => rfl
  | cons a rest ih =>
    simp only [List.any_cons, ih]
    cases p a <;> cases q a <;> simp

theorem contains_any (l : List Key) (k : Key) : l.contains k = l.any (fun j => j == k) := by
  induction l with
  | nil => rfl
  | cons a rest ih =>
    rw [List.contains_cons, List.any_cons, ih]
    congr 1
    by_cases h : k = a
    · subst h; rfl
    · have h1 : (k == a) = false := by simpa using h
      have h2 : (a == k) = false := by simpa using Ne.symm h
      rw [h1, h2]

theorem refers_none (j k : Key) : refers Option.none j k = (j == k) := by
  simp [refers]

/-- Dict lookup with `__all__`, when nothing has to be merged. -/
theorem mergeAllValue_ok (d : List (Key × FVal)) (k : Key)
    (h : ∀ v a, kget d k = some v → kget d Key.all = some a → v.isEll = true ∨ a.isEll = true) :
    mergeAllValue d k = .ok ((kget d k).or (kget d Key.all)) := by
  unfold mergeAllValue
  cases hv : kget d k with
  | none => cases ha : kget d Key.all <;> rfl
  | some v =>
    cases ha : kget d Key.all with
    | none => rfl
    | some a =>
      dsimp only
      have : (v.isEll || a.isEll) = true := by
        rcases h v a hv ha with h | h <;> simp [h]
      rw [if_pos this]; rfl

theorem excludeStep_says (k : Key) (f r : Option FVal) (h : Says k f r) :
    excludeStep k f = .ok (if r.any FVal.isEll then Option.none else some r) := by
  cases h with
  | absent => rfl
  | null => rfl
  | set ks =>
    simp only [excludeStep]
    split <;> rfl
  | dict d r h =>
    simp only [excludeStep, h]
    cases r with
    | none => rfl
    | some v =>
      dsimp only
      simp only [Option.any_some]
      split <;> rfl

theorem includeStep_says (f : Filt) (k : Key) (ik : Int) (inc r ne : Option FVal) (h : Says k inc r)
    (hf : f = .any ∨ f = .schema Option.none Option.none) :
    includeStep f k ik inc ne
      = .ok (if given (inc.getD .none) && r.isNone then Option.none
             else some (r.bind (fun v => if v.isEll then Option.none else some v), ne)) := by
  have he : f.explicitInclude ik = false := by rcases hf with h | h <;> subst h <;> rfl
  have hd : f.defaultFilter ik = true := by rcases hf with h | h <;> subst h <;> rfl
  cases h with
  | absent => cases ne <;> simp [includeStep, hd, given]
  | null => cases ne <;> simp [includeStep, hd, given]
  | set ks =>
    simp only [includeStep, Option.getD_some, given, he]
    split <;> simp [FVal.isEll]
  | dict d r h =>
    simp only [includeStep, h, he, Option.getD_some, given]
    cases r with
    | none => simp
    | some v =>
      by_cases hv : v.isEll = true <;> simp [hv]

/-- `filter` with no schema filter. -/
theorem filter_says (f : Filt) (k : Key) (ik : Int) (inc exc ri re : Option FVal)
    (hi : Says k inc ri) (he : Says k exc re)
    (hf : f = .any ∨ f = .schema Option.none Option.none) :
    filter f k ik inc exc
      = .ok (if re.any FVal.isEll then Option.none
             else if given (inc.getD .none) && ri.isNone then Option.none
             else some (ri.bind (fun v => if v.isEll then Option.none else some v), re)) := by
  simp only [filter, excludeStep_says k exc re he]
  by_cases h : re.any FVal.isEll = true
  · simp [h]
  · simp only [h, Bool.false_eq_true, if_false]
    exact includeStep_says f k ik inc ri re hi hf

theorem find_exists {α : Type} (p : α → Bool) (l : List α) (a : α) (h : l.find? p = some a) :
    a ∈ l ∧ p a = true := ⟨List.mem_of_find?_eq_some h, List.find?_some h⟩

theorem or_map_eq {α β : Type} (o : Option α) (q : Option β) (g : α → β) :
    (o.map g).or q = match o with | some e => some (g e) | Option.none => q := by
  cases o <;> rfl

/-- A filter that fits a dict answers for a key as `entry` says. -/
theorem says_key (es : List (Key × Val)) (k : Key) (v : Val) (hk : (k, v) ∈ es) (f : Option FVal)
    (h : Fits (.dict es) (f.getD .none)) : Says k f (entry Option.none (f.getD .none) k) := by
  cases f with
  | none => exact Says.absent
  | some f =>
    simp only [Option.getD_some] at h ⊢
    cases h with
    | none => exact Says.null
    | dictSet es ks =>
      have : entry Option.none (.set ks) k
          = if ks.contains k || ks.contains Key.all then some .ell else Option.none := by
        simp only [entry, refers_none, any_or, contains_any]
      rw [this]
      exact Says.set ks
    | dictDict es fs distinct noAll noMerge below =>
      apply Says.dict
      rw [mergeAllValue_ok]
      · simp only [entry, refers_none, kget_eq_find, or_map_eq]
        cases List.find? (fun e => e.1 == k) fs <;> rfl
      · intro v a hv ha
        rw [kget_eq_find] at hv ha
        obtain ⟨e, he, rfl⟩ := Option.map_eq_some_iff.1 hv
        obtain ⟨b, hb, rfl⟩ := Option.map_eq_some_iff.1 ha
        obtain ⟨hem, hek⟩ := find_exists _ _ _ he
        obtain ⟨hbm, hbk⟩ := find_exists _ _ _ hb
        have hek : e.1 = k := by simpa using hek
        have hbk : b.1 = Key.all := by simpa using hbk
        exact noMerge e hem b hbm hbk (by rw [hek]; exact noAll (k, _) hk)

/-- The filter after `map_negative_indices`, when it fits a list. -/
theorem says_index (items : List Val) (i : Nat) (f : Option FVal)
    (h : Fits (.list items) (f.getD .none)) :
    ∃ f', mapOpt f (some items.length) = .ok f' ∧
      given (f'.getD .none) = given (f.getD .none) ∧
      Says (.i i) f' (entry (some items.length) (f.getD .none) (.i i)) := by
  cases f with
  | none => exact ⟨Option.none, rfl, rfl, Says.absent⟩
  | some f =>
    simp only [Option.getD_some] at h ⊢
    cases h with
    | none => exact ⟨some .none, rfl, rfl, Says.null⟩
    | listSet items ks range =>
      refine ⟨some (.set (ks.map (resolve items.length))), ?_, rfl, ?_⟩
      · simp only [mapOpt, mapNegativeIndices, mapSetKeys_ok _ _ range]; rfl
      · have : entry (some items.length) (.set ks) (.i i)
            = if (ks.map (resolve items.length)).contains (.i i)
                || (ks.map (resolve items.length)).contains Key.all then some .ell else Option.none := by
          simp only [entry, any_or, contains_any, List.any_map]
          rw [any_congr _ (fun j => resolve items.length j == .i i) ks
            (fun j hj => refers_resolve _ _ j (range j hj))]
          rw [any_congr (fun j => j == Key.all) (fun j => resolve items.length j == Key.all) ks
            (fun j _ => (resolve_all _ j).symm)]
          rfl
        rw [this]
        exact Says.set _
    | listDict items es range distinct noMerge below =>
      have hm : mapDictKeys (some items.length) [] es
          = .ok (es.map (fun e => (resolve items.length e.1, e.2))) := by
        rw [mapDictKeys_ok _ _ _ range (by simpa using distinct)]; rfl
      refine ⟨some (.dict (es.map (fun e => (resolve items.length e.1, e.2)))), ?_, rfl, ?_⟩
      · simp only [mapOpt, mapNegativeIndices, hm]; rfl
      · apply Says.dict
        rw [mergeAllValue_ok]
        · simp only [entry, kget_map, or_map_eq]
          rw [find_congr (fun e => refers (some items.length) e.1 (.i i))
            (fun e => resolve items.length e.1 == .i i) es
            (fun e he => refers_resolve _ _ _ (range e he))]
          rw [find_congr (fun e => resolve items.length e.1 == Key.all) (fun e => e.1 == Key.all) es
            (fun e _ => resolve_all _ _)]
          cases List.find? (fun e => resolve items.length e.1 == Key.i i) es <;> rfl
        · intro v a hv ha
          rw [kget_map] at hv ha
          obtain ⟨e, he, rfl⟩ := Option.map_eq_some_iff.1 hv
          obtain ⟨b, hb, rfl⟩ := Option.map_eq_some_iff.1 ha
          obtain ⟨hem, hek⟩ := find_exists _ _ _ he
          obtain ⟨hbm, hbk⟩ := find_exists _ _ _ hb
          have hbk : b.1 = Key.all := by
            have := resolve_all items.length b.1
            rw [hbk] at this
            simpa using this.symm
          refine noMerge e hem b hbm hbk ?_
          intro hall
          rw [hall] at hek
          have : (resolve items.length Key.all == Key.i i) = false := rfl
          rw [this] at hek
          exact absurd hek (by simp)

theorem inside_getD (r : Option FVal) (h : (r.any FVal.isEll) = false) : r.getD .none = inside r := by
  cases r with
  | none => rfl
  | some v => cases v <;> first | rfl | (exact absurd h (by decide))

theorem inside_bind (r : Option FVal) :
    (r.bind (fun v => if v.isEll then Option.none else some v)).getD .none = inside r := by
  cases r with
  | none => rfl
  | some v => cases v <;> rfl

theorem fits_inside_item (items : List Val) (i : Nat) (v : Val) (hv : items[i]? = some v) (f : FVal)
    (h : Fits (.list items) f) : Fits v (inside (entry (some items.length) f (.i i))) := by
  cases h with
  | none => exact Fits.none v
  | listSet items ks range =>
    simp only [entry]
    split <;> exact Fits.none v
  | listDict items es range distinct noMerge below =>
    cases hw : entry (some items.length) (.dict es) (.i i) with
    | none => exact Fits.none v
    | some w =>
      by_cases he : w.isEll = true
      · rw [(isEll_iff w).1 he]; exact Fits.none v
      · have he : w.isEll = false := by simpa using he
        have := below i v w hv hw he
        cases w <;> first | exact this | exact Fits.none v

theorem fits_inside_pair (es : List (Key × Val)) (k : Key) (v : Val) (hv : (k, v) ∈ es) (f : FVal)
    (h : Fits (.dict es) f) : Fits v (inside (entry Option.none f k)) := by
  cases h with
  | none => exact Fits.none v
  | dictSet es ks =>
    simp only [entry]
    split <;> exact Fits.none v
  | dictDict es fs distinct noAll noMerge below =>
    cases hw : entry Option.none (.dict fs) k with
    | none => exact Fits.none v
    | some w =>
      by_cases he : w.isEll = true
      · rw [(isEll_iff w).1 he]; exact Fits.none v
      · have he : w.isEll = false := by simpa using he
        have := below k v w hv hw he
        cases w <;> first | exact this | exact Fits.none v

theorem plain_onList (s : Ser) (h : s.plain) :
    (s.onList.1 = .any ∨ s.onList.1 = .schema Option.none Option.none) ∧ s.onList.2.plain := by
  cases s with
  | any => exact ⟨Or.inl rfl, True.intro⟩
  | list f s => exact h
  | dict f s => exact ⟨Or.inl rfl, True.intro⟩

theorem plain_onDict (s : Ser) (h : s.plain) :
    (s.onDict.1 = .any ∨ s.onDict.1 = .schema Option.none Option.none) ∧ s.onDict.2.plain := by
  cases s with
  | any => exact ⟨Or.inl rfl, True.intro⟩
  | list f s => exact ⟨Or.inl rfl, True.intro⟩
  | dict f s => exact h

theorem keyFilter_says (hash : Key → Int) (f : Filt) (k : Key) (inc exc ri re : Option FVal)
    (hi : Says k inc ri) (he : Says k exc re)
    (hf : f = .any ∨ f = .schema Option.none Option.none) :
    keyFilter hash f k inc exc
      = .ok (if re.any FVal.isEll then Option.none
             else if given (inc.getD .none) && ri.isNone then Option.none
             else some (ri.bind (fun v => if v.isEll then Option.none else some v), re)) := by
  cases f with
  | any => exact filter_says .any k 0 inc exc ri re hi he hf
  | schema a b => exact filter_says _ k (hash k) inc exc ri re hi he hf

mutual
theorem toPython_select (hash : Key → Int) (v : Val) : ∀ (s : Ser) (incl excl : Option FVal),
    s.plain → Fits v (incl.getD .none) → Fits v (excl.getD .none) →
    toPython hash s v incl excl = .ok (select v (incl.getD .none) (excl.getD .none)) := by
  cases v with
  | leaf n => intro s incl excl _ _ _; rfl
  | list items =>
    intro s incl excl hs hi he
    obtain ⟨hf, hp⟩ := plain_onList s hs
    simp only [toPython, select]
    rw [items_select hash items items 0 (by simp) s.onList.1 s.onList.2 incl excl hf hp hi he]
    rfl
  | dict es =>
    intro s incl excl hs hi he
    obtain ⟨hf, hp⟩ := plain_onDict s hs
    simp only [toPython, select]
    rw [pairs_select hash es es (fun e h => h) s.onDict.1 s.onDict.2 incl excl hf hp hi he]
    rfl
theorem items_select (hash : Key → Int) (all items : List Val) : ∀ (index : Nat)
    (_ : items = all.drop index) (f : Filt) (s : Ser) (incl excl : Option FVal),
    (f = .any ∨ f = .schema Option.none Option.none) → s.plain →
    Fits (.list all) (incl.getD .none) → Fits (.list all) (excl.getD .none) →
    itemsToPython hash f s all.length index items incl excl
      = .ok (selectItems all.length index items (incl.getD .none) (excl.getD .none)) := by
  cases items with
  | nil => intro index _ f s incl excl _ _ _ _; rfl
  | cons v rest =>
    intro index hdrop f s incl excl hf hs hi he
    have hget : all[index]? = some v := by
      have := congrArg List.head? hdrop
      rw [List.head?_cons, List.head?_drop] at this
      exact this.symm
    have hrest : rest = all.drop (index + 1) := by
      have := congrArg List.tail hdrop
      rw [List.tail_cons, List.tail_drop] at this
      exact this
    have ih := items_select hash all rest (index + 1) hrest f s incl excl hf hs hi he
    obtain ⟨i', hmi, hgi, hsi⟩ := says_index all index incl hi
    obtain ⟨e', hme, hge, hse⟩ := says_index all index excl he
    simp only [itemsToPython, selectItems, indexFilter, hmi, hme,
      filter_says f (.i index) index i' e' _ _ hsi hse hf, hgi, verdict]
    by_cases h1 : (entry (some all.length) (excl.getD .none) (.i index)).any FVal.isEll = true
    · simp only [h1, if_true]; exact ih
    · simp only [h1, Bool.false_eq_true, if_false]
      by_cases h2 : (given (incl.getD .none)
          && (entry (some all.length) (incl.getD .none) (.i index)).isNone) = true
      · simp only [h2, if_true]; exact ih
      · simp only [h2, Bool.false_eq_true, if_false]
        have h1 : (entry (some all.length) (excl.getD .none) (.i index)).any FVal.isEll = false := by
          simpa using h1
        have hv := toPython_select hash v s
          ((entry (some all.length) (incl.getD .none) (.i index)).bind
            (fun v => if v.isEll then Option.none else some v))
          (entry (some all.length) (excl.getD .none) (.i index)) hs
          (by rw [inside_bind]; exact fits_inside_item all index v hget _ hi)
          (by rw [inside_getD _ h1]; exact fits_inside_item all index v hget _ he)
        rw [inside_bind, inside_getD _ h1] at hv
        rw [hv, ih]
theorem pairs_select (hash : Key → Int) (all es : List (Key × Val)) : ∀ (_ : ∀ e ∈ es, e ∈ all)
    (f : Filt) (s : Ser) (incl excl : Option FVal),
    (f = .any ∨ f = .schema Option.none Option.none) → s.plain →
    Fits (.dict all) (incl.getD .none) → Fits (.dict all) (excl.getD .none) →
    pairsToPython hash f s es incl excl
      = .ok (selectPairs es (incl.getD .none) (excl.getD .none)) := by
  cases es with
  | nil => intro _ f s incl excl _ _ _ _; rfl
  | cons e rest =>
    obtain ⟨k, v⟩ := e
    intro hsub f s incl excl hf hs hi he
    have hmem : (k, v) ∈ all := hsub _ (by simp)
    have ih := pairs_select hash all rest (fun e h => hsub e (List.mem_cons_of_mem _ h)) f s incl excl
      hf hs hi he
    have hsi := says_key all k v hmem incl hi
    have hse := says_key all k v hmem excl he
    simp only [pairsToPython, selectPairs, keyFilter_says hash f k incl excl _ _ hsi hse hf, verdict]
    by_cases h1 : (entry Option.none (excl.getD .none) k).any FVal.isEll = true
    · simp only [h1, if_true]; exact ih
    · simp only [h1, Bool.false_eq_true, if_false]
      by_cases h2 : (given (incl.getD .none)
          && (entry Option.none (incl.getD .none) k).isNone) = true
      · simp only [h2, if_true]; exact ih
      · simp only [h2, Bool.false_eq_true, if_false]
        have h1 : (entry Option.none (excl.getD .none) k).any FVal.isEll = false := by
          simpa using h1
        have hv := toPython_select hash v s
          ((entry Option.none (incl.getD .none) k).bind
            (fun v => if v.isEll then Option.none else some v))
          (entry Option.none (excl.getD .none) k) hs
          (by rw [inside_bind]; exact fits_inside_pair all k v hmem _ hi)
          (by rw [inside_getD _ h1]; exact fits_inside_pair all k v hmem _ he)
        rw [inside_bind, inside_getD _ h1] at hv
        rw [hv, ih]
end

mutual
theorem select_none (v : Val) : select v .none .none = v := by
  cases v with
  | leaf n => rfl
  | list items => simp only [select, selectItems_none items]
  | dict es => simp only [select, selectPairs_none es]
theorem selectItems_none (items : List Val) : ∀ (len index : Nat),
    selectItems len index items .none .none = items := by
  cases items with
  | nil => intro _ _; rfl
  | cons v rest =>
    intro len index
    have : verdict (some len) (.i index) .none .none = some (.none, .none) := rfl
    simp only [selectItems, this, select_none v, selectItems_none rest]
theorem selectPairs_none (es : List (Key × Val)) : selectPairs es .none .none = es := by
  cases es with
  | nil => rfl
  | cons e rest =>
    obtain ⟨k, v⟩ := e
    have : verdict Option.none k .none .none = some (.none, .none) := rfl
    simp only [selectPairs, this, select_none v, selectPairs_none rest]
end

theorem weaker_none (g : FVal) : Weaker .none g :=
  Weaker.mk _ _ (fun _ _ h => by cases h) (fun _ _ h => by cases h) (fun _ _ _ _ h => by cases h)

/-- The verdict with more excluded: the item goes, or is kept with a filter that says at least as much. -/
theorem verdict_mono (len : Option Nat) (k : Key) (incl f g : FVal) (h : Weaker f g) :
    verdict len k incl g = Option.none ∨
      ∃ ni nf ng, verdict len k incl f = some (ni, nf) ∧ verdict len k incl g = some (ni, ng) ∧
        Weaker nf ng := by
  obtain ⟨_, _, mentioned, whole, content⟩ := h
  unfold verdict
  by_cases hg : (entry len g k).any FVal.isEll = true
  · left; rw [if_pos hg]
  · rw [if_neg hg]
    have hf : ¬ (entry len f k).any FVal.isEll = true := by
      intro hf
      apply hg
      cases hw : entry len f k with
      | none => rw [hw] at hf; exact absurd hf (by decide)
      | some w =>
        rw [hw, Option.any_some] at hf
        rw [(isEll_iff w).1 hf] at hw
        rw [whole len k hw]; rfl
    rw [if_neg hf]
    by_cases hi : (given incl && (entry len incl k).isNone) = true
    · left; rw [if_pos hi]
    · right
      rw [if_neg hi, if_neg hi]
      refine ⟨_, _, _, rfl, rfl, ?_⟩
      cases hw : entry len f k with
      | none => exact weaker_none _
      | some w =>
        have hsome := mentioned len k (by rw [hw]; rfl)
        cases hw' : entry len g k with
        | none => rw [hw'] at hsome; exact absurd hsome (by decide)
        | some w' =>
          have h1 : w.isEll = false := by simpa [hw] using hf
          have h2 : w'.isEll = false := by simpa [hw'] using hg
          have := content len k w w' hw hw' h1 h2
          have e1 : inside (some w) = w := by cases w <;> first | rfl | exact absurd h1 (by decide)
          have e2 : inside (some w') = w' := by cases w' <;> first | rfl | exact absurd h2 (by decide)
          rw [e1, e2]; exact this

mutual
theorem select_mono (v : Val) : ∀ (incl f g : FVal), Weaker f g →
    Sub (select v incl g) (select v incl f) := by
  cases v with
  | leaf n => intro _ _ _ _; exact Sub.leaf n
  | list items => intro incl f g h; exact Sub.list _ _ (selectItems_mono items _ _ incl f g h)
  | dict es => intro incl f g h; exact Sub.dict _ _ (selectPairs_mono es incl f g h)
theorem selectItems_mono (items : List Val) : ∀ (len index : Nat) (incl f g : FVal), Weaker f g →
    SubItems (selectItems len index items incl g) (selectItems len index items incl f) := by
  cases items with
  | nil => intro _ _ _ _ _ _; exact SubItems.nil
  | cons v rest =>
    intro len index incl f g h
    have ih := selectItems_mono rest len (index + 1) incl f g h
    simp only [selectItems]
    rcases verdict_mono (some len) (.i index) incl f g h with hv | ⟨ni, nf, ng, hf, hg, hw⟩
    · rw [hv]; dsimp only
      cases verdict (some len) (.i index) incl f with
      | none => exact ih
      | some p => exact SubItems.drop _ _ _ ih
    · rw [hf, hg]; dsimp only
      exact SubItems.keep _ _ _ _ (select_mono v ni nf ng hw) ih
theorem selectPairs_mono (es : List (Key × Val)) : ∀ (incl f g : FVal), Weaker f g →
    SubPairs (selectPairs es incl g) (selectPairs es incl f) := by
  cases es with
  | nil => intro _ _ _ _; exact SubPairs.nil
  | cons e rest =>
    obtain ⟨k, v⟩ := e
    intro incl f g h
    have ih := selectPairs_mono rest incl f g h
    simp only [selectPairs]
    rcases verdict_mono Option.none k incl f g h with hv | ⟨ni, nf, ng, hf, hg, hw⟩
    · rw [hv]; dsimp only
      cases verdict Option.none k incl f with
      | none => exact ih
      | some p => exact SubPairs.drop _ _ _ ih
    · rw [hf, hg]; dsimp only
      exact SubPairs.keep _ _ _ _ _ (select_mono v ni nf ng hw) ih
end

/-- What a filter says about an item is smaller than the filter. -/
theorem entry_size (len : Option Nat) (f : FVal) (k : Key) (w : FVal) (h : entry len f k = some w)
    (hw : w.isEll = false) : sizeOf w < sizeOf f := by
  cases f with
  | none => cases h
  | ell => cases h
  | other c => cases h
  | set ks =>
    simp only [entry] at h
    split at h
    · simp only [Option.some.injEq] at h; subst h; exact absurd hw (by decide)
    · cases h
  | dict es =>
    have hmem : ∃ j, (j, w) ∈ es := by
      simp only [entry] at h
      cases hf : es.find? (fun e => refers len e.1 k) with
      | some e =>
        rw [hf] at h
        simp only [Option.some.injEq] at h
        subst h
        exact ⟨e.1, List.mem_of_find?_eq_some hf⟩
      | none =>
        rw [hf] at h
        obtain ⟨e, he, rfl⟩ := Option.map_eq_some_iff.1 h
        exact ⟨e.1, List.mem_of_find?_eq_some he⟩
    obtain ⟨j, hj⟩ := hmem
    have := List.sizeOf_lt_of_mem hj
    simp only [FVal.dict.sizeOf_spec, Prod.mk.sizeOf_spec] at this ⊢
    omega

theorem weaker_refl_aux : ∀ (n : Nat) (f : FVal), sizeOf f < n → Weaker f f := by
  intro n
  induction n with
  | zero => intro f h; omega
  | succ n ih =>
    intro f hn
    refine Weaker.mk _ _ (fun _ _ h => h) (fun _ _ h => h) ?_
    intro len k w w' h h' hw _
    rw [h] at h'
    cases h'
    have := entry_size len f k w h hw
    exact ih w (by omega)

theorem weaker_refl (f : FVal) : Weaker f f := weaker_refl_aux _ f (Nat.lt_succ_self _)

/-- Adding a key to a set of keys. -/
theorem weaker_set (ks ks' : List Key) (h : ∀ k ∈ ks, k ∈ ks') : Weaker (.set ks) (.set ks') := by
  have key : ∀ (len : Option Nat) (k : Key) (w : FVal), entry len (.set ks) k = some w →
      w = .ell ∧ entry len (.set ks') k = some .ell := by
    intro len k w hw
    simp only [entry] at hw ⊢
    split at hw
    · rename_i hany
      simp only [Option.some.injEq] at hw
      refine ⟨hw.symm, ?_⟩
      rw [if_pos]
      rw [List.any_eq_true] at hany ⊢
      obtain ⟨j, hj, hr⟩ := hany
      exact ⟨j, h j hj, hr⟩
    · cases hw
  refine Weaker.mk _ _ ?_ ?_ ?_
  · intro len k hs
    cases hw : entry len (.set ks) k with
    | none => rw [hw] at hs; exact absurd hs (by decide)
    | some w => rw [(key len k w hw).2]; rfl
  · intro len k hw; exact (key len k _ hw).2
  · intro len k w w' hw _ he _
    rw [(key len k w hw).1] at he
    exact absurd he (by decide)

/-- Adding an entry to a dict without `__all__`. -/
theorem weaker_dict (es : List (Key × FVal)) (e : Key × FVal) (h : ∀ x ∈ es, x.1 ≠ Key.all) :
    Weaker (.dict es) (.dict (es ++ [e])) := by
  have key : ∀ (len : Option Nat) (k : Key) (w : FVal), entry len (.dict es) k = some w →
      entry len (.dict (es ++ [e])) k = some w := by
    intro len k w hw
    have hall : es.find? (fun e => e.1 == Key.all) = Option.none := by
      rw [List.find?_eq_none]
      intro x hx; simpa using h x hx
    simp only [entry, hall, List.find?_append] at hw ⊢
    cases hf : es.find? (fun e => refers len e.1 k) with
    | none => rw [hf] at hw; cases hw
    | some x => rw [hf] at hw; exact hw
  refine Weaker.mk _ _ ?_ ?_ ?_
  · intro len k hs
    cases hw : entry len (.dict es) k with
    | none => rw [hw] at hs; exact absurd hs (by decide)
    | some w => rw [key len k w hw]; rfl
  · intro len k hw; exact key len k _ hw
  · intro len k w w' hw hw' _ _
    rw [key len k w hw] at hw'
    cases hw'
    exact weaker_refl w

theorem mergeSet_get (ks : List Key) : ∀ (item : List (Key × FVal)) (k : Key),
    kget (mergeSet item ks) k
      = (kget item k).or (if ks.contains k then some .ell else Option.none) := by
  induction ks with
  | nil => intro item k; simp [mergeSet]
  | cons a rest ih =>
    intro item k
    simp only [mergeSet, ih, List.contains_cons]
    by_cases h : (kget item a).isSome = true
    · rw [if_pos h]
      by_cases hk : k = a
      · subst hk
        cases hv : kget item k with
        | none => rw [hv] at h; exact absurd h (by decide)
        | some v => rfl
      · have : (k == a) = false := by simpa using hk
        rw [this, Bool.false_or]
    · rw [if_neg h]
      rw [kget_kset]
      by_cases hk : a = k
      · subst hk
        have : kget item a = Option.none := by simpa using h
        simp [this]
      · have h2 : (k == a) = false := by simpa using Ne.symm hk
        rw [if_neg hk, h2, Bool.false_or]

/-- The loop of `merge_dicts` leaves alone the keys it does not go over. -/
theorem mergeLoop_other (es : List (Key × FVal)) : ∀ (item m : List (Key × FVal)) (k : Key),
    k ∉ es.map (·.1) → mergeLoop item es = .ok m → kget m k = kget item k := by
  induction es with
  | nil => intro item m k _ h; simp only [mergeLoop] at h; cases h; rfl
  | cons e rest ih =>
    obtain ⟨j, a⟩ := e
    intro item m k hk h
    simp only [List.map_cons, List.mem_cons, not_or] at hk
    have hne : ¬ j = k := fun hh => hk.1 hh.symm
    simp only [mergeLoop] at h
    cases hv : kget item j with
    | none =>
      rw [hv] at h; dsimp only at h
      rw [ih _ _ _ hk.2 h, kget_kset, if_neg hne]
    | some v =>
      rw [hv] at h; dsimp only at h
      by_cases hell : v.isEll = true
      · rw [if_pos hell] at h; exact ih _ _ _ hk.2 h
      · rw [if_neg hell] at h
        cases hd : asDict v with
        | error e => rw [hd] at h; cases h
        | ok vd =>
          rw [hd] at h; dsimp only at h
          by_cases ha : a.isEll = true
          · rw [if_pos ha] at h; exact ih _ _ _ hk.2 h
          · rw [if_neg ha] at h
            cases hm : mergeDicts vd a with
            | error e => rw [hm] at h; cases h
            | ok m' =>
              rw [hm] at h; dsimp only at h
              rw [ih _ _ _ hk.2 h, kget_kset, if_neg hne]

end PC.Filter
