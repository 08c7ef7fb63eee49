import Verif.Spec.Lookup

namespace PC.Lookup
variable {α : Type}

/-- The paths a key tries, in order. -/
def LookupKey.tried : LookupKey → List LookupPath
  | .simple p => [p]
  | .choice p1 p2 => [p1, p2]
  | .pathChoices ps => ps

/-- Simple keys and choices have paths of one item only (the `debug_assert`s of the code). -/
def LookupKey.Flat : LookupKey → Prop
  | .simple p => p.rest = []
  | .choice p1 p2 => p1.rest = [] ∧ p2.rest = []
  | .pathChoices _ => True

theorem dict_eq_choices (ops : PyOps α) (get : String → Except PyErr (Option α)) (key : LookupKey)
    (h : key.Flat) : key.pyGetDictItem ops get = dictChoices ops get key.tried := by
  cases key with
  | simple p =>
    simp only [LookupKey.Flat] at h
    simp only [LookupKey.pyGetDictItem, LookupKey.tried, dictChoices, h, foldItems]
    cases get p.first with
    | error e => rfl
    | ok o => cases o <;> rfl
  | choice p1 p2 =>
    simp only [LookupKey.Flat] at h
    simp only [LookupKey.pyGetDictItem, LookupKey.tried, dictChoices, h.1, h.2, foldItems]
    cases get p1.first with
    | error e => rfl
    | ok o =>
      cases o with
      | some v => rfl
      | none =>
        cases get p2.first with
        | error e => rfl
        | ok o => cases o <;> rfl
  | pathChoices ps => rfl

theorem mapping_eq_choices (ops : PyOps α) (get : String → Option α) (key : LookupKey)
    (h : key.Flat) : key.pyGetMappingItem ops get = mappingChoices ops get key.tried := by
  cases key with
  | simple p =>
    simp only [LookupKey.Flat] at h
    simp only [LookupKey.pyGetMappingItem, LookupKey.tried, mappingChoices, h, foldItems]
    cases get p.first <;> rfl
  | choice p1 p2 =>
    simp only [LookupKey.Flat] at h
    simp only [LookupKey.pyGetMappingItem, LookupKey.tried, mappingChoices, h.1, h.2, foldItems]
    cases get p1.first <;> cases get p2.first <;> rfl
  | pathChoices ps => rfl

theorem json_eq_choices (entries : List (String × Json)) (key : LookupKey) (h : key.Flat) :
    key.jsonGet entries = jsonChoices entries key.tried := by
  cases key with
  | simple p =>
    simp only [LookupKey.Flat] at h
    simp only [LookupKey.jsonGet, LookupKey.tried, jsonChoices, h, foldJson]
    cases findLast p.first entries <;> rfl
  | choice p1 p2 =>
    simp only [LookupKey.Flat] at h
    simp only [LookupKey.jsonGet, LookupKey.tried, jsonChoices, h.1, h.2, foldJson]
    cases findLast p1.first entries <;> cases findLast p2.first entries <;> rfl
  | pathChoices ps => rfl

theorem attr_eq_choices (ops : PyOps α) (obj : α) (hobj : ops.isDict obj = false) (key : LookupKey)
    (h : key.Flat) : key.simplePyGetAttr ops obj = attrChoices ops obj key.tried := by
  cases key with
  | simple p =>
    simp only [LookupKey.Flat] at h
    simp only [LookupKey.simplePyGetAttr, LookupKey.tried, attrChoices, h, attrRest, strGetAttrs,
      hobj, Bool.false_eq_true, if_false]
    cases ops.getAttr obj p.first with
    | error e => rfl
    | ok o => cases o <;> rfl
  | choice p1 p2 =>
    simp only [LookupKey.Flat] at h
    simp only [LookupKey.simplePyGetAttr, LookupKey.tried, attrChoices, h.1, h.2, attrRest,
      strGetAttrs, hobj, Bool.false_eq_true, if_false]
    cases ops.getAttr obj p1.first with
    | error e => rfl
    | ok o =>
      cases o with
      | some v => rfl
      | none =>
        cases ops.getAttr obj p2.first with
        | error e => rfl
        | ok o => cases o <;> rfl
  | pathChoices ps => rfl

/-! ### Building keys -/

theorem ofPy_toPy {item : Item} {p : PathItem} (h : PathItem.ofPy item = some p) :
    p.toPy = item := by
  cases item with
  | s k =>
    simp only [PathItem.ofPy, Option.some.injEq] at h
    subst h; rfl
  | i n =>
    simp only [PathItem.ofPy] at h
    split at h
    · rename_i hn
      cases h
      simp only [PathItem.toPy, Item.i.injEq]
      omega
    · split at h
      · rename_i hn hm
        cases h
        simp only [PathItem.toPy, Item.i.injEq]
        omega
      · cases h

/-- Negative items built from the schema are really negative. -/
def PathItem.Proper : PathItem → Prop
  | .neg n => 0 < n
  | _ => True

theorem ofPy_proper {item : Item} {p : PathItem} (h : PathItem.ofPy item = some p) : p.Proper := by
  cases item with
  | s k =>
    simp only [PathItem.ofPy, Option.some.injEq] at h
    subst h; trivial
  | i n =>
    simp only [PathItem.ofPy] at h
    split at h
    · cases h; trivial
    · split at h
      · rename_i hn hm
        cases h
        simp only [PathItem.Proper]
        omega
      · cases h

/-- Pairwise relation of two lists. -/
inductive All₂ {β γ : Type} (R : β → γ → Prop) : List β → List γ → Prop where
  | nil : All₂ R [] []
  | cons {a b l r} (h : R a b) (hs : All₂ R l r) : All₂ R (a :: l) (b :: r)

theorem mapM_option {β γ : Type} {f : β → Option γ} : ∀ {l : List β} {r : List γ},
    l.mapM f = some r → All₂ (fun a b => f a = some b) l r
  | [], r, h => by
    simp only [List.mapM_nil] at h
    cases h; exact .nil
  | a :: l, r, h => by
    rw [List.mapM_cons] at h
    cases hf : f a with
    | none => rw [hf] at h; cases h
    | some b =>
      rw [hf] at h
      simp only [Option.bind_eq_bind, Option.bind_some] at h
      cases hl : l.mapM f with
      | none => rw [hl] at h; cases h
      | some bs =>
        rw [hl] at h
        simp only [Option.bind_some] at h
        cases h
        exact .cons hf (mapM_option hl)

theorem forall₂_map {β γ δ : Type} {f : β → Option γ} {g : γ → δ} {k : β → δ}
    (hg : ∀ a b, f a = some b → g b = k a) {l : List β} {r : List γ}
    (h : All₂ (fun a b => f a = some b) l r) : r.map g = l.map k := by
  induction h with
  | nil => rfl
  | cons hab _ ih => simp only [List.map_cons, hg _ _ hab, ih]

theorem forall₂_all {β γ : Type} {f : β → Option γ} {P : γ → Prop}
    (hP : ∀ a b, f a = some b → P b) {l : List β} {r : List γ}
    (h : All₂ (fun a b => f a = some b) l r) : ∀ b ∈ r, P b := by
  induction h with
  | nil => intro b hb; cases hb
  | cons hab _ ih =>
    intro b hb
    rcases List.mem_cons.1 hb with rfl | hb
    · exact hP _ _ hab
    · exact ih b hb

theorem ofList_spec {items : List Item} {p : LookupPath} (h : LookupPath.ofList items = some p) :
    p.items = items ∧ ∀ q ∈ p.rest, q.Proper := by
  cases items with
  | nil => simp [LookupPath.ofList] at h
  | cons a rest =>
    cases a with
    | i n => simp [LookupPath.ofList] at h
    | s k =>
      simp only [LookupPath.ofList, Option.map_eq_some_iff] at h
      obtain ⟨r, hr, rfl⟩ := h
      have hf := mapM_option hr
      refine ⟨?_, forall₂_all (fun a b hab => ofPy_proper hab) hf⟩
      simp only [LookupPath.items]
      rw [forall₂_map (k := id) (fun a b hab => ofPy_toPy hab) hf, List.map_id]

theorem ofList_proper_first {items : List Item} {p : LookupPath}
    (h : LookupPath.ofList items = some p) : ∃ k rest, items = .s k :: rest := by
  cases items with
  | nil => simp [LookupPath.ofList] at h
  | cons a rest =>
    cases a with
    | i n => simp [LookupPath.ofList] at h
    | s k => exact ⟨k, rest, rfl⟩

/-- What `from_py` builds: a flat key trying the declared paths, then the alternative name. -/
theorem ofPy_spec {a : Alias} {alt : Option String} {key : LookupKey}
    (h : LookupKey.ofPy a alt = some key) :
    key.Flat ∧ key.tried.map LookupPath.items = a.declared ++ (alt.map fun n => [Item.s n]).toList ∧
      (∀ p ∈ key.tried, ∀ q ∈ p.rest, q.Proper) ∧ key.tried ≠ [] := by
  cases a with
  | name a =>
    cases alt with
    | none =>
      simp only [LookupKey.ofPy, Option.some.injEq] at h
      subst h
      simp [LookupKey.Flat, LookupKey.tried, LookupPath.ofStr, LookupPath.items, Alias.declared]
    | some n =>
      simp only [LookupKey.ofPy, Option.some.injEq] at h
      subst h
      simp [LookupKey.Flat, LookupKey.tried, LookupPath.ofStr, LookupPath.items, Alias.declared]
  | path items =>
    simp only [LookupKey.ofPy, Option.map_eq_some_iff] at h
    obtain ⟨p, hp, rfl⟩ := h
    obtain ⟨h1, h2⟩ := ofList_spec hp
    refine ⟨trivial, ?_, ?_, by simp [LookupKey.tried]⟩
    · cases alt <;> simp [LookupKey.tried, Alias.declared, LookupPath.items, LookupPath.ofStr]
      all_goals exact h1
    · intro q hq r hr
      simp only [LookupKey.tried] at hq
      rcases List.mem_append.1 hq with hq | hq
      · rw [List.mem_singleton] at hq; subst hq; exact h2 r hr
      · cases alt with
        | none => simp at hq
        | some n => simp at hq; subst hq; simp [LookupPath.ofStr] at hr
  | paths ps =>
    cases ps with
    | nil => simp [LookupKey.ofPy] at h
    | cons p0 ps =>
      simp only [LookupKey.ofPy, Option.map_eq_some_iff] at h
      obtain ⟨qs, hqs, rfl⟩ := h
      have hf := mapM_option hqs
      refine ⟨trivial, ?_, ?_, ?_⟩
      · simp only [LookupKey.tried, List.map_append, Alias.declared]
        rw [forall₂_map (k := id) (fun a b hab => (ofList_spec hab).1) hf, List.map_id]
        cases alt <;> simp [LookupPath.items, LookupPath.ofStr]
      · intro q hq r hr
        simp only [LookupKey.tried] at hq
        rcases List.mem_append.1 hq with hq | hq
        · exact forall₂_all (P := fun p => ∀ r ∈ p.rest, r.Proper)
            (fun a b hab => (ofList_spec hab).2) hf q hq r hr
        · cases alt with
          | none => simp at hq
          | some n => simp at hq; subst hq; simp [LookupPath.ofStr] at hr
      · cases hf; simp [LookupKey.tried]

/-- What a selected key tries. -/
theorem select_spec {alias? : Option Alias} {name : String} {c : KeyCollection}
    {byAlias byName : Bool} {key : LookupKey} (hc : KeyCollection.new alias? name = some c)
    (hs : c.select byAlias byName = .ok key) :
    key.Flat ∧ key.tried.map LookupPath.items = searched alias? name byAlias byName ∧
      (∀ p ∈ key.tried, ∀ q ∈ p.rest, q.Proper) ∧ key.tried ≠ [] := by
  have hsimple : ∀ k : LookupKey, k = .simple (.ofStr name) →
      k.Flat ∧ k.tried.map LookupPath.items = [[.s name]] ∧
        (∀ p ∈ k.tried, ∀ q ∈ p.rest, q.Proper) ∧ k.tried ≠ [] := by
    rintro k rfl
    simp [LookupKey.Flat, LookupKey.tried, LookupPath.ofStr, LookupPath.items]
  cases alias? with
  | none =>
    simp only [KeyCollection.new, Option.some.injEq] at hc
    subst hc
    have hk : key = .simple (.ofStr name) := by
      cases byAlias <;> cases byName <;> simp [KeyCollection.select] at hs <;> exact hs.symm
    simpa [searched] using hsimple key hk
  | some a =>
    simp only [KeyCollection.new, Option.bind_eq_some_iff, Option.map_eq_some_iff] at hc
    obtain ⟨ba, hba, bn, hbn, rfl⟩ := hc
    cases byAlias with
    | true =>
      cases byName with
      | true =>
        simp [KeyCollection.select] at hs
        subst hs
        simpa [searched] using ofPy_spec hbn
      | false =>
        simp [KeyCollection.select] at hs
        subst hs
        simpa [searched] using ofPy_spec hba
    | false =>
      cases byName with
      | true =>
        simp [KeyCollection.select] at hs
        simpa [searched] using hsimple key hs.symm
      | false => simp [KeyCollection.select] at hs

/-! ### Following paths -/

theorem foldItems_iff (ops : PyOps α) : ∀ (rest : List PathItem) (v w : α),
    foldItems ops rest v = some w ↔ Follows ops v (rest.map PathItem.toPy) w
  | [], v, w => by
    simp only [foldItems, Option.some.injEq, List.map_nil]
    constructor
    · rintro rfl; exact .nil v
    · intro h; cases h; rfl
  | item :: rest, v, w => by
    simp only [foldItems, PathItem.pyGetItem, List.map_cons]
    constructor
    · intro h
      split at h
      · rename_i v' hv'
        split at hv'
        · cases hv'
        · rename_i hs
          exact .cons (by simpa using hs) hv' ((foldItems_iff ops rest v' w).1 h)
      · cases h
    · intro h
      cases h with
      | cons hs hg hr =>
        rw [hs, hg]
        simp only [Bool.false_eq_true, if_false]
        exact (foldItems_iff ops rest _ w).2 hr

/-- Outcome of the loop over the paths of a dict lookup. -/
theorem dictChoices_spec (ops : PyOps α) (get : String → Except PyErr (Option α))
    (hget : ∀ k e, get k ≠ .error e) : ∀ (ps : List LookupPath),
    ∃ r, dictChoices ops get ps = .ok r ∧
      IsFirst (Resolves ops get) (ps.map LookupPath.items) (r.map fun x => (x.1.items, x.2)) ∧
      ∀ x, r = some x → x.1 ∈ ps
  | [] => ⟨none, rfl, by simp [IsFirst], by simp⟩
  | p :: ps => by
    obtain ⟨r, hr, hfirst, hmem⟩ := dictChoices_spec ops get hget ps
    have hskip : (∀ w, ¬ Resolves ops get p.items w) → ∃ r, dictChoices ops get ps = .ok r ∧
        IsFirst (Resolves ops get) ((p :: ps).map LookupPath.items)
          (r.map fun x => (x.1.items, x.2)) ∧ ∀ x, r = some x → x.1 ∈ p :: ps := by
      intro hno
      refine ⟨r, hr, ?_, fun x hx => List.mem_cons_of_mem _ (hmem x hx)⟩
      cases r with
      | none =>
        simp only [Option.map_none, IsFirst, List.map_cons] at hfirst ⊢
        intro q hq
        rcases List.mem_cons.1 hq with rfl | hq
        · exact hno
        · exact hfirst q hq
      | some x =>
        simp only [Option.map_some, IsFirst, List.map_cons] at hfirst ⊢
        obtain ⟨pre, post, h1, h2, h3⟩ := hfirst
        refine ⟨p.items :: pre, post, by simp [h1], h2, ?_⟩
        intro q hq
        rcases List.mem_cons.1 hq with rfl | hq
        · exact hno
        · exact h3 q hq
    simp only [dictChoices]
    cases hg : get p.first with
    | error e => exact absurd hg (hget _ _)
    | ok o =>
      cases o with
      | none =>
        apply hskip
        rintro w ⟨k, rest, v, hk, hv, -⟩
        simp only [LookupPath.items, List.cons.injEq, Item.s.injEq] at hk
        rw [← hk.1, hg] at hv
        cases hv
      | some v =>
        dsimp only
        cases hf : foldItems ops p.rest v with
        | none =>
          apply hskip
          rintro w ⟨k, rest, v', hk, hv, hw⟩
          simp only [LookupPath.items, List.cons.injEq, Item.s.injEq] at hk
          rw [← hk.1, hg] at hv
          cases hv
          rw [← hk.2, ← foldItems_iff, hf] at hw
          cases hw
        | some w =>
          dsimp only
          refine ⟨some (p, w), rfl, ?_, by intro x hx; cases hx; exact List.mem_cons_self ..⟩
          simp only [Option.map_some, IsFirst, List.map_cons]
          exact ⟨[], ps.map LookupPath.items, rfl,
            ⟨p.first, _, v, rfl, hg, (foldItems_iff ops _ _ _).1 hf⟩, by simp⟩

theorem mapping_eq_dict (ops : PyOps α) (get : String → Option α) : ∀ ps : List LookupPath,
    dictChoices ops (fun k => .ok (get k)) ps = .ok (mappingChoices ops get ps)
  | [] => rfl
  | p :: ps => by
    simp only [dictChoices, mappingChoices]
    cases get p.first with
    | none => exact mapping_eq_dict ops get ps
    | some v =>
      dsimp only
      cases foldItems ops p.rest v with
      | none => exact mapping_eq_dict ops get ps
      | some w => rfl

/-! ### Attributes -/

theorem pyGetAttrs_eq (ops : PyOps α) (item : PathItem) (v : α) :
    item.pyGetAttrs ops v = attrStep ops v item.toPy := by
  cases item <;> rfl

theorem attrRest_iff (ops : PyOps α) : ∀ (rest : List PathItem) (v w : α),
    attrRest ops rest v = .ok (some w) ↔ AttrFollows ops v (rest.map PathItem.toPy) w
  | [], v, w => by
    simp only [attrRest, List.map_nil]
    constructor
    · intro h; cases h; exact .nil v
    · intro h; cases h; rfl
  | item :: rest, v, w => by
    simp only [attrRest, List.map_cons, pyGetAttrs_eq]
    constructor
    · intro h
      split at h
      · rename_i v' hv'
        exact .cons hv' ((attrRest_iff ops rest v' w).1 h)
      · cases h
      · cases h
    · intro h
      cases h with
      | cons hg hr =>
        rw [hg]
        exact (attrRest_iff ops rest _ w).2 hr

theorem attrRest_no_error (ops : PyOps α) (hops : ∀ v k e, ops.getAttr v k ≠ .error e) :
    ∀ (rest : List PathItem) (v : α) (e : PyErr), attrRest ops rest v ≠ .error e
  | [], _, _ => by intro h; cases h
  | item :: rest, v, e => by
    simp only [attrRest, pyGetAttrs_eq]
    intro h
    split at h
    · exact attrRest_no_error ops hops rest _ e h
    · cases h
    · rename_i e' he
      unfold attrStep at he
      split at he
      · split at he
        · cases he
        · exact hops _ _ _ he
      · cases he

theorem strGetAttrs_eq (ops : PyOps α) (k : String) (v : α) :
    strGetAttrs ops k v = attrStep ops v (.s k) := rfl

theorem attrChoices_spec (ops : PyOps α) (hops : ∀ v k e, ops.getAttr v k ≠ .error e) (obj : α) :
    ∀ (ps : List LookupPath), ∃ r, attrChoices ops obj ps = .ok r ∧
      IsFirst (fun path w => AttrFollows ops obj path w) (ps.map LookupPath.items)
        (r.map fun x => (x.1.items, x.2)) ∧ ∀ x, r = some x → x.1 ∈ ps
  | [] => ⟨none, rfl, by simp [IsFirst], by simp⟩
  | p :: ps => by
    obtain ⟨r, hr, hfirst, hmem⟩ := attrChoices_spec ops hops obj ps
    have hskip : (∀ w, ¬ AttrFollows ops obj p.items w) → ∃ r, attrChoices ops obj ps = .ok r ∧
        IsFirst (fun path w => AttrFollows ops obj path w) ((p :: ps).map LookupPath.items)
          (r.map fun x => (x.1.items, x.2)) ∧ ∀ x, r = some x → x.1 ∈ p :: ps := by
      intro hno
      refine ⟨r, hr, ?_, fun x hx => List.mem_cons_of_mem _ (hmem x hx)⟩
      cases r with
      | none =>
        simp only [Option.map_none, IsFirst, List.map_cons] at hfirst ⊢
        intro q hq
        rcases List.mem_cons.1 hq with rfl | hq
        · exact hno
        · exact hfirst q hq
      | some x =>
        simp only [Option.map_some, IsFirst, List.map_cons] at hfirst ⊢
        obtain ⟨pre, post, h1, h2, h3⟩ := hfirst
        refine ⟨p.items :: pre, post, by simp [h1], h2, ?_⟩
        intro q hq
        rcases List.mem_cons.1 hq with rfl | hq
        · exact hno
        · exact h3 q hq
    simp only [attrChoices, strGetAttrs_eq]
    cases hg : attrStep ops obj (.s p.first) with
    | error e =>
      unfold attrStep at hg
      dsimp only at hg
      split at hg
      · cases hg
      · exact absurd hg (hops _ _ _)
    | ok o =>
      cases o with
      | none =>
        apply hskip
        intro w hw
        cases hw with
        | cons hg' _ => rw [hg] at hg'; cases hg'
      | some v =>
        dsimp only
        cases hf : attrRest ops p.rest v with
        | error e => exact absurd hf (attrRest_no_error ops hops _ _ _)
        | ok o =>
          cases o with
          | none =>
            apply hskip
            intro w hw
            cases hw with
            | cons hg' hr' =>
              rw [hg] at hg'
              cases hg'
              rw [← attrRest_iff, hf] at hr'
              cases hr'
          | some w =>
            dsimp only
            refine ⟨some (p, w), rfl, ?_, by intro x hx; cases hx; exact List.mem_cons_self ..⟩
            simp only [Option.map_some, IsFirst, List.map_cons]
            exact ⟨[], ps.map LookupPath.items, rfl,
              .cons hg ((attrRest_iff ops _ _ _).1 hf), by simp⟩

/-! ### JSON -/

theorem getEntry_setEntry (k k' : Item) (v : Py) : ∀ d : List (Item × Py),
    getEntry k (setEntry k' v d) = if k' = k then some v else getEntry k d
  | [] => by simp only [setEntry, getEntry]
  | (k0, v0) :: rest => by
    simp only [setEntry]
    by_cases h0 : k0 = k'
    · subst h0
      simp only [if_true, getEntry]
      by_cases h : k0 = k
      · simp [h]
      · simp [h]
    · simp only [if_neg h0, getEntry, getEntry_setEntry k k' v rest]
      by_cases h : k0 = k
      · subst h
        simp [Ne.symm h0]
      · simp [h]

theorem findLast_cons (key : String) (k : String) (v : Json) (rest : List (String × Json)) :
    findLast key ((k, v) :: rest) =
      (findLast key rest).or (if k = key then some v else none) := by
  simp only [findLast, List.reverse_cons, List.findSome?_append, List.findSome?_cons,
    List.findSome?_nil]
  congr 1
  by_cases h : k = key <;> simp [h]

theorem getEntry_toPy (key : String) : ∀ (entries : List (String × Json)) (d : List (Item × Py)),
    getEntry (.s key) (Json.toPyEntries entries d) =
      ((findLast key entries).map Json.toPy).or (getEntry (.s key) d)
  | [], d => by simp [Json.toPyEntries, findLast]
  | (k, v) :: rest, d => by
    rw [Json.toPyEntries, getEntry_toPy key rest, findLast_cons, getEntry_setEntry]
    cases findLast key rest with
    | some w => rfl
    | none =>
      by_cases h : k = key
      · subst h; simp
      · have h' : ¬ (Item.s k = Item.s key) := by simpa using h
        simp only [if_neg h, if_neg h']
        rfl

theorem getEntry_int (n : Int) : ∀ (entries : List (String × Json)) (d : List (Item × Py)),
    getEntry (.i n) (Json.toPyEntries entries d) = getEntry (.i n) d
  | [], d => by rw [Json.toPyEntries]
  | (k, v) :: rest, d => by
    rw [Json.toPyEntries, getEntry_int n rest, getEntry_setEntry]
    simp

theorem toPyList_eq : ∀ items : List Json, Json.toPyList items = items.map Json.toPy
  | [] => by rw [Json.toPyList]; rfl
  | j :: rest => by rw [Json.toPyList, toPyList_eq rest]; rfl

theorem jsonGet_toPy (item : PathItem) (hp : item.Proper) (j : Json) :
    (item.jsonGet j).map Json.toPy = item.pyGetItem pyOps j.toPy := by
  cases j with
  | null => simp [PathItem.jsonGet, PathItem.pyGetItem, pyOps, Json.toPy]
  | bool b => simp [PathItem.jsonGet, PathItem.pyGetItem, pyOps, Json.toPy]
  | num t => simp [PathItem.jsonGet, PathItem.pyGetItem, pyOps, Json.toPy]
  | str s => simp [PathItem.jsonGet, PathItem.pyGetItem, pyOps, Json.toPy]
  | arr items =>
    cases item with
    | s k => simp [PathItem.jsonGet, PathItem.pyGetItem, pyOps, Json.toPy, PathItem.toPy]
    | pos n =>
      simp only [PathItem.jsonGet, PathItem.pyGetItem, pyOps, Json.toPy, PathItem.toPy, listItem,
        Bool.false_eq_true, if_false, toPyList_eq]
      rw [if_pos (by omega)]
      simp
    | neg n =>
      simp only [PathItem.Proper] at hp
      simp only [PathItem.jsonGet, PathItem.pyGetItem, pyOps, Json.toPy, PathItem.toPy, listItem,
        Bool.false_eq_true, if_false, toPyList_eq]
      have hneg : ¬ (0 ≤ -(n : Int)) := by omega
      simp only [if_neg hneg, List.length_map]
      by_cases h : n ≤ items.length
      · have h' : -(items.length : Int) ≤ -(n : Int) := by omega
        have : ((items.length : Int) + -(n : Int)).toNat = items.length - n := by omega
        simp only [if_pos h, if_pos h', this]
        simp
      · have h' : ¬ (-(items.length : Int) ≤ -(n : Int)) := by omega
        simp only [if_neg h, if_neg h']
        rfl
  | obj entries =>
    cases item with
    | s k =>
      simp only [PathItem.jsonGet, PathItem.jsonObjGet, PathItem.pyGetItem, pyOps, Json.toPy,
        PathItem.toPy, Bool.false_eq_true, if_false]
      rw [getEntry_toPy]
      simp [getEntry]
    | pos n =>
      simp only [PathItem.jsonGet, PathItem.jsonObjGet, PathItem.pyGetItem, pyOps, Json.toPy,
        PathItem.toPy, Bool.false_eq_true, if_false]
      rw [getEntry_int]
      simp [getEntry]
    | neg n =>
      simp only [PathItem.jsonGet, PathItem.jsonObjGet, PathItem.pyGetItem, pyOps, Json.toPy,
        PathItem.toPy, Bool.false_eq_true, if_false]
      rw [getEntry_int]
      simp [getEntry]

theorem foldJson_toPy : ∀ (rest : List PathItem) (_ : ∀ q ∈ rest, q.Proper) (j : Json),
    (foldJson rest j).map Json.toPy = foldItems pyOps rest j.toPy
  | [], _, j => rfl
  | item :: rest, hp, j => by
    have h1 := jsonGet_toPy item (hp item (List.mem_cons_self ..)) j
    simp only [foldJson, foldItems]
    rw [← h1]
    cases item.jsonGet j with
    | none => rfl
    | some j' => exact foldJson_toPy rest (fun q hq => hp q (List.mem_cons_of_mem _ hq)) j'

theorem jsonChoices_toPy (entries : List (String × Json)) : ∀ (ps : List LookupPath)
    (_ : ∀ p ∈ ps, ∀ q ∈ p.rest, q.Proper),
    dictChoices pyOps (fun k => .ok (getEntry (.s k) (Json.toPyEntries entries []))) ps =
      .ok ((jsonChoices entries ps).map fun x => (x.1, x.2.toPy))
  | [], _ => rfl
  | p :: ps, hp => by
    have ih := jsonChoices_toPy entries ps (fun q hq => hp q (List.mem_cons_of_mem _ hq))
    simp only [dictChoices, jsonChoices]
    rw [getEntry_toPy]
    cases findLast p.first entries with
    | none => simpa [getEntry] using ih
    | some v =>
      simp only [Option.map_some, Option.some_or]
      rw [← foldJson_toPy p.rest (hp p (List.mem_cons_self ..))]
      cases foldJson p.rest v with
      | none => simpa using ih
      | some w => rfl

/-! ### Locations -/

theorem toPy_applyErrorLoc (rest : List PathItem) (e : LineError α) :
    (rest.reverse.foldl (fun e item => e.withOuterLocation item.toLocItem) e).loc.toPy =
      rest.map PathItem.toLocItem ++ e.loc.toPy := by
  induction rest generalizing e with
  | nil => rfl
  | cons item rest ih =>
    simp only [List.reverse_cons, List.foldl_append, List.foldl_cons, List.foldl_nil,
      List.map_cons, List.cons_append]
    rw [← ih]
    generalize List.foldl _ e rest.reverse = e'
    unfold LineError.withOuterLocation Location.withOuter Location.toPy Location.newSome
    cases e'.loc with
    | empty => rfl
    | list l => simp

end PC.Lookup
