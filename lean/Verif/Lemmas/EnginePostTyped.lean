import Verif.Lemmas.EnginePost
import Verif.Lemmas.Fields

/-
Outcomes of typed-dict validators.
-/

namespace PC.Engine
open PC.Comb PC.Coll PC.Union PC.Fields PC.Lookup
variable {α : Type} {m : Option Bool} {C C' : α → Prop} {L L' : α → List LocItem → α → Prop}

/-- What is known of a field: its schema's data, what its outputs and errors satisfy. -/
structure FieldSpec (α : Type) where
  name : String
  keys : KeyCollection
  required : Bool
  dflt : Option α
  out : α → Prop
  errs : α → List LocItem → α → Prop

/-- A field validator whose outcomes satisfy the specification. -/
structure FieldPost (m : Option Bool) (f : Field α) (s : FieldSpec α) : Prop where
  name : f.name = s.name
  keys : f.keys = s.keys
  required : f.required = s.required
  dflt : f.dflt = fun _ st => (.ok s.dflt, st)
  run : Post m s.out s.errs f.run

/-- The entry a field makes. -/
def EntryOf (f : FieldSpec α) (n : String) (v : α) : Prop := f.name = n ∧ (f.dflt = some v ∨ f.out v)

/-- A dict made of the fields, in their order. -/
structure FieldsOk (fs : List (FieldSpec α)) (d : Dict α) : Prop where
  order : (d.map Prod.fst).Sublist (fs.map FieldSpec.name)
  entries : ∀ n v, (n, v) ∈ d → ∃ f ∈ fs, EntryOf f n v
  present : ∀ f ∈ fs, f.required = true ∨ f.dflt ≠ none → f.name ∈ d.map Prod.fst

/-- A dict made of the fields and then extra items satisfying `X`. -/
def TypedOk (fs : List (FieldSpec α)) (X : α → Prop) (d : Dict α) : Prop :=
  ∃ ds xs, d = ds ++ xs ∧ FieldsOk fs ds ∧ (xs.map Prod.fst).Nodup ∧ ∀ n v, (n, v) ∈ xs → (∀ f ∈ fs, f.name ≠ n) ∧ X v

theorem mem_set {k n : String} {v w : α} : ∀ {d : Dict α}, (n, w) ∈ Dict.set k v d → (n, w) = (k, v) ∨ (n, w) ∈ d
  | [], h => by simp only [Dict.set, List.mem_singleton] at h; exact .inl h
  | (k', v') :: rest, h => by
    simp only [Dict.set] at h
    split at h
    · rcases List.mem_cons.mp h with h | h
      · exact .inl h
      · exact .inr (List.mem_cons_of_mem _ h)
    · rcases List.mem_cons.mp h with h | h
      · rw [h]; exact .inr (List.mem_cons_self ..)
      · rcases mem_set h with h | h
        · exact .inl h
        · exact .inr (List.mem_cons_of_mem _ h)

theorem nodup_set (k : String) (v : α) : ∀ (d : Dict α), (d.map Prod.fst).Nodup →
    ((Dict.set k v d).map Prod.fst).Nodup
  | [], _ => by simp [Dict.set]
  | (k', v') :: rest, h => by
    simp only [List.map_cons, List.nodup_cons] at h
    simp only [Dict.set]
    split
    · rename_i he
      subst he
      simp only [List.map_cons, List.nodup_cons]
      exact h
    · rename_i he
      simp only [List.map_cons, List.nodup_cons]
      refine ⟨fun hm => ?_, nodup_set k v rest h.2⟩
      rw [Dict.keys_set] at hm
      rcases hm with hm | hm
      · exact he hm
      · exact h.1 hm

theorem toPy_applyErrorLoc (p : LookupPath) (e : LineError α) (b : Bool) (name : String) :
    (p.applyErrorLoc e b name).loc.toPy = fieldLoc b name p ++ e.loc.toPy ∧
      (p.applyErrorLoc e b name).input = e.input := by
  obtain ⟨first, rest⟩ := p
  cases b with
  | false => exact ⟨toPy_withOuter e _, rfl⟩
  | true =>
    simp only [LookupPath.applyErrorLoc, fieldLoc, if_true]
    have key : ∀ (l : List PathItem) (e : LineError α),
        (l.foldl (fun e item => e.withOuterLocation item.toLocItem) e).loc.toPy =
          l.reverse.map PathItem.toLocItem ++ e.loc.toPy ∧
        (l.foldl (fun e item => e.withOuterLocation item.toLocItem) e).input = e.input := by
      intro l
      induction l with
      | nil => intro e; exact ⟨rfl, rfl⟩
      | cons x l ih =>
        intro e
        obtain ⟨h1, h2⟩ := ih (e.withOuterLocation x.toLocItem)
        refine ⟨?_, h2⟩
        rw [List.foldl_cons, h1, toPy_withOuter]
        simp
    obtain ⟨h1, h2⟩ := key rest.reverse e
    refine ⟨?_, h2⟩
    rw [toPy_withOuter, h1, List.reverse_reverse]
    rfl

theorem Errs.applyLoc {M N : List LocItem → α → Prop} {es : List (LineError α)} (p : LookupPath) (b : Bool)
    (name : String) (h : Errs M es) (hMN : ∀ q z, M q z → N (fieldLoc b name p ++ q) z) :
    Errs N (es.map (p.applyErrorLoc · b name)) := by
  intro e he
  obtain ⟨e0, h0, rfl⟩ := List.mem_map.mp he
  obtain ⟨h1, h2⟩ := toPy_applyErrorLoc p e0 b name
  rw [h1, h2]
  exact hMN _ _ (h e0 h0)

theorem missing_errs {N : List LocItem → α → Prop} (key : LookupKey) (a : α) (b : Bool) (name : String)
    (hN : ∀ p, (keyPaths key).head? = some p → N (fieldLoc b name p) a)
    (hp : keyPaths key ≠ []) :
    Errs N (key.error .missing a b name).toList ∧ (key.error .missing a b name).toList ≠ [] := by
  have hl : ∀ p : LookupPath, (Location.list (p.rest.reverse.map PathItem.toLocItem ++ [.s p.first])).toPy =
      fieldLoc true name p := by
    intro p
    simp [Location.toPy, fieldLoc, List.map_reverse]
  cases b with
  | false =>
    simp only [LookupKey.error, Bool.false_eq_true, if_false, Option.toList_some]
    refine ⟨fun e he => ?_, List.cons_ne_nil _ _⟩
    rw [List.mem_singleton] at he
    subst he
    cases hk : keyPaths key with
    | nil => exact absurd hk hp
    | cons p ps => exact hN p (by rw [hk]; rfl)
  | true =>
    simp only [LookupKey.error, if_true]
    cases key with
    | simple p =>
      refine ⟨fun e he => ?_, List.cons_ne_nil _ _⟩
      rw [Option.map_some, Option.toList_some, List.mem_singleton] at he
      subst he
      dsimp only
      rw [hl]
      exact hN p rfl
    | choice p q =>
      refine ⟨fun e he => ?_, List.cons_ne_nil _ _⟩
      rw [Option.map_some, Option.toList_some, List.mem_singleton] at he
      subst he
      dsimp only
      rw [hl]
      exact hN p rfl
    | pathChoices ps =>
      cases ps with
      | nil => exact absurd rfl hp
      | cons p ps =>
        refine ⟨fun e he => ?_, List.cons_ne_nil _ _⟩
        simp only [List.head?_cons, Option.map_some, Option.toList_some, List.mem_singleton] at he
        subst he
        dsimp only
        rw [hl]
        exact hN p rfl

/-- What the loop over fields leaves behind. -/
structure LoopOk (view : DictView α) (ba bn : Bool) (fs : List (FieldSpec α)) (acc : FAcc α) : Prop where
  fields : acc.errs = [] → FieldsOk fs acc.dict
  selected : ∀ f ∈ fs, ∃ key, f.keys.select ba bn = .ok key
  used : ∀ f ∈ fs, ∀ key path x, f.keys.select ba bn = .ok key → view.get key = .ok (some (path, x)) →
    path.first ∈ acc.used

theorem set_new {k : String} {v : α} : ∀ {d : Dict α}, k ∉ d.map Prod.fst → Dict.set k v d = d ++ [(k, v)]
  | [], _ => rfl
  | (k', v') :: rest, h => by
    simp only [List.map_cons, List.mem_cons, not_or] at h
    simp only [Dict.set, if_neg (fun he => h.1 he.symm : ¬ k' = k), set_new h.2, List.cons_append]

theorem set_append {k : String} {v : α} : ∀ {d e : Dict α}, k ∉ d.map Prod.fst →
    Dict.set k v (d ++ e) = d ++ Dict.set k v e
  | [], _, _ => rfl
  | (k', v') :: rest, e, h => by
    simp only [List.map_cons, List.mem_cons, not_or] at h
    simp only [List.cons_append, Dict.set, if_neg (fun he => h.1 he.symm : ¬ k' = k), set_append h.2]

theorem FieldsOk.new {fs : List (FieldSpec α)} {d : Dict α} {n : String} (h : FieldsOk fs d)
    (hn : ∀ g ∈ fs, g.name ≠ n) : n ∉ d.map Prod.fst := by
  intro hm
  obtain ⟨g, hg, rfl⟩ := List.mem_map.mp (h.order.subset hm)
  exact hn g hg rfl

theorem FieldsOk.set {fs : List (FieldSpec α)} {d : Dict α} {f : FieldSpec α} {v : α} (h : FieldsOk fs d)
    (hn : ∀ g ∈ fs, g.name ≠ f.name) (hv : f.dflt = some v ∨ f.out v) : FieldsOk (fs ++ [f]) (d.set f.name v) := by
  rw [set_new (h.new hn)]
  refine ⟨?_, fun n w hm => ?_, fun g hg hr => ?_⟩
  · rw [List.map_append, List.map_append]
    exact h.order.append (List.Sublist.refl _)
  · rcases List.mem_append.mp hm with hm | he
    · obtain ⟨g, hg, h1⟩ := h.entries n w hm
      exact ⟨g, by simp [hg], h1⟩
    · rw [List.mem_singleton] at he
      cases he
      exact ⟨f, by simp, rfl, hv⟩
  · rw [List.map_append, List.mem_append]
    rcases List.mem_append.mp hg with hg | hg
    · exact .inl (h.present g hg hr)
    · rw [List.mem_singleton] at hg
      subst hg
      exact .inr (.head _)

theorem FieldsOk.skip {fs : List (FieldSpec α)} {d : Dict α} {f : FieldSpec α} (h : FieldsOk fs d)
    (hv : f.required = true ∨ f.dflt ≠ none → False) : FieldsOk (fs ++ [f]) d := by
  refine ⟨?_, fun n w hm => ?_, fun g hg hr => ?_⟩
  · rw [List.map_append]
    exact h.order.trans (List.sublist_append_left _ _)
  · obtain ⟨g, hg, h1⟩ := h.entries n w hm
    exact ⟨g, by simp [hg], h1⟩
  · rcases List.mem_append.mp hg with hg | hg
    · exact h.present g hg hr
    · rw [List.mem_singleton] at hg
      subst hg
      exact (hv hr).elim

/-- What is assumed of a lookup: it raises or answers. -/
def GetOk (view : DictView α) : Prop := ∀ key e, view.get key = .error e → ∃ x, e = .internal x

theorem post_fieldStep (t : TypedDict α) (view : DictView α) (a : α) (ba bn : Bool) (hget : GetOk view)
    (M : List LocItem → α → Prop) (fs : List (FieldSpec α)) (f : Field α) (s : FieldSpec α) (hf : FieldPost m f s)
    (hnew : ∀ g ∈ fs, g.name ≠ s.name) (hkp : ∀ key, s.keys.select ba bn = .ok key → keyPaths key ≠ [])
    (hmiss : ∀ key p, s.keys.select ba bn = .ok key → view.get key = .ok none → s.required = true → s.dflt = none →
      (keyPaths key).head? = some p → M (fieldLoc t.locByAlias s.name p) a)
    (hfield : ∀ key p x q z, s.keys.select ba bn = .ok key → view.get key = .ok (some (p, x)) → s.errs x q z →
      M (fieldLoc t.locByAlias s.name p ++ q) z)
    (acc : FAcc α) (hk : Keeps m acc.st) (hE : Errs M acc.errs) (hl : LoopOk view ba bn fs acc) :
    Keeps m (t.fieldStep view a ba bn none .off f acc).2.st ∧
    match (t.fieldStep view a ba bn none .off f acc).1 with
    | .error e => Out (fun _ => True) M (.error e)
    | .ok () => Errs M (t.fieldStep view a ba bn none .off f acc).2.errs ∧
        LoopOk view ba bn (fs ++ [s]) (t.fieldStep view a ba bn none .off f acc).2 := by
  obtain ⟨h1, h2, h3, h4, h5⟩ := hf
  simp only [TypedDict.fieldStep]
  rw [h1, h2, h3, h4]
  cases hs : s.keys.select ba bn with
  | error e => exact ⟨hk, trivial⟩
  | ok key =>
    dsimp only
    cases hg : view.get key with
    | error e =>
      obtain ⟨x, rfl⟩ := hget key e hg
      exact ⟨hk, trivial⟩
    | ok o =>
      have hused : ∀ u : List String, (∀ p x, o = some (p, x) → p.first ∈ u) → (∀ y ∈ acc.used, y ∈ u) →
          ∀ g ∈ fs ++ [s], ∀ key path x, g.keys.select ba bn = .ok key → view.get key = .ok (some (path, x)) →
            path.first ∈ u := by
        intro u hu hu2 g hgm key' path x hk' hg'
        rcases List.mem_append.mp hgm with hgm | hgm
        · exact hu2 _ (hl.used g hgm key' path x hk' hg')
        · rw [List.mem_singleton] at hgm
          subst hgm
          rw [hs] at hk'
          cases hk'
          rw [hg] at hg'
          cases hg'
          exact hu _ _ rfl
      have hsel : ∀ g ∈ fs ++ [s], ∃ key, g.keys.select ba bn = .ok key := by
        intro g hgm
        rcases List.mem_append.mp hgm with hgm | hgm
        · exact hl.selected g hgm
        · rw [List.mem_singleton] at hgm
          subst hgm
          exact ⟨key, hs⟩
      cases o with
      | some px =>
        obtain ⟨path, x⟩ := px
        dsimp only [rebindExtra]
        have hkr : Keeps m ({ acc.st with
            allowPartial := if decide ((none : Option LocItem) = some (.s path.first)) = true then .off else .off,
            extra := { acc.st.extra with data := some acc.dict, fieldName := some s.name } } : VState α) :=
          ⟨hk.strict, by dsimp only; split <;> rfl⟩
        obtain ⟨k1, o1⟩ := h5 x _ hkr
        generalize f.run x _ = r at k1 o1
        obtain ⟨r, st1⟩ := r
        have k2 : Keeps m ({ st1 with extra := acc.st.extra } : VState α) := ⟨hk.strict, k1.off⟩
        have hu := hused (acc.used ++ [path.first]) (fun p x h => (by cases h; simp)) (fun y hy => by simp [hy])
        dsimp only at o1 ⊢
        match r, o1 with
        | .ok v, o1 =>
          exact ⟨k2, hE, ⟨fun he => (hl.fields he).set hnew (.inr o1), hsel, hu⟩⟩
        | .error (.lineErrors es), o1 =>
          simp only [reduceCtorEq, decide_false, Bool.not_false, Bool.true_or, if_true]
          refine ⟨k2, ?_, ?_, hsel, hu⟩
          · exact hE.append (Errs.applyLoc path _ _ o1.2 (fun q z h => hfield key path x q z hs hg h))
          · intro he
            exact absurd (List.map_eq_nil_iff.mp (List.append_eq_nil_iff.mp he).2) o1.1
        | .error (.internal e), _ => exact ⟨k2, trivial⟩
      | none =>
        dsimp only [rebindExtra]
        have k2 : Keeps m ({ acc.st with extra := acc.st.extra } : VState α) := hk
        have hu := hused acc.used (fun p x h => (by cases h)) (fun y hy => hy)
        cases hd : s.dflt with
        | some v => exact ⟨k2, hE, ⟨fun he => (hl.fields he).set hnew (.inl hd), hsel, hu⟩⟩
        | none =>
          dsimp only
          by_cases hr : s.required = true
          · rw [if_pos hr]
            obtain ⟨e1, e2⟩ := missing_errs (N := M) key a t.locByAlias s.name
              (fun p hp => hmiss key p hs hg hr hd hp) (hkp key hs)
            exact ⟨k2, hE.append e1, ⟨fun he => absurd (List.append_eq_nil_iff.mp he).2 e2, hsel, hu⟩⟩
          · rw [if_neg hr]
            exact ⟨k2, hE, ⟨fun he => (hl.fields he).skip (fun h => h.elim hr (fun h => h hd)), hsel, hu⟩⟩

theorem post_fieldLoop (t : TypedDict α) (view : DictView α) (a : α) (ba bn : Bool) (hget : GetOk view)
    (M : List LocItem → α → Prop) :
    ∀ (vs : List (Field α)) (ss fs : List (FieldSpec α)) (acc : FAcc α), All2 (FieldPost m) vs ss →
    ((fs ++ ss).map FieldSpec.name).Nodup → (∀ s ∈ ss, ∀ key, s.keys.select ba bn = .ok key → keyPaths key ≠ []) →
    (∀ s ∈ ss, ∀ key p, s.keys.select ba bn = .ok key → view.get key = .ok none → s.required = true → s.dflt = none →
      (keyPaths key).head? = some p → M (fieldLoc t.locByAlias s.name p) a) →
    (∀ s ∈ ss, ∀ key p x q z, s.keys.select ba bn = .ok key → view.get key = .ok (some (p, x)) → s.errs x q z →
      M (fieldLoc t.locByAlias s.name p ++ q) z) →
    Keeps m acc.st → Errs M acc.errs → LoopOk view ba bn fs acc →
    Keeps m (t.fieldLoop view a ba bn none .off vs acc).2.st ∧
    match (t.fieldLoop view a ba bn none .off vs acc).1 with
    | .error e => Out (fun _ => True) M (.error e)
    | .ok () => Errs M (t.fieldLoop view a ba bn none .off vs acc).2.errs ∧
        LoopOk view ba bn (fs ++ ss) (t.fieldLoop view a ba bn none .off vs acc).2 := by
  intro vs
  induction vs with
  | nil =>
    intro ss fs acc h2 _ _ _ _ hk hE hl
    cases h2
    rw [List.append_nil]
    exact ⟨hk, hE, hl⟩
  | cons v vs ih =>
    intro ss fs acc h2 hnd hkp hmiss hfield hk hE hl
    cases h2 with
    | @cons _ s _ ss hv h2 =>
    have hnew : ∀ g ∈ fs, g.name ≠ s.name := by
      intro g hg he
      rw [List.map_append, List.map_cons] at hnd
      exact (List.nodup_append.mp hnd).2.2 _ (List.mem_map_of_mem hg) _ (.head _) he
    obtain ⟨k1, o1⟩ := post_fieldStep t view a ba bn hget M fs v s hv hnew (hkp s (by simp)) (hmiss s (by simp))
      (hfield s (by simp)) acc hk hE hl
    simp only [TypedDict.fieldLoop]
    generalize t.fieldStep view a ba bn none .off v acc = r at k1 o1
    obtain ⟨r, acc1⟩ := r
    dsimp only at k1 o1 ⊢
    cases r with
    | error e => exact ⟨k1, o1⟩
    | ok u =>
      have := ih ss (fs ++ [s]) acc1 h2 (by rw [List.append_assoc]; exact hnd) (fun s' h => hkp s' (by simp [h])) (fun s' h => hmiss s' (by simp [h]))
        (fun s' h => hfield s' (by simp [h])) k1 o1.1 o1.2
      rw [List.append_assoc] at this
      exact this

/-- A validator of extra items against what its outputs and errors satisfy. -/
def ExtrasPost (m : Option Bool) (X : α → Prop) (LX : α → List LocItem → α → Prop) : Option (Validator α α) → Prop
  | none => ∀ v, X v
  | some v => Post m X LX v

/-- What is assumed of reading keys: a key that is not a string gives line errors at the key. -/
def StrOk (ops : KeyOps α) : Prop := ∀ k e, ops.str k = .error e →
  (∃ x, e = .internal x) ∨ ∃ es, e = .lineErrors es ∧ es ≠ [] ∧ ∀ x ∈ es, x.loc.toPy = [] ∧ x.input = k

theorem TypedOk.set {fs : List (FieldSpec α)} {X : α → Prop} {d : Dict α} {n : String} {v : α} (h : TypedOk fs X d)
    (hn : ∀ f ∈ fs, f.name ≠ n) (hv : X v) : TypedOk fs X (d.set n v) := by
  obtain ⟨ds, xs, rfl, h1, h2, h3⟩ := h
  refine ⟨ds, xs.set n v, set_append (h1.new hn), h1, nodup_set _ _ _ h2, fun k w hm => ?_⟩
  rcases mem_set hm with he | hm
  · cases he
    exact ⟨hn, hv⟩
  · exact h3 k w hm

theorem post_extraStep (t : TypedDict α) (M : List LocItem → α → Prop) (fs : List (FieldSpec α)) {X : α → Prop}
    {LX : α → List LocItem → α → Prop} (hX : ExtrasPost m X LX t.extrasV) (hstr : StrOk t.keyOps) (used : List String)
    (k w : α) (hinv : M [t.keyOps.loc k] k)
    (hforbid : t.extra = .forbid → M [t.keyOps.loc k] w)
    (hval : ∀ p z, LX w p z → M (t.keyOps.loc k :: p) z)
    (hclash : t.extra = .allow → ∀ n, t.keyOps.str k = .ok n → n ∈ used ∨ ∀ f ∈ fs, f.name ≠ n)
    (acc : Fields.TAcc α) (hk : Keeps m acc.st) (hE : Errs M acc.errs)
    (hl : acc.errs = [] → TypedOk fs (fun v => t.extra = .allow ∧ X v) acc.dict) :
    Keeps m (t.extraStep used none .off k w acc).2.st ∧
    match (t.extraStep used none .off k w acc).1 with
    | .error e => Out (fun _ => True) M (.error e)
    | .ok () => Errs M (t.extraStep used none .off k w acc).2.errs ∧
      ((t.extraStep used none .off k w acc).2.errs = [] → TypedOk fs (fun v => t.extra = .allow ∧ X v) (t.extraStep used none .off k w acc).2.dict) := by
  simp only [TypedDict.extraStep]
  cases hs : t.keyOps.str k with
  | error e =>
    rcases hstr k e hs with ⟨x, rfl⟩ | ⟨es, rfl, h1, h2⟩
    · exact ⟨hk, trivial⟩
    · refine ⟨hk, hE.append ?_, fun he => absurd (List.map_eq_nil_iff.mp (List.append_eq_nil_iff.mp he).2) h1⟩
      intro e he
      obtain ⟨e0, h0, rfl⟩ := List.mem_map.mp he
      obtain ⟨g1, g2⟩ := h2 e0 h0
      dsimp only
      rw [toPy_withOuter, g1, input_withOuter, g2]
      exact hinv
  | ok n =>
    dsimp only
    by_cases hu : used.contains n = true
    · rw [if_pos hu]
      exact ⟨hk, hE, hl⟩
    · rw [if_neg hu]
      cases hx : t.extra with
      | forbid =>
        refine ⟨hk, hE.append ?_, fun he => absurd (List.append_eq_nil_iff.mp he).2 (List.cons_ne_nil _ _)⟩
        intro e he
        rw [List.mem_singleton] at he
        subst he
        exact hforbid hx
      | ignore => rw [hx] at hl; exact ⟨hk, hE, hl⟩
      | allow =>
        rw [hx] at hl
        have hn : ∀ f ∈ fs, f.name ≠ n := by
          rcases hclash hx n hs with h | h
          · exact absurd (by simpa using h) hu
          · exact h
        cases hv : t.extrasV with
        | none =>
          rw [hv] at hX
          exact ⟨hk, hE, fun he => (hl he).set hn ⟨rfl, hX w⟩⟩
        | some v =>
          rw [hv] at hX
          dsimp only
          have hk0 : Keeps m ({ acc.st with
              allowPartial := if decide ((none : Option LocItem) = some (t.keyOps.loc k)) = true then .off else .off } : VState α) :=
            ⟨hk.strict, by dsimp only; split <;> rfl⟩
          obtain ⟨k1, o1⟩ := hX w _ hk0
          generalize v w _ = r at k1 o1
          obtain ⟨r, st1⟩ := r
          dsimp only at k1 o1 ⊢
          match r, o1 with
          | .ok y, o1 => exact ⟨k1, hE, fun he => (hl he).set hn ⟨rfl, o1⟩⟩
          | .error (.lineErrors es), o1 =>
            simp only [reduceCtorEq, decide_false, Bool.not_false, if_true]
            exact ⟨k1, hE.append (Errs.outer o1.2 hval),
              fun he => absurd (List.map_eq_nil_iff.mp (List.append_eq_nil_iff.mp he).2) o1.1⟩
          | .error (.internal e), _ => exact ⟨k1, trivial⟩

theorem post_extraLoop (t : TypedDict α) (M : List LocItem → α → Prop) (fs : List (FieldSpec α)) {X : α → Prop}
    {LX : α → List LocItem → α → Prop} (hX : ExtrasPost m X LX t.extrasV) (hstr : StrOk t.keyOps) (used : List String) :
    ∀ (entries : List (ValResult α (α × α))) (acc : Fields.TAcc α),
    (∀ e, .error e ∈ entries → Out (fun _ => True) M (.error e)) →
    (∀ k w, .ok (k, w) ∈ entries → M [t.keyOps.loc k] k) →
    (∀ k w, .ok (k, w) ∈ entries → t.extra = .forbid → M [t.keyOps.loc k] w) →
    (∀ k w p z, .ok (k, w) ∈ entries → LX w p z → M (t.keyOps.loc k :: p) z) →
    (∀ k w, .ok (k, w) ∈ entries → t.extra = .allow → ∀ n, t.keyOps.str k = .ok n → n ∈ used ∨ ∀ f ∈ fs, f.name ≠ n) →
    Keeps m acc.st → Errs M acc.errs → (acc.errs = [] → TypedOk fs (fun v => t.extra = .allow ∧ X v) acc.dict) →
    Keeps m (t.extraLoop used none .off entries acc).2.st ∧
    match (t.extraLoop used none .off entries acc).1 with
    | .error e => Out (fun _ => True) M (.error e)
    | .ok () => Errs M (t.extraLoop used none .off entries acc).2.errs ∧
      ((t.extraLoop used none .off entries acc).2.errs = [] →
        TypedOk fs (fun v => t.extra = .allow ∧ X v) (t.extraLoop used none .off entries acc).2.dict) := by
  intro entries
  induction entries with
  | nil => intro acc _ _ _ _ _ hk hE hl; exact ⟨hk, hE, hl⟩
  | cons x xs ih =>
    intro acc h0 h1 h2 h3 h4 hk hE hl
    cases x with
    | error e => exact ⟨hk, h0 e (by simp)⟩
    | ok kw =>
      obtain ⟨k, w⟩ := kw
      obtain ⟨k1, o1⟩ := post_extraStep t M fs hX hstr used k w (h1 k w (by simp)) (h2 k w (by simp))
        (fun p z => h3 k w p z (by simp)) (h4 k w (by simp)) acc hk hE hl
      simp only [TypedDict.extraLoop]
      generalize t.extraStep used none .off k w acc = r at k1 o1
      obtain ⟨r, acc1⟩ := r
      dsimp only at k1 o1 ⊢
      cases r with
      | error e => exact ⟨k1, o1⟩
      | ok u =>
        exact ih acc1 (fun e h => h0 e (by simp [h])) (fun k w h => h1 k w (by simp [h]))
          (fun k w h => h2 k w (by simp [h])) (fun k w p z h => h3 k w p z (by simp [h]))
          (fun k w h => h4 k w (by simp [h])) k1 o1.1 o1.2

/-- What is assumed of the views a typed dict is given: lookups raise or answer; a lookup by name finds what iteration
shows; errors of iteration are about the input itself. -/
structure ViewOk (ops : KeyOps α) (a : α) (view : DictView α) : Prop where
  get : GetOk view
  entriesErr : ∀ e, view.entries = .error e → Out (fun _ => False) (fun p z => p = [] ∧ z = a) (.error e)
  entryErr : ∀ entries e, view.entries = .ok entries → .error e ∈ entries →
    Out (fun _ => False) (fun p z => p = [] ∧ z = a) (.error e)
  byName : ∀ entries k w n, view.entries = .ok entries → .ok (k, w) ∈ entries → ops.str k = .ok n →
    ∃ x, view.get (.simple (.ofStr n)) = .ok (some (.ofStr n, x))

theorem post_typedDict (t : TypedDict α) (ss : List (FieldSpec α)) {X : α → Prop}
    {LX : α → List LocItem → α → Prop} (hfs : All2 (FieldPost m) t.fields ss) (hX : ExtrasPost m X LX t.extrasV)
    (hstr : StrOk t.keyOps) (hview : ∀ strict a view, t.asDict strict a = .ok view → ViewOk t.keyOps a view)
    (hnd : (ss.map FieldSpec.name).Nodup) (hkp : ∀ s ∈ ss, ∀ ba bn key, s.keys.select ba bn = .ok key → keyPaths key ≠ [])
    (hname : t.extra = .allow → ∀ s ∈ ss, ∀ ba bn key, s.keys.select ba bn = .ok key → key = .simple (.ofStr s.name))
    (hC : ∀ d, TypedOk ss (fun v => t.extra = .allow ∧ X v) d → C' (t.build d))
    (hhere : ∀ a, L' a [] a)
    (herr : ∀ strict a e, t.asDict strict a = .error e → Out C' (L' a) (.error e))
    (hmiss : ∀ s ∈ ss, ∀ strict a view ba bn key p, t.asDict strict a = .ok view → s.keys.select ba bn = .ok key →
      view.get key = .ok none → s.required = true → s.dflt = none → (keyPaths key).head? = some p →
      L' a (fieldLoc t.locByAlias s.name p) a)
    (hfield : ∀ s ∈ ss, ∀ strict a view ba bn key p x q z, t.asDict strict a = .ok view →
      s.keys.select ba bn = .ok key → view.get key = .ok (some (p, x)) → s.errs x q z →
      L' a (fieldLoc t.locByAlias s.name p ++ q) z)
    (hinv : ∀ strict a view entries k w, t.asDict strict a = .ok view → view.entries = .ok entries →
      .ok (k, w) ∈ entries → L' a [t.keyOps.loc k] k)
    (hforbid : ∀ strict a view entries k w, t.asDict strict a = .ok view → view.entries = .ok entries →
      .ok (k, w) ∈ entries → t.extra = .forbid → L' a [t.keyOps.loc k] w)
    (hval : ∀ strict a view entries k w p z, t.asDict strict a = .ok view → view.entries = .ok entries →
      .ok (k, w) ∈ entries → LX w p z → L' a (t.keyOps.loc k :: p) z) :
    Post m C' L' t.validate := by
  intro a st hk
  simp only [TypedDict.validate]
  rw [hk.off]
  cases hs : t.asDict (st.strictOr t.strict) a with
  | error e => exact ⟨hk, herr _ _ _ hs⟩
  | ok view =>
    have hv := hview _ _ _ hs
    dsimp only
    have hnil : Errs (L' a) ([] : List (LineError α)) := fun e h => (by cases h)
    obtain ⟨k1, o1⟩ := post_fieldLoop t view a (st.validateByAliasOr t.byAlias) (st.validateByNameOr t.byName) hv.get
      (L' a) t.fields ss [] ⟨[], [], [], 0, [], st⟩ hfs hnd (fun s h key => hkp s h _ _ key)
      (fun s h key p => hmiss s h _ _ _ _ _ key p hs) (fun s h key p x q z => hfield s h _ _ _ _ _ key p x q z hs)
      hk hnil
      ⟨fun _ => ⟨List.Sublist.refl _, fun n v h => (by cases h), fun f h => (by cases h)⟩, fun f h => (by cases h), fun f h => (by cases h)⟩
    rw [show (if PartialMode.off.isActive = true then view.lastKey else none) = (none : Option LocItem) from rfl]
    generalize t.fieldLoop view a _ _ none .off t.fields ⟨[], [], [], 0, [], st⟩ = r at k1 o1
    obtain ⟨r, acc⟩ := r
    simp only [TypedDict.afterFields]
    dsimp only at k1 o1
    cases r with
    | error e => exact ⟨k1, Out.imp_error o1⟩
    | ok u =>
      obtain ⟨hE, hl⟩ := o1
      rw [List.nil_append] at hl
      have hk2 : Keeps m (acc.st.addFieldsSet acc.count) := ⟨k1.strict, k1.off⟩
      have hok : acc.errs = [] → TypedOk ss (fun v => t.extra = .allow ∧ X v) acc.dict := fun he =>
        ⟨acc.dict, [], (List.append_nil _).symm, hl.fields he, List.nodup_nil, fun n v h => (by cases h)⟩
      have hfin : ∀ d es (st1 : VState α), Keeps m st1 → Errs (L' a) es →
          (es = [] → TypedOk ss (fun v => t.extra = .allow ∧ X v) d) →
          Keeps m (t.finish d es st1).2 ∧ Out C' (L' a) (t.finish d es st1).1 := by
        intro d es st1 h1 h2 h3
        simp only [TypedDict.finish]
        split
        · rename_i he
          exact ⟨h1, hC d (h3 (List.isEmpty_iff.mp he))⟩
        · rename_i he
          exact ⟨h1, fun h => he (by rw [h]; rfl), h2⟩
      dsimp only
      split
      · exact hfin _ _ _ hk2 hE hok
      · have hhere' : ∀ p z, p = [] ∧ z = a → L' a p z := by
          rintro p z ⟨rfl, rfl⟩; exact hhere z
        cases hen : view.entries with
        | error e =>
          exact ⟨hk2, ((hv.entriesErr e hen).imp (fun _ h => h.elim) hhere')⟩
        | ok entries =>
          dsimp only
          obtain ⟨k3, o3⟩ := post_extraLoop t (L' a) ss hX hstr acc.used entries
            ⟨acc.dict, acc.errs, acc.st.addFieldsSet acc.count⟩
            (fun e h => (hv.entryErr _ e hen h).imp (fun _ h => h.elim) hhere')
            (fun k w h => hinv _ _ _ _ k w hs hen h) (fun k w h => hforbid _ _ _ _ k w hs hen h)
            (fun k w p z h => hval _ _ _ _ k w p z hs hen h)
            (fun k w h hal n hn => by
              by_cases hex : ∃ f ∈ ss, f.name = n
              · obtain ⟨f, hf, rfl⟩ := hex
                obtain ⟨x, hx⟩ := hv.byName _ k w _ hen h hn
                left
                cases hsel : f.keys.select (st.validateByAliasOr t.byAlias) (st.validateByNameOr t.byName) with
                | error e => obtain ⟨key, hkey⟩ := hl.selected f hf; rw [hsel] at hkey; cases hkey
                | ok key =>
                  have := hname hal f hf _ _ key hsel
                  subst this
                  exact hl.used f hf _ _ x hsel hx
              · exact .inr (fun f hf he => hex ⟨f, hf, he⟩))
            hk2 hE hok
          generalize t.extraLoop acc.used none .off entries _ = x at k3 o3
          obtain ⟨x, acc2⟩ := x
          dsimp only at k3 o3 ⊢
          cases x with
          | error e => exact ⟨k3, Out.imp_error o3⟩
          | ok u => exact hfin _ _ _ k3 o3.1 o3.2

end PC.Engine
