import Verif.Lemmas.EnginePostUnion
import Verif.Lemmas.EngineAtModel

/-
Outcomes of model validators, root model validators and tagged unions.
-/

namespace PC.Engine
open PC.Comb PC.Coll PC.Union PC.Fields PC.Lookup
variable {α : Type} {m : Option Bool} {C C' : α → Prop} {L L' : α → List LocItem → α → Prop}

/-- A dict made of all fields, in their order. -/
structure AllFields (fs : List (FieldSpec α)) (d : Dict α) : Prop where
  order : d.map Prod.fst = fs.map FieldSpec.name
  entries : ∀ n v, (n, v) ∈ d → ∃ f ∈ fs, EntryOf f n v

theorem AllFields.set {fs : List (FieldSpec α)} {d : Dict α} {f : FieldSpec α} {v : α} (h : AllFields fs d)
    (hn : ∀ g ∈ fs, g.name ≠ f.name) (hv : f.dflt = some v ∨ f.out v) : AllFields (fs ++ [f]) (d.set f.name v) := by
  have hnew : f.name ∉ d.map Prod.fst := by
    rw [h.order]
    intro hm
    obtain ⟨g, hg, he⟩ := List.mem_map.mp hm
    exact hn g hg he
  rw [set_new hnew]
  refine ⟨?_, fun n w hm => ?_⟩
  · rw [List.map_append, List.map_append, h.order]
    rfl
  · rcases List.mem_append.mp hm with hm | he
    · obtain ⟨g, hg, h1⟩ := h.entries n w hm
      exact ⟨g, by simp [hg], h1⟩
    · rw [List.mem_singleton] at he
      cases he
      exact ⟨f, by simp, rfl, hv⟩

/-- What the loop over the fields of a model leaves behind. -/
structure ModelLoopOk (view : DictView α) (ba bn : Bool) (fs : List (FieldSpec α)) (acc : FAcc α) : Prop where
  fields : acc.errs = [] → AllFields fs acc.dict
  selected : acc.errs = [] → ∀ f ∈ fs, ∃ key, f.keys.select ba bn = .ok key
  used : acc.errs = [] → ∀ f ∈ fs, ∀ key path x, f.keys.select ba bn = .ok key → view.get key = .ok (some (path, x)) →
    path.first ∈ acc.used

/-- The lookups of a view raise, or report errors about the input. -/
def GetAt (a : α) (view : DictView α) : Prop := ∀ key e, view.get key = .error e → AtInput a e

theorem post_modelFieldStep (t : ModelFields α) (view : DictView α) (a : α) (ba bn : Bool) (hget : GetAt a view)
    (M : List LocItem → α → Prop) (fs : List (FieldSpec α)) (f : Field α) (s : FieldSpec α) (hf : FieldPost m f s)
    (hnew : ∀ g ∈ fs, g.name ≠ s.name) (hkp : ∀ key, s.keys.select ba bn = .ok key → keyPaths key ≠ [])
    (hmiss : ∀ key p, s.keys.select ba bn = .ok key → view.get key = .ok none → s.dflt = none →
      (keyPaths key).head? = some p → M (fieldLoc t.locByAlias s.name p) a)
    (hread : ∀ key e, s.keys.select ba bn = .ok key → view.get key = .error e → M [.s s.name] a)
    (hfield : ∀ key p x q z, s.keys.select ba bn = .ok key → view.get key = .ok (some (p, x)) → s.errs x q z →
      M (fieldLoc t.locByAlias s.name p ++ q) z)
    (acc : FAcc α) (hk : Keeps m acc.st) (hE : Errs M acc.errs) (hl : ModelLoopOk view ba bn fs acc) :
    Keeps m (t.fieldStep view a ba bn f acc).2.st ∧
    match (t.fieldStep view a ba bn f acc).1 with
    | .error e => Out (fun _ => True) M (.error e)
    | .ok () => Errs M (t.fieldStep view a ba bn f acc).2.errs ∧
        ModelLoopOk view ba bn (fs ++ [s]) (t.fieldStep view a ba bn f acc).2 := by
  obtain ⟨h1, h2, _, h4, h5⟩ := hf
  simp only [ModelFields.fieldStep]
  rw [h1, h2, h4]
  cases hs : s.keys.select ba bn with
  | error e => exact ⟨hk, trivial⟩
  | ok key =>
    dsimp only
    cases hg : view.get key with
    | error e =>
      have ha := hget key e hg
      match e, ha with
      | .lineErrors ls, ha =>
        have hr : M [.s s.name] a := hread key _ hs hg
        have hne : ∀ xs : List (LineError α), xs ++ ls.map (·.withOuterLocation (.s s.name)) = [] → False := by
          intro xs he
          exact ha.1 (List.map_eq_nil_iff.mp (List.append_eq_nil_iff.mp he).2)
        refine ⟨hk, hE.append ?_, fun he => (hne _ he).elim, fun he => (hne _ he).elim, fun he => (hne _ he).elim⟩
        intro e he
        obtain ⟨e0, h0, rfl⟩ := List.mem_map.mp he
        obtain ⟨g1, g2⟩ := ha.2 e0 h0
        rw [toPy_withOuter, g1, input_withOuter, g2]
        exact hr
      | .internal x, _ => exact ⟨hk, trivial⟩
    | ok o =>
      have hused : ∀ u : List String, (∀ p x, o = some (p, x) → p.first ∈ u) → (∀ y ∈ acc.used, y ∈ u) →
          acc.errs = [] →
          ∀ g ∈ fs ++ [s], ∀ key path x, g.keys.select ba bn = .ok key → view.get key = .ok (some (path, x)) →
            path.first ∈ u := by
        intro u hu hu2 he g hgm key' path x hk' hg'
        rcases List.mem_append.mp hgm with hgm | hgm
        · exact hu2 _ (hl.used he g hgm key' path x hk' hg')
        · rw [List.mem_singleton] at hgm
          subst hgm
          rw [hs] at hk'
          cases hk'
          rw [hg] at hg'
          cases hg'
          exact hu _ _ rfl
      have hsel : acc.errs = [] → ∀ g ∈ fs ++ [s], ∃ key, g.keys.select ba bn = .ok key := by
        intro he g hgm
        rcases List.mem_append.mp hgm with hgm | hgm
        · exact hl.selected he g hgm
        · rw [List.mem_singleton] at hgm
          subst hgm
          exact ⟨key, hs⟩
      cases o with
      | some px =>
        obtain ⟨path, x⟩ := px
        dsimp only [rebindExtra]
        have hkr : Keeps m ({ acc.st with
            extra := { acc.st.extra with data := some acc.dict, fieldName := some s.name } } : VState α) :=
          ⟨hk.strict, hk.off⟩
        obtain ⟨k1, o1⟩ := h5 x _ hkr
        generalize f.run x _ = r at k1 o1
        obtain ⟨r, st1⟩ := r
        have k2 : Keeps m ({ st1 with extra := acc.st.extra } : VState α) := ⟨hk.strict, k1.off⟩
        have hu := hused (acc.used ++ [path.first]) (fun p x h => (by cases h; simp)) (fun y hy => by simp [hy])
        dsimp only at o1 ⊢
        match r, o1 with
        | .ok v, o1 =>
          exact ⟨k2, hE, ⟨fun he => (hl.fields he).set hnew (.inr o1), hsel, hu⟩⟩
        | .error (.lineErrors es), o1 =>
          have hne : ∀ xs : List (LineError α), xs ++ es.map (path.applyErrorLoc · t.locByAlias s.name) = [] → False := by
            intro xs he
            exact o1.1 (List.map_eq_nil_iff.mp (List.append_eq_nil_iff.mp he).2)
          refine ⟨k2, ?_, fun he => (hne _ he).elim, fun he => (hne _ he).elim, fun he => (hne _ he).elim⟩
          exact hE.append (Errs.applyLoc path _ _ o1.2 (fun q z h => hfield key path x q z hs hg h))
        | .error (.internal e), _ => exact ⟨k2, trivial⟩
      | none =>
        dsimp only [rebindExtra]
        have k2 : Keeps m ({ acc.st with extra := acc.st.extra } : VState α) := hk
        have hu := hused acc.used (fun p x h => (by cases h)) (fun y hy => hy)
        cases hd : s.dflt with
        | some v => exact ⟨k2, hE, ⟨fun he => (hl.fields he).set hnew (.inl hd), hsel, hu⟩⟩
        | none =>
          dsimp only
          obtain ⟨e1, e2⟩ := missing_errs (N := M) key a t.locByAlias s.name
            (fun p hp => hmiss key p hs hg hd hp) (hkp key hs)
          have hne : ∀ xs : List (LineError α), xs ++ (key.error .missing a t.locByAlias s.name).toList = [] → False :=
            fun xs he => e2 (List.append_eq_nil_iff.mp he).2
          exact ⟨k2, hE.append e1, fun he => (hne _ he).elim, fun he => (hne _ he).elim, fun he => (hne _ he).elim⟩

theorem post_modelFieldLoop (t : ModelFields α) (view : DictView α) (a : α) (ba bn : Bool) (hget : GetAt a view)
    (M : List LocItem → α → Prop) :
    ∀ (vs : List (Field α)) (ss fs : List (FieldSpec α)) (acc : FAcc α), All2 (FieldPost m) vs ss →
    ((fs ++ ss).map FieldSpec.name).Nodup → (∀ s ∈ ss, ∀ key, s.keys.select ba bn = .ok key → keyPaths key ≠ []) →
    (∀ s ∈ ss, ∀ key p, s.keys.select ba bn = .ok key → view.get key = .ok none → s.dflt = none →
      (keyPaths key).head? = some p → M (fieldLoc t.locByAlias s.name p) a) →
    (∀ s ∈ ss, ∀ key e, s.keys.select ba bn = .ok key → view.get key = .error e → M [.s s.name] a) →
    (∀ s ∈ ss, ∀ key p x q z, s.keys.select ba bn = .ok key → view.get key = .ok (some (p, x)) → s.errs x q z →
      M (fieldLoc t.locByAlias s.name p ++ q) z) →
    Keeps m acc.st → Errs M acc.errs → ModelLoopOk view ba bn fs acc →
    Keeps m (t.fieldLoop view a ba bn vs acc).2.st ∧
    match (t.fieldLoop view a ba bn vs acc).1 with
    | .error e => Out (fun _ => True) M (.error e)
    | .ok () => Errs M (t.fieldLoop view a ba bn vs acc).2.errs ∧
        ModelLoopOk view ba bn (fs ++ ss) (t.fieldLoop view a ba bn vs acc).2 := by
  intro vs
  induction vs with
  | nil =>
    intro ss fs acc h2 _ _ _ _ _ hk hE hl
    cases h2
    rw [List.append_nil]
    exact ⟨hk, hE, hl⟩
  | cons v vs ih =>
    intro ss fs acc h2 hnd hkp hmiss hread hfield hk hE hl
    cases h2 with
    | @cons _ s _ ss hv h2 =>
    have hnew : ∀ g ∈ fs, g.name ≠ s.name := by
      intro g hg he
      rw [List.map_append, List.map_cons] at hnd
      exact (List.nodup_append.mp hnd).2.2 _ (List.mem_map_of_mem hg) _ (.head _) he
    obtain ⟨k1, o1⟩ := post_modelFieldStep t view a ba bn hget M fs v s hv hnew (hkp s (by simp)) (hmiss s (by simp))
      (hread s (by simp)) (hfield s (by simp)) acc hk hE hl
    simp only [ModelFields.fieldLoop]
    generalize t.fieldStep view a ba bn v acc = r at k1 o1
    obtain ⟨r, acc1⟩ := r
    dsimp only at k1 o1 ⊢
    cases r with
    | error e => exact ⟨k1, o1⟩
    | ok u =>
      have := ih ss (fs ++ [s]) acc1 h2 (by rw [List.append_assoc]; exact hnd) (fun s' h => hkp s' (by simp [h]))
        (fun s' h => hmiss s' (by simp [h])) (fun s' h => hread s' (by simp [h]))
        (fun s' h => hfield s' (by simp [h])) k1 o1.1 o1.2
      rw [List.append_assoc] at this
      exact this

/-- Extra items of a model: each name once, each satisfying `N`. -/
def ExtraOk (N : String → Prop) (xs : Dict α) : Prop := (xs.map Prod.fst).Nodup ∧ ∀ n v, (n, v) ∈ xs → N n

theorem post_modelExtraStep (t : ModelFields α) (ht : t.extrasV = none) (ht2 : t.extrasKeysV = none)
    (M : List LocItem → α → Prop) (N : String → Prop) (hstr : StrOk t.keyOps) (used : List String)
    (k w : α) (hinv : M [t.keyOps.loc k] k) (hforbid : t.extra = .forbid → M [t.keyOps.loc k] w) (acc : XAcc α)
    (hclash : acc.errs = [] → ∀ n, t.keyOps.str k = .ok n → n ∈ used ∨ N n)
    (hE : Errs M acc.errs) (hl : acc.errs = [] → ExtraOk N acc.extra) :
    match (t.extraStep used k w acc).1 with
    | .error e => Out (fun _ => True) M (.error e)
    | .ok () => Errs M (t.extraStep used k w acc).2.errs ∧ ((t.extraStep used k w acc).2.errs = [] → acc.errs = []) ∧
      ((t.extraStep used k w acc).2.errs = [] → ExtraOk N (t.extraStep used k w acc).2.extra) := by
  simp only [ModelFields.extraStep, ModelFields.extraKey, ht, ht2]
  cases hs : t.keyOps.str k with
  | error e =>
    rcases hstr k e hs with ⟨x, rfl⟩ | ⟨es, rfl, h1, h2⟩
    · exact trivial
    · have hne : ∀ xs : List (LineError α), xs ++ es.map (fun e =>
          { e.withOuterLocation (t.keyOps.loc k) with type := .invalidKey }) = [] → False := by
        intro xs he
        exact h1 (List.map_eq_nil_iff.mp (List.append_eq_nil_iff.mp he).2)
      refine ⟨hE.append ?_, fun he => (hne _ he).elim, fun he => (hne _ he).elim⟩
      intro e he
      obtain ⟨e0, h0, rfl⟩ := List.mem_map.mp he
      obtain ⟨g1, g2⟩ := h2 e0 h0
      dsimp only
      rw [toPy_withOuter, g1, input_withOuter, g2]
      exact hinv
  | ok n =>
    dsimp only
    by_cases hu : used.contains n = true
    · rw [if_pos hu]
      exact ⟨hE, id, hl⟩
    · rw [if_neg hu]
      cases hx : t.extra with
      | forbid =>
        refine ⟨hE.append ?_, fun he => absurd (List.append_eq_nil_iff.mp he).2 (List.cons_ne_nil _ _),
          fun he => absurd (List.append_eq_nil_iff.mp he).2 (List.cons_ne_nil _ _)⟩
        intro e he
        rw [List.mem_singleton] at he
        subst he
        exact hforbid hx
      | ignore => exact ⟨hE, id, hl⟩
      | allow =>
        refine ⟨hE, id, fun he => ?_⟩
        obtain ⟨g1, g2⟩ := hl he
        refine ⟨nodup_set _ _ _ g1, fun n' v' hm => ?_⟩
        rcases mem_set hm with h | h
        · cases h
          rcases hclash he n hs with h | h
          · exact absurd (by simpa using h) hu
          · exact h
        · exact g2 _ _ h

theorem post_modelExtraLoop (t : ModelFields α) (ht : t.extrasV = none) (ht2 : t.extrasKeysV = none)
    (M : List LocItem → α → Prop) (N : String → Prop) (hstr : StrOk t.keyOps) (used : List String) :
    ∀ (entries : List (ValResult α (α × α))) (acc : XAcc α),
    (∀ e, .error e ∈ entries → Out (fun _ => True) M (.error e)) →
    (∀ k w, .ok (k, w) ∈ entries → M [t.keyOps.loc k] k) →
    (∀ k w, .ok (k, w) ∈ entries → t.extra = .forbid → M [t.keyOps.loc k] w) →
    (acc.errs = [] → ∀ k w, .ok (k, w) ∈ entries → ∀ n, t.keyOps.str k = .ok n → n ∈ used ∨ N n) →
    Errs M acc.errs → (acc.errs = [] → ExtraOk N acc.extra) →
    match (t.extraLoop used entries acc).1 with
    | .error e => Out (fun _ => True) M (.error e)
    | .ok () => Errs M (t.extraLoop used entries acc).2.errs ∧
      ((t.extraLoop used entries acc).2.errs = [] → acc.errs = [] ∧ ExtraOk N (t.extraLoop used entries acc).2.extra) := by
  intro entries
  induction entries with
  | nil => intro acc _ _ _ _ hE hl; exact ⟨hE, fun h => ⟨h, hl h⟩⟩
  | cons x xs ih =>
    intro acc h0 h1 h2 h4 hE hl
    cases x with
    | error e => exact h0 e (by simp)
    | ok kw =>
      obtain ⟨k, w⟩ := kw
      have o1 := post_modelExtraStep t ht ht2 M N hstr used k w (h1 k w (by simp)) (h2 k w (by simp)) acc
        (fun he => h4 he k w (by simp)) hE hl
      simp only [ModelFields.extraLoop]
      generalize t.extraStep used k w acc = r at o1
      obtain ⟨r, acc1⟩ := r
      dsimp only at o1 ⊢
      cases r with
      | error e => exact o1
      | ok u =>
        obtain ⟨g1, g2, g3⟩ := o1
        have := ih acc1 (fun e h => h0 e (by simp [h])) (fun k w h => h1 k w (by simp [h]))
          (fun k w h => h2 k w (by simp [h])) (fun he k w h => h4 (g2 he) k w (by simp [h])) g1 g3
        generalize t.extraLoop used xs acc1 = r at this
        obtain ⟨r, acc2⟩ := r
        dsimp only at this ⊢
        cases r with
        | error e => exact this
        | ok u => exact ⟨this.1, fun he => ⟨g2 (this.2 he).1, (this.2 he).2⟩⟩

/-- What a model-fields validator returns: all fields, and extra items if and only if those are allowed. -/
def ModelOk (extra : ExtraBehavior) (ss : List (FieldSpec α)) (N : String → Prop) (out : ModelOut α) : Prop :=
  AllFields ss out.dict ∧ match out.extra with
    | none => extra ≠ .allow
    | some xs => extra = .allow ∧ ExtraOk N xs

theorem AtInput.outErr {M : List LocItem → α → Prop} {a : α} {e : ValError α} (h : AtInput a e)
    (hM : M [] a) : Out C M (.error e) := by
  match e, h with
  | .lineErrors es, h =>
    refine ⟨h.1, fun x hx => ?_⟩
    obtain ⟨h1, h2⟩ := h.2 x hx
    rw [h1, h2]
    exact hM
  | .internal _, _ => trivial

theorem atInput_toModelType {a : α} {e : ValError α} (h : AtInput a e) : AtInput a (toModelType e) := by
  match e, h with
  | .lineErrors es, h =>
    refine ⟨fun he => h.1 (List.map_eq_nil_iff.mp he), fun x hx => ?_⟩
    obtain ⟨y, hy, rfl⟩ := List.mem_map.mp hx
    have := h.2 y hy
    split
    · exact this
    · exact this
  | .internal _, _ => trivial

theorem post_modelFields (t : ModelFields α) (ht : t.extrasV = none) (ht2 : t.extrasKeysV = none)
    (ss : List (FieldSpec α)) (hfs : All2 (FieldPost m) t.fields ss) (hstr : StrOk t.keyOps)
    (hview : ∀ strict fa a view, t.asFields strict fa a = .ok view → ModelViewLawful t.keyOps a view)
    (hnd : (ss.map FieldSpec.name).Nodup) (hkp : ∀ s ∈ ss, ∀ ba bn key, s.keys.select ba bn = .ok key → keyPaths key ≠ [])
    (hhere : ∀ a, L' a [] a)
    (herr : ∀ strict fa a e, t.asFields strict fa a = .error e → AtInput a e)
    (hmiss : ∀ s ∈ ss, ∀ strict fa a view ba bn key p, t.asFields strict fa a = .ok view → s.keys.select ba bn = .ok key →
      view.get key = .ok none → s.dflt = none → (keyPaths key).head? = some p →
      L' a (fieldLoc t.locByAlias s.name p) a)
    (hread : ∀ s ∈ ss, ∀ strict fa a view ba bn key e, t.asFields strict fa a = .ok view →
      s.keys.select ba bn = .ok key → view.get key = .error e → L' a [.s s.name] a)
    (hfield : ∀ s ∈ ss, ∀ strict fa a view ba bn key p x q z, t.asFields strict fa a = .ok view →
      s.keys.select ba bn = .ok key → view.get key = .ok (some (p, x)) → s.errs x q z →
      L' a (fieldLoc t.locByAlias s.name p ++ q) z)
    (hinv : ∀ strict fa a view entries k w, t.asFields strict fa a = .ok view → view.entries = .ok entries →
      .ok (k, w) ∈ entries → L' a [t.keyOps.loc k] k)
    (hforbid : ∀ strict fa a view entries k w, t.asFields strict fa a = .ok view → view.entries = .ok entries →
      .ok (k, w) ∈ entries → t.extra = .forbid → L' a [t.keyOps.loc k] w)
    (a : α) (st : VState α) (hk : Keeps m st) :
    Keeps m (t.validate a st).2 ∧ match (t.validate a st).1 with
      | .error e => Out (fun _ => True) (L' a) (.error e)
      | .ok out => ModelOk t.extra ss (fun n =>
          (∀ s ∈ ss, ∀ ba bn key, s.keys.select ba bn = .ok key → key = .simple (.ofStr s.name)) →
            n ∉ ss.map FieldSpec.name) out := by
  simp only [ModelFields.validate]
  generalize hst : ({ st with allowPartial := .ofBool false } : VState α) = st0
  have hk0 : Keeps m st0 := by rw [← hst]; exact ⟨hk.strict, rfl⟩
  cases hs : t.asFields (st0.strictOr t.strict) (st.extra.fromAttributes.getD t.fromAttributes) a with
  | error e => exact ⟨hk0, (atInput_toModelType (herr _ _ _ _ hs)).outErr (hhere a)⟩
  | ok view =>
    have hv := hview _ _ _ _ hs
    dsimp only
    have hnil : Errs (L' a) ([] : List (LineError α)) := fun e h => (by cases h)
    obtain ⟨k1, o1⟩ := post_modelFieldLoop t view a (st0.validateByAliasOr t.byAlias) (st0.validateByNameOr t.byName)
      hv.get (L' a) t.fields ss [] ⟨[], [], [], 0, [], st0⟩ hfs hnd (fun s h key => hkp s h _ _ key)
      (fun s h key p => hmiss s h _ _ _ _ _ _ key p hs) (fun s h key e => hread s h _ _ _ _ _ _ key e hs)
      (fun s h key p x q z => hfield s h _ _ _ _ _ _ key p x q z hs) hk0 hnil
      ⟨fun _ => ⟨rfl, fun n v h => (by cases h)⟩, fun _ f h => (by cases h), fun _ f h => (by cases h)⟩
    generalize t.fieldLoop view a _ _ t.fields ⟨[], [], [], 0, [], st0⟩ = r at k1 o1
    obtain ⟨r, acc⟩ := r
    simp only [ModelFields.afterFields]
    dsimp only at k1 o1
    cases r with
    | error e => exact ⟨k1, o1⟩
    | ok u =>
      obtain ⟨hE, hl⟩ := o1
      rw [List.nil_append] at hl
      have hfin : ∀ d ex es fs2 c (st1 : VState α), Keeps m st1 → Errs (L' a) es →
          (es = [] → AllFields ss d ∧ match ex with
            | none => True
            | some xs => t.extra = .allow ∧ ExtraOk (fun n =>
          (∀ s ∈ ss, ∀ ba bn key, s.keys.select ba bn = .ok key → key = .simple (.ofStr s.name)) →
            n ∉ ss.map FieldSpec.name) xs) →
          Keeps m (t.finish d ex es fs2 c st1).2 ∧ match (t.finish d ex es fs2 c st1).1 with
            | .error e => Out (fun _ => True) (L' a) (.error e)
            | .ok out => ModelOk t.extra ss (fun n =>
          (∀ s ∈ ss, ∀ ba bn key, s.keys.select ba bn = .ok key → key = .simple (.ofStr s.name)) →
            n ∉ ss.map FieldSpec.name) out := by
        intro d ex es fs2 c st1 h1 h2 h3
        simp only [ModelFields.finish]
        split
        · rename_i he
          have h4 := h3 (List.isEmpty_iff.mp he)
          refine ⟨⟨h1.1, h1.2⟩, h4.1, ?_⟩
          dsimp only
          cases ex with
          | some xs =>
            rw [if_neg (by simp)]
            exact h4.2
          | none =>
            by_cases hal : t.extra = .allow
            · rw [if_pos ⟨hal, rfl⟩]
              exact ⟨hal, List.nodup_nil, fun n v h => (by cases h)⟩
            · rw [if_neg (fun h => hal h.1)]
              exact hal
        · rename_i he
          exact ⟨h1, fun h => he (by rw [h]; rfl), h2⟩
      dsimp only
      split
      · exact hfin _ _ _ _ _ _ k1 hE (fun he => ⟨hl.fields he, trivial⟩)
      · rename_i hig
        have hpy : view.isPyGetAttr = false := by
          cases h : view.isPyGetAttr with
          | false => rfl
          | true => exact absurd (.inr h) hig
        cases hen : view.entries with
        | error e => exact ⟨k1, (hv.entries e hen).outErr (hhere a)⟩
        | ok entries =>
          dsimp only
          have hst2 := modelExtraLoop_state t ht ht2 acc.used entries ⟨[], acc.errs, acc.fieldsSet, acc.st⟩
          have o3 := post_modelExtraLoop t ht ht2 (L' a) (fun n =>
              (∀ s ∈ ss, ∀ ba bn key, s.keys.select ba bn = .ok key → key = .simple (.ofStr s.name)) →
                n ∉ ss.map FieldSpec.name) hstr acc.used entries ⟨[], acc.errs, acc.fieldsSet, acc.st⟩
            (fun e h => (hv.entry _ e hen h).outErr (hhere a))
            (fun k w h => hinv _ _ _ _ _ k w hs hen h) (fun k w h => hforbid _ _ _ _ _ k w hs hen h)
            (fun he k w h n hn => by
              by_cases hu : n ∈ acc.used
              · exact .inl hu
              · refine .inr (fun hname hm => hu ?_)
                obtain ⟨f, hf, rfl⟩ := List.mem_map.mp hm
                obtain ⟨x, hx⟩ := hv.byName hpy _ k w _ hen h hn
                obtain ⟨key, hsel⟩ := hl.selected he f hf
                have := hname f hf _ _ key hsel
                subst this
                exact hl.used he f hf _ _ x hsel hx)
            hE (fun _ => ⟨List.nodup_nil, fun n v h => (by cases h)⟩)
          generalize t.extraLoop acc.used entries _ = x at o3 hst2
          obtain ⟨x, acc2⟩ := x
          dsimp only at o3 hst2 ⊢
          have k3 : Keeps m acc2.st := by rw [hst2]; exact k1
          cases x with
          | error e => exact ⟨k3, o3⟩
          | ok u =>
            refine hfin _ _ _ _ _ _ k3 o3.1 (fun he => ?_)
            obtain ⟨g1, g2⟩ := o3.2 he
            refine ⟨hl.fields g1, ?_⟩
            by_cases hal : t.extra = .allow
            · rw [if_pos hal]; exact ⟨hal, g2⟩
            · rw [if_neg hal]; exact trivial

/-- A model validator whose constructions, from the input and from instances, have known outcomes. -/
theorem post_modelRun (W : World α) (cls : Nat) (v : Cls.ModelV α) (hc : v.customInit = none) (hp : v.postInit = none)
    (N : Instance α → Prop)
    (hkeep : ∀ a, Cls.Kept v.revalidate (W.source cls a) → C' a) (hC : ∀ i, N i → C' (W.mkModel cls i))
    (hnew : ∀ a ex st, Keeps m st → Keeps m (v.attrs ⟨[], none, []⟩ a ex st).2 ∧
      match (v.attrs ⟨[], none, []⟩ a ex st).1 with
      | .error e => Out (fun _ => True) (L a) (.error e)
      | .ok i => N i)
    (hL : ∀ a p z, L a p z → L' a p z)
    (hdataErr : ∀ i e, v.data i = .error e → ∃ x, e = .internal x)
    (hold : ∀ a i data, (W.source cls a).inst? = some i → v.data i = .ok data → ∀ p z, L data p z → L' a p z) :
    Post m C' L' (modelRun W cls v) := by
  intro a st hk
  have key : ∀ b ex (st1 : VState α), Keeps m st1 → (∀ p z, L b p z → L' a p z) →
      Keeps m (asObject W cls a (v.construct b ex st1)).2 ∧ Out C' (L' a) (asObject W cls a (v.construct b ex st1)).1 := by
    intro b ex st1 hk1 hb
    obtain ⟨k1, o1⟩ := hnew b ex st1 hk1
    simp only [Cls.ModelV.construct, hc, Option.bind, Cls.ModelV.callPostInit, hp]
    generalize v.attrs ⟨[], none, []⟩ b ex st1 = r at k1 o1
    obtain ⟨r, st2⟩ := r
    dsimp only at k1 o1 ⊢
    cases r with
    | error e => exact ⟨k1, (Out.imp_error (o1.imp (fun _ h => h) hb))⟩
    | ok i => exact ⟨k1, hC i o1⟩
  show Keeps m (asObject W cls a (v.validate (W.source cls a) a st)).2 ∧
    Out C' (L' a) (asObject W cls a (v.validate (W.source cls a) a st)).1
  have hrev : ∀ i, (W.source cls a).inst? = some i →
      Keeps m (asObject W cls a (v.revalidateInstance i st)).2 ∧
        Out C' (L' a) (asObject W cls a (v.revalidateInstance i st)).1 := by
    intro i hi
    simp only [Cls.ModelV.revalidateInstance]
    cases hd : v.data i with
    | error e => obtain ⟨x, rfl⟩ := hdataErr i e hd; exact ⟨hk, trivial⟩
    | ok data => exact key data _ st hk (hold a i data hi hd)
  simp only [Cls.ModelV.validate]
  have hkp := hkeep a
  cases hs : W.source cls a with
  | exact i =>
    dsimp only
    rw [hs] at hkp
    split
    · exact hrev i (by rw [hs]; rfl)
    · rename_i h
      refine ⟨hk, hkp ?_⟩
      cases hv : v.revalidate with
      | always => rw [hv] at h; exact absurd rfl h
      | never => exact (by simp [Cls.Kept])
      | subclassInstances => exact (by simp [Cls.Kept])
  | subclass i =>
    dsimp only
    rw [hs] at hkp
    split
    · exact hrev i (by rw [hs]; rfl)
    · rename_i h
      refine ⟨hk, hkp ?_⟩
      cases hv : v.revalidate with
      | always => rw [hv] at h; exact absurd rfl h
      | never => exact (by simp [Cls.Kept])
      | subclassInstances => rw [hv] at h; exact absurd rfl h
  | genericOrigin i => exact hrev i (by rw [hs]; rfl)
  | other => exact key a none _ (hk.floor _) (hL a)

theorem post_rootModel (W : World α) (cls : Nat) (rv : Dc.Revalidate) {v : Validator α α} (h : Post m C L v)
    (hkeep : ∀ a, Cls.Kept rv (W.source cls a) → C' a)
    (hC : ∀ x y, C y → C' (W.mkModel cls ⟨[("root", y)], none, if W.isUndefined x then [] else ["root"]⟩))
    (hL : ∀ a p z, L a p z → L' a p z)
    (hold : ∀ a i x, (W.source cls a).inst? = some i → i.dict.get "root" = some x → ∀ p z, L x p z → L' a p z) :
    Post m C' L' (modelRun W cls (rootModelV W rv v)) := by
  refine post_modelRun (L := L) W cls _ rfl rfl (fun i => ∃ x y, C y ∧ i = ⟨[("root", y)], none, if W.isUndefined x then [] else ["root"]⟩)
    hkeep ?_ ?_ hL ?_ ?_
  · rintro i ⟨x, y, hy, rfl⟩
    exact hC x y hy
  · intro a ex st hk
    have hkr : Keeps m ({ st with extra := { st.extra with fieldName := some "root" } } : VState α) := ⟨hk.strict, hk.off⟩
    obtain ⟨k1, o1⟩ := h a _ hkr
    simp only [Cls.ModelV.attrs, rootModelV]
    dsimp only [rebindExtra]
    generalize v a _ = r at k1 o1
    obtain ⟨r, st1⟩ := r
    have k2 : Keeps m ({ st1 with extra := st.extra } : VState α) := ⟨hk.strict, k1.off⟩
    dsimp only at o1 ⊢
    cases r with
    | error e => exact ⟨k2, Out.imp_error o1⟩
    | ok y => exact ⟨k2, a, y, o1, rfl⟩
  · intro i e he
    simp only [Cls.ModelV.data, rootModelV] at he
    cases hx : i.dict.get "root" with
    | none => rw [hx] at he; cases he; exact ⟨_, rfl⟩
    | some x => rw [hx] at he; cases he
  · intro a i data hi hd
    simp only [Cls.ModelV.data, rootModelV] at hd
    cases hx : i.dict.get "root" with
    | none => rw [hx] at hd; cases hd
    | some x => rw [hx] at hd; cases hd; exact hold a i _ hi hx

theorem post_tagged (W : World α) (hW : W.Lawful) (cfg : TagCfg α) (vs : List (Validator α α)) (cs : List (ItemSpec α))
    (h : All2 (ItemPost m) (vs.map titem) cs) (hhere : ∀ a, L' a [] a)
    (hC : ∀ c ∈ cs, ∀ y, c.1 y → C' y)
    (hL : ∀ b fa a tag item (i : Nat) c p z, findTag W cfg.key b fa a = .ok (some tag) → cfg.index tag = some (item, i) →
      cs[i]? = some c → c.2 a p z → L' a (item :: p) z) :
    Post m C' L' (taggedV W cfg vs).validate := by
  intro a st hk
  simp only [Tagged.validate, taggedV]
  cases hf : findTag W cfg.key (st.strictOr false) (st.extra.fromAttributes.getD cfg.fromAttributes) a with
  | error e =>
    refine ⟨hk, AtInput.outErr ?_ (hhere a)⟩
    simp only [findTag] at hf
    cases hv : W.asFields (st.strictOr false) (st.extra.fromAttributes.getD cfg.fromAttributes) a with
    | error e' => rw [hv] at hf; cases hf; exact hW.asFields _ _ _ _ hv
    | ok view =>
      rw [hv] at hf
      dsimp only at hf
      cases hg : view.get cfg.key with
      | error e' => rw [hg] at hf; cases hf; exact (hW.fieldViews _ _ _ _ hv).get _ _ hg
      | ok o => rw [hg] at hf; cases hf
  | ok o =>
    cases o with
    | none =>
      dsimp only [Tagged.tagNotFound]
      refine ⟨hk, ?_⟩
      cases cfg.customError <;> exact Out.new (hhere a)
    | some tag =>
      dsimp only
      simp only [Tagged.findCallValidator]
      have hmiss : ∀ t, Out C' (L' a) (.error (ValError.new t a)) := fun t => Out.new (hhere a)
      cases hx : cfg.index tag with
      | none =>
        dsimp only [Option.bind]
        cases cfg.customError <;> exact ⟨hk, hmiss _⟩
      | some x =>
        obtain ⟨item, i⟩ := x
        dsimp only [Option.bind]
        cases hi : vs[i]? with
        | none =>
          dsimp only [Option.map]
          cases cfg.customError <;> exact ⟨hk, hmiss _⟩
        | some v =>
          dsimp only [Option.map]
          have hp : ∀ (vs : List (Validator α α)) (cs : List (ItemSpec α)) (i : Nat),
              All2 (ItemPost m) (vs.map titem) cs → vs[i]? = some v → ∃ c, cs[i]? = some c ∧ Post m c.1 c.2 v := by
            intro vs
            induction vs with
            | nil => intro cs i _ h; cases h
            | cons w ws ih =>
              intro cs i h hi
              cases h with
              | cons h1 h2 =>
                cases i with
                | zero => cases hi; exact ⟨_, rfl, h1.1⟩
                | succ i => exact ih _ i h2 hi
          obtain ⟨c, hc, hpc⟩ := hp vs cs i h hi
          obtain ⟨k1, o1⟩ := hpc a st hk
          generalize v a st = r at k1 o1
          obtain ⟨r, st1⟩ := r
          dsimp only at k1 o1 ⊢
          match r, o1 with
          | .ok y, o1 => exact ⟨k1, hC c (List.mem_of_getElem? hc) y o1⟩
          | .error (.lineErrors es), o1 =>
            exact ⟨k1, fun he => o1.1 (List.map_eq_nil_iff.mp he),
              Errs.outer o1.2 (fun q z hz => hL _ _ _ _ _ _ _ _ _ hf hx hc hz)⟩
          | .error (.internal e), _ => exact ⟨k1, trivial⟩

end PC.Engine
