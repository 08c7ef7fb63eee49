import Verif.Lemmas.EngineAt

/-
Agreement of two model validators, two root model validators and two tagged unions whose parts agree.
-/

namespace PC.Engine
open PC.Comb PC.Coll PC.Union PC.Fields PC.Lookup
variable {α : Type} {P : Guard.State → Prop}

/-- A model-fields validator with other fields. -/
def ModelFields.withFields (m : ModelFields α) (fs : List (Field α)) : ModelFields α := { m with fields := fs }

theorem at_modelFieldStep {Q : α → Prop} (m : ModelFields α) (fs fs') (view : DictView α) (input : α)
    (byAlias byName : Bool) (f g : Field α) (acc : FAcc α) (hfg : FieldAt P Q f g)
    (hv : ∀ key path a, view.get key = .ok (some (path, a)) → Q a) (hp : P acc.st.guard) :
    ModelFields.fieldStep (ModelFields.withFields m fs) view input byAlias byName f acc =
      ModelFields.fieldStep (ModelFields.withFields m fs') view input byAlias byName g acc ∧
    P (ModelFields.fieldStep (ModelFields.withFields m fs) view input byAlias byName f acc).2.st.guard := by
  obtain ⟨fn, fk, fr, fd, ff, fq⟩ := f
  obtain ⟨gn, gk, gr, gd, gf, gq⟩ := g
  obtain ⟨h1, h2, h3, ⟨d, h4, h5⟩, h6⟩ := hfg
  dsimp only at h1 h2 h3 h4 h5 h6
  subst h1 h2 h3 h4 h5
  simp only [ModelFields.fieldStep, ModelFields.withFields]
  cases fk.select byAlias byName with
  | error e => exact ⟨rfl, hp⟩
  | ok key =>
    dsimp only
    cases hg : view.get key with
    | error e => cases e <;> exact ⟨rfl, hp⟩
    | ok o =>
      cases o with
      | some pv =>
        obtain ⟨path, a⟩ := pv
        dsimp only
        obtain ⟨e1, e2⟩ := at_rebind (fun x => { x with data := some acc.dict, fieldName := some fn }) acc.st
          (h6 a (hv _ _ _ hg)) hp
        rw [← e1]
        generalize rebindExtra _ _ _ = r at e2
        obtain ⟨r, st1⟩ := r
        dsimp only at e2 ⊢
        cases r with
        | ok w => exact ⟨rfl, e2⟩
        | error e => cases e <;> exact ⟨rfl, e2⟩
      | none =>
        dsimp only [rebindExtra]
        cases d with
        | some w => exact ⟨rfl, hp⟩
        | none => exact ⟨rfl, hp⟩

theorem at_modelFieldLoop {Q : α → Prop} (m : ModelFields α) (fs fs') (view : DictView α) (input : α)
    (byAlias byName : Bool) (hv : ∀ key path a, view.get key = .ok (some (path, a)) → Q a) :
    ∀ (xs ys : List (Field α)) (acc : FAcc α), All2 (FieldAt P Q) xs ys → P acc.st.guard →
    ModelFields.fieldLoop (ModelFields.withFields m fs) view input byAlias byName xs acc =
      ModelFields.fieldLoop (ModelFields.withFields m fs') view input byAlias byName ys acc ∧
    P (ModelFields.fieldLoop (ModelFields.withFields m fs) view input byAlias byName xs acc).2.st.guard := by
  intro xs
  induction xs with
  | nil => intro ys acc h hp; cases h; exact ⟨rfl, hp⟩
  | cons x xs ih =>
    intro ys acc h hp
    cases h with
    | cons hxy h =>
      obtain ⟨e1, e2⟩ := at_modelFieldStep m fs fs' view input byAlias byName _ _ acc hxy hv hp
      simp only [ModelFields.fieldLoop]
      rw [← e1]
      generalize ModelFields.fieldStep _ _ _ _ _ _ _ = r at e2
      obtain ⟨r, acc1⟩ := r
      dsimp only at e2 ⊢
      cases r with
      | ok u => exact ih _ _ h e2
      | error e => exact ⟨rfl, e2⟩

/-- Without validators of extra items, a model-fields validator leaves the state alone after the loop over fields. -/
theorem modelExtraStep_state (m : ModelFields α) (h1 : m.extrasV = none) (h2 : m.extrasKeysV = none)
    (used : List String) (k w : α) (acc : XAcc α) : (m.extraStep used k w acc).2.st = acc.st := by
  simp only [ModelFields.extraStep, ModelFields.extraKey, h1, h2]
  cases m.keyOps.str k with
  | error e => cases e <;> rfl
  | ok key =>
    dsimp only
    split
    · rfl
    · cases m.extra <;> rfl

theorem modelExtraLoop_state (m : ModelFields α) (h1 : m.extrasV = none) (h2 : m.extrasKeysV = none)
    (used : List String) : ∀ (entries : List (ValResult α (α × α))) (acc : XAcc α),
    (m.extraLoop used entries acc).2.st = acc.st := by
  intro entries
  induction entries with
  | nil => intro acc; rfl
  | cons x xs ih =>
    intro acc
    cases x with
    | error e => rfl
    | ok kw =>
      obtain ⟨k, w⟩ := kw
      have hs := modelExtraStep_state m h1 h2 used k w acc
      simp only [ModelFields.extraLoop]
      generalize ModelFields.extraStep _ _ _ _ _ = r at hs
      obtain ⟨r, acc1⟩ := r
      dsimp only at hs ⊢
      cases r with
      | ok u => exact (ih _).trans hs
      | error e => exact hs

/-- Only settings other than the fields matter there. -/
theorem modelExtraLoop_fields (m : ModelFields α) (fs fs' : List (Field α)) (used : List String) :
    ∀ (entries : List (ValResult α (α × α))) (acc : XAcc α),
    (ModelFields.withFields m fs).extraLoop used entries acc =
      (ModelFields.withFields m fs').extraLoop used entries acc := by
  intro entries
  induction entries with
  | nil => intro acc; rfl
  | cons x xs ih =>
    intro acc
    cases x with
    | error e => rfl
    | ok kw =>
      obtain ⟨k, w⟩ := kw
      have hs : (ModelFields.withFields m fs).extraStep used k w acc = (ModelFields.withFields m fs').extraStep used k w acc := rfl
      simp only [ModelFields.extraLoop]
      rw [hs]
      cases ((ModelFields.withFields m fs').extraStep used k w acc).1 with
      | ok u => exact ih _
      | error e => rfl

theorem modelFinish_guard (m : ModelFields α) (d ex es fs c) (st : VState α) :
    (m.finish d ex es fs c st).2.guard = st.guard := by
  simp only [ModelFields.finish, VState.addFieldsSet]
  split <;> rfl

theorem at_modelFields {Q : α → Prop} (m : ModelFields α) (h1 : m.extrasV = none) (h2 : m.extrasKeysV = none)
    (fs fs') (a : α)
    (hq : ∀ strict fa view, m.asFields strict fa a = .ok view → ∀ key path x, view.get key = .ok (some (path, x)) → Q x)
    (hf : All2 (FieldAt P Q) fs fs') :
    At P (ModelFields.validate (ModelFields.withFields m fs)) (ModelFields.validate (ModelFields.withFields m fs')) a := by
  intro st hp
  simp only [ModelFields.validate]
  have g1 : ∀ a, (ModelFields.withFields m a).asFields = m.asFields := fun _ => rfl
  have g2 : ∀ a, (ModelFields.withFields m a).strict = m.strict := fun _ => rfl
  have g3 : ∀ a, (ModelFields.withFields m a).byAlias = m.byAlias := fun _ => rfl
  have g4 : ∀ a, (ModelFields.withFields m a).byName = m.byName := fun _ => rfl
  have g5 : ∀ a, (ModelFields.withFields m a).fields = a := fun _ => rfl
  have g6 : ∀ a, (ModelFields.withFields m a).fromAttributes = m.fromAttributes := fun _ => rfl
  simp only [g1, g2, g3, g4, g5, g6]
  generalize hst : ({ st with allowPartial := .ofBool false } : VState α) = st0
  have hp0 : P st0.guard := by rw [← hst]; exact hp
  cases hs : m.asFields (st0.strictOr m.strict) (st.extra.fromAttributes.getD m.fromAttributes) a with
  | error e => exact ⟨rfl, hp0⟩
  | ok view =>
    dsimp only
    obtain ⟨e1, e2⟩ := at_modelFieldLoop (Q := Q) m fs fs' view a (st0.validateByAliasOr m.byAlias)
      (st0.validateByNameOr m.byName) (hq _ _ _ hs) fs fs' ⟨[], [], [], 0, [], st0⟩ hf hp0
    rw [← e1]
    generalize ModelFields.fieldLoop _ _ _ _ _ _ _ = r at e2
    obtain ⟨r, acc⟩ := r
    simp only [ModelFields.afterFields]
    dsimp only at e2
    cases r with
    | error e => exact ⟨rfl, e2⟩
    | ok u =>
      dsimp only
      have hx : ∀ a, (ModelFields.withFields m a).extra = m.extra := fun _ => rfl
      simp only [hx]
      have hfin : ∀ d ex es fs2 c (st1 : VState α),
          ModelFields.finish (ModelFields.withFields m fs) d ex es fs2 c st1 =
            ModelFields.finish (ModelFields.withFields m fs') d ex es fs2 c st1 := fun _ _ _ _ _ _ => rfl
      split
      · refine ⟨hfin _ _ _ _ _ _, ?_⟩
        rw [modelFinish_guard]
        exact e2
      · cases hen : view.entries with
        | error e => exact ⟨rfl, e2⟩
        | ok entries =>
          dsimp only
          rw [modelExtraLoop_fields m fs fs']
          have hst := modelExtraLoop_state (ModelFields.withFields m fs') h1 h2 acc.used entries
            ⟨[], acc.errs, acc.fieldsSet, acc.st⟩
          generalize ModelFields.extraLoop _ _ _ _ = x at hst
          obtain ⟨x, acc2⟩ := x
          dsimp only at hst ⊢
          cases x with
          | error e => exact ⟨rfl, by rw [hst]; exact e2⟩
          | ok u =>
            refine ⟨hfin _ _ _ _ _ _, ?_⟩
            rw [modelFinish_guard, hst]
            exact e2

/-- The last part of `modelRun`. -/
def asObject (W : World α) (cls : Nat) (input : α) (r : ValResult α (Cls.Made α) × VState α) : ValResult α α × VState α :=
  match r.1 with
  | .error e => (.error e, r.2)
  | .ok .same => (.ok input, r.2)
  | .ok (.fresh i) => (.ok (W.mkModel cls i), r.2)
  | .ok (.called x) => (.ok x, r.2)

theorem asObject_state (W : World α) (cls : Nat) (input : α) (r : ValResult α (Cls.Made α) × VState α) :
    (asObject W cls input r).2 = r.2 := by
  obtain ⟨r, st⟩ := r
  unfold asObject
  cases r with
  | error e => rfl
  | ok x => cases x <;> rfl

/-- Where two model validators agree on all they call, they agree on the input. -/
theorem at_modelRun (W : World α) (cls : Nat) (m m' : Cls.ModelV α) (a : α) (hrv : m.revalidate = m'.revalidate)
    (hdata : ∀ i, (W.source cls a).inst? = some i → m.data i = m'.data i)
    (hnew : ∀ st, P st.guard → m.construct a none st = m'.construct a none st ∧ P (m.construct a none st).2.guard)
    (hold : ∀ i, (W.source cls a).inst? = some i → ∀ data, m.data i = .ok data → ∀ st, P st.guard →
      m.construct data (some i.fieldsSet) st = m'.construct data (some i.fieldsSet) st ∧
        P (m.construct data (some i.fieldsSet) st).2.guard) :
    At P (modelRun W cls m) (modelRun W cls m') a := by
  intro st hp
  suffices h : m.validate (W.source cls a) a st = m'.validate (W.source cls a) a st ∧
      P (m.validate (W.source cls a) a st).2.guard by
    refine ⟨?_, ?_⟩
    · show asObject W cls a _ = asObject W cls a _
      rw [h.1]
    · show P (asObject W cls a _).2.guard
      rw [asObject_state]
      exact h.2
  have hi : ∀ i, (W.source cls a).inst? = some i →
      m.revalidateInstance i st = m'.revalidateInstance i st ∧ P (m.revalidateInstance i st).2.guard := by
    intro i hs
    simp only [Cls.ModelV.revalidateInstance]
    rw [← hdata i hs]
    cases hd : m.data i with
    | error e => exact ⟨rfl, hp⟩
    | ok data => exact hold i hs data hd st hp
  simp only [Cls.ModelV.validate]
  cases hs : W.source cls a with
  | exact i =>
    dsimp only
    rw [← hrv]
    split
    · exact hi i (by rw [hs]; rfl)
    · exact ⟨rfl, hp⟩
  | subclass i =>
    dsimp only
    rw [← hrv]
    split
    · exact hi i (by rw [hs]; rfl)
    · exact ⟨rfl, hp⟩
  | genericOrigin i => exact hi i (by rw [hs]; rfl)
  | other => exact hnew _ (by rw [floor_guard]; exact hp)

theorem at_model {Q : α → Prop} (W : World α) (cfg : ModelCfg) (fs fs') (a : α)
    (hq : ∀ strict fa view, W.asFields strict fa a = .ok view → ∀ key path x, view.get key = .ok (some (path, x)) → Q x)
    (hi : ∀ i, (W.source cfg.cls a).inst? = some i → ∀ strict fa view,
      W.asFields strict fa (W.mkTyped (Cls.attributes i)) = .ok view →
        ∀ key path x, view.get key = .ok (some (path, x)) → Q x)
    (hf : All2 (FieldAt P Q) fs fs') :
    At P (modelRun W cfg.cls (modelV W cfg fs)) (modelRun W cfg.cls (modelV W cfg fs')) a := by
  have hc : ∀ b, (∀ strict fa view, W.asFields strict fa b = .ok view →
      ∀ key path x, view.get key = .ok (some (path, x)) → Q x) → ∀ ex (st : VState α), P st.guard →
      (modelV W cfg fs).construct b ex st = (modelV W cfg fs').construct b ex st ∧
        P ((modelV W cfg fs).construct b ex st).2.guard := by
    intro b hb ex st hp
    obtain ⟨e1, e2⟩ := at_modelFields (P := P) (Q := Q) (modelFieldsV W cfg []) rfl rfl fs fs' b hb hf st hp
    have k1 : (modelFieldsV W cfg fs).validate b st = (modelFieldsV W cfg fs').validate b st := e1
    have k2 : P ((modelFieldsV W cfg fs).validate b st).2.guard := e2
    simp only [Cls.ModelV.construct, Cls.ModelV.attrs, Cls.ModelV.callPostInit, modelV]
    rw [← k1]
    generalize (modelFieldsV W cfg fs).validate b st = r at k2
    obtain ⟨r, st1⟩ := r
    dsimp only at k2 ⊢
    cases r with
    | error e => exact ⟨rfl, k2⟩
    | ok o => exact ⟨rfl, k2⟩
  refine at_modelRun W cfg.cls _ _ a rfl (fun i _ => rfl) (hc a hq none) (fun i hs data hd => ?_)
  cases hd
  exact hc _ (hi i hs) _

theorem at_rootModel (W : World α) (cls : Nat) (rv : Dc.Revalidate) (v v' : Validator α α) (a : α) (h : At P v v' a)
    (hi : ∀ i x, (W.source cls a).inst? = some i → i.dict.get "root" = some x → At P v v' x) :
    At P (modelRun W cls (rootModelV W rv v)) (modelRun W cls (rootModelV W rv v')) a := by
  have hc : ∀ b, At P v v' b → ∀ ex (st : VState α), P st.guard →
      (rootModelV W rv v).construct b ex st = (rootModelV W rv v').construct b ex st ∧
        P ((rootModelV W rv v).construct b ex st).2.guard := by
    intro b hb ex st hp
    obtain ⟨k1, k2⟩ := at_rebind (fun x => { x with fieldName := some "root" }) st hb hp
    simp only [Cls.ModelV.construct, Cls.ModelV.attrs, Cls.ModelV.callPostInit, rootModelV]
    rw [← k1]
    generalize rebindExtra _ _ _ = r at k2
    obtain ⟨r, st1⟩ := r
    dsimp only at k2 ⊢
    cases r with
    | error e => exact ⟨rfl, k2⟩
    | ok o => exact ⟨rfl, k2⟩
  refine at_modelRun W cls _ _ a rfl (fun i _ => rfl) (hc a h none) (fun i hs data hd => ?_)
  simp only [Cls.ModelV.data, rootModelV] at hd
  cases hx : i.dict.get "root" with
  | none => rw [hx] at hd; cases hd
  | some x =>
    rw [hx] at hd
    cases hd
    exact hc _ (hi i _ hs hx) _

theorem All2.get? {R : α → α → Prop} : ∀ {xs ys : List α}, All2 R xs ys → ∀ i : Nat,
    (xs[i]? = none ∧ ys[i]? = none) ∨ ∃ x y, xs[i]? = some x ∧ ys[i]? = some y ∧ R x y := by
  intro xs ys h
  induction h with
  | nil => intro i; exact .inl ⟨rfl, rfl⟩
  | cons hr _ ih =>
    intro i
    cases i with
    | zero => exact .inr ⟨_, _, rfl, rfl, hr⟩
    | succ i => exact ih i

theorem at_tagged (W : World α) (cfg : TagCfg α) (vs vs' : List (Validator α α)) (a : α)
    (h : All2 (fun v v' => At P v v' a) vs vs') :
    At P (taggedV W cfg vs).validate (taggedV W cfg vs').validate a := by
  intro st hp
  simp only [Tagged.validate, taggedV]
  cases findTag W cfg.key (st.strictOr false) (st.extra.fromAttributes.getD cfg.fromAttributes) a with
  | error e => exact ⟨rfl, hp⟩
  | ok o =>
    cases o with
    | none => exact ⟨rfl, hp⟩
    | some tag =>
      dsimp only
      simp only [Tagged.findCallValidator]
      cases hx : cfg.index tag with
      | none =>
        dsimp only [Option.bind]
        cases cfg.customError <;> exact ⟨rfl, hp⟩
      | some x =>
        dsimp only [Option.bind]
        rcases h.get? x.2 with ⟨g1, g2⟩ | ⟨v, v', g1, g2, hv⟩
        · rw [g1, g2]
          dsimp only [Option.map]
          cases cfg.customError <;> exact ⟨rfl, hp⟩
        · rw [g1, g2]
          dsimp only [Option.map]
          obtain ⟨k1, k2⟩ := hv st hp
          rw [← k1]
          generalize v a st = r at k2
          obtain ⟨r, st1⟩ := r
          dsimp only at k2 ⊢
          cases r <;> exact ⟨rfl, k2⟩

theorem choices_at {Q : α → Prop} {a : α} (ha : Q a) : ∀ (vs vs' : List (Validator α α)),
    All2 (ItemAt P Q) (vs.map titem) (vs'.map titem) → All2 (fun v v' => At P v v' a) vs vs' := by
  intro vs
  induction vs with
  | nil => intro vs' h; cases vs' with
    | nil => exact .nil
    | cons y ys => cases h
  | cons x xs ih =>
    intro vs' h
    cases vs' with
    | nil => cases h
    | cons y ys =>
      cases h with
      | cons h1 h2 => exact .cons (h1.1 a ha) (ih ys h2)

end PC.Engine
