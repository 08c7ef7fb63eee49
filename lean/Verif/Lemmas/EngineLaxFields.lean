import Verif.Lemmas.EngineLax

/-
Typed dicts and models in two runs, the first one strict.
-/

namespace PC.Engine
open PC.Comb PC.Coll PC.Union PC.Fields PC.Lookup
variable {α : Type} {st1 st2 : VState α} {v1 v2 : Validator α α}

theorem R.rebind (h : R st1 st2) (F : Extra α → Extra α) (hF : ∀ x strict, F { x with strict := strict } = { F x with strict := strict }) :
    R ({ st1 with extra := F st1.extra } : VState α) { st2 with extra := F st2.extra } := by
  have hs : ∀ x : Extra α, (F x).strict = x.strict := by
    intro x
    exact (congrArg Extra.strict (hF x x.strict) :)
  refine ⟨by rw [hs]; exact h.strict, ?_, h.off1, h.off2, h.guard⟩
  dsimp only
  rw [h.extra, hF, hF]

/-- Two fields of which the second accepts what the first accepts in strict runs. -/
structure FieldSim (f1 f2 : Field α) : Prop where
  name : f2.name = f1.name
  keys : f2.keys = f1.keys
  required : f2.required = f1.required
  default : ∃ d, (∀ loc st, f1.dflt loc st = (.ok d, st)) ∧ ∀ loc st, f2.dflt loc st = (.ok d, st)
  sim : Sim f1.run f2.run

/-- The loops over fields: no errors, the same fields. -/
structure FRel (a1 a2 : FAcc α) : Prop where
  dict : a2.dict = a1.dict
  errs1 : a1.errs = []
  errs2 : a2.errs = []
  fieldsSet : a2.fieldsSet = a1.fieldsSet
  used : a2.used = a1.used
  st : R a1.st a2.st

theorem app_left {β : Type} {xs ys : List β} (h : xs ++ ys = []) : xs = [] := (List.append_eq_nil_iff.mp h).1
theorem app_right {β : Type} {xs ys : List β} (h : xs ++ ys = []) : ys = [] := (List.append_eq_nil_iff.mp h).2

/-! ### Typed dicts -/

theorem fieldStep_errs (t : TypedDict α) (view : DictView α) (a : α) (ba bn : Bool) (lk : Option LocItem)
    (sv : PartialMode) (f : Field α) (acc : FAcc α) (h : (t.fieldStep view a ba bn lk sv f acc).2.errs = []) :
    acc.errs = [] := by
  simp only [TypedDict.fieldStep] at h
  repeat' split at h
  all_goals first | exact h | exact app_left h

theorem fieldLoop_errs (t : TypedDict α) (view : DictView α) (a : α) (ba bn : Bool) (lk : Option LocItem)
    (sv : PartialMode) : ∀ (fs : List (Field α)) (acc : FAcc α),
    (t.fieldLoop view a ba bn lk sv fs acc).2.errs = [] → acc.errs = []
  | [], acc, h => h
  | f :: fs, acc, h => by
    simp only [TypedDict.fieldLoop] at h
    have hm := fieldStep_errs t view a ba bn lk sv f acc
    generalize t.fieldStep view a ba bn lk sv f acc = r at h hm
    obtain ⟨r, acc1⟩ := r
    cases r with
    | ok u => exact hm (fieldLoop_errs t view a ba bn lk sv fs acc1 h)
    | error e => exact hm h

theorem extraStep_errs (t : TypedDict α) (used : List String) (lk : Option LocItem) (sv : PartialMode) (k w : α)
    (acc : Fields.TAcc α) (h : (t.extraStep used lk sv k w acc).2.errs = []) : acc.errs = [] := by
  simp only [TypedDict.extraStep] at h
  repeat' split at h
  all_goals first | exact h | exact app_left h

theorem extraLoop_errs (t : TypedDict α) (used : List String) (lk : Option LocItem) (sv : PartialMode) :
    ∀ (es : List (ValResult α (α × α))) (acc : Fields.TAcc α), (t.extraLoop used lk sv es acc).2.errs = [] → acc.errs = []
  | [], acc, h => h
  | .error e :: _, acc, h => h
  | .ok (k, w) :: rest, acc, h => by
    simp only [TypedDict.extraLoop] at h
    have hm := extraStep_errs t used lk sv k w acc
    generalize t.extraStep used lk sv k w acc = r at h hm
    obtain ⟨r, acc1⟩ := r
    cases r with
    | ok u => exact hm (extraLoop_errs t used lk sv rest acc1 h)
    | error e => exact hm h

/-- Two typed dicts that differ in their validators only. -/
structure TdSame (t1 t2 : TypedDict α) : Prop where
  extra : t2.extra = t1.extra
  locByAlias : t2.locByAlias = t1.locByAlias
  byAlias : t2.byAlias = t1.byAlias
  byName : t2.byName = t1.byName
  asDict : t2.asDict = t1.asDict
  keyOps : t2.keyOps = t1.keyOps
  build : t2.build = t1.build

theorem sim_fieldStep {t1 t2 : TypedDict α} (ht : TdSame t1 t2) (view : DictView α) (a : α) (ba bn : Bool) {f1 f2 : Field α}
    (hf : FieldSim f1 f2) {a1 a2 : FAcc α} (hr : FRel a1 a2)
    (h1 : (t1.fieldStep view a ba bn none .off f1 a1).1 = .ok ())
    (h2 : (t1.fieldStep view a ba bn none .off f1 a1).2.errs = []) :
    (t2.fieldStep view a ba bn none .off f2 a2).1 = .ok () ∧
      FRel (t1.fieldStep view a ba bn none .off f1 a1).2 (t2.fieldStep view a ba bn none .off f2 a2).2 := by
  simp only [TypedDict.fieldStep] at h1 h2 ⊢
  rw [hf.name, hf.keys, hf.required, hr.dict, ht.locByAlias]
  cases hk : f1.keys.select ba bn with
  | error e => rw [hk] at h1; cases h1
  | ok key =>
    rw [hk] at h1 h2
    dsimp only at h1 h2 ⊢
    cases hg : view.get key with
    | error e =>
      rw [hg] at h1 h2
      cases e with
      | lineErrors ls =>
        dsimp only at h1 h2 ⊢
        rw [if_neg (by simp)]
        rw [if_neg (by simp)]
        exact ⟨rfl, hr⟩
      | internal e => cases h1
      | omitted => cases h1
      | useDefault => cases h1
    | ok o =>
      cases o with
      | none =>
        obtain ⟨d, hd1, hd2⟩ := hf.default
        rw [hg] at h1 h2
        dsimp only [rebindExtra] at h1 h2 ⊢
        rw [hd1] at h1 h2 ⊢
        rw [hd2]
        dsimp only at h1 h2 ⊢
        have hst : R ({ a1.st with extra := a1.st.extra } : VState α) { a2.st with extra := a2.st.extra } :=
          ⟨hr.st.strict, hr.st.extra, hr.st.off1, hr.st.off2, hr.st.guard⟩
        cases d with
        | some d =>
          dsimp only
          exact ⟨rfl, rfl, hr.errs1, hr.errs2, hr.fieldsSet, hr.used, hst⟩
        | none =>
          dsimp only at h1 h2 ⊢
          by_cases hq : f1.required = true
          · rw [if_pos hq] at h1 h2 ⊢
            rw [if_pos hq]
            have := app_right h2
            refine ⟨rfl, rfl, h2, ?_, hr.fieldsSet, hr.used, hst⟩
            dsimp only
            rw [this, hr.errs2]; rfl
          · rw [if_neg hq] at h1 h2 ⊢
            rw [if_neg hq]
            exact ⟨rfl, rfl, h2, hr.errs2, hr.fieldsSet, hr.used, hst⟩
      | some o =>
        obtain ⟨path, value⟩ := o
        rw [hg] at h1 h2
        simp only [rebindExtra, reduceCtorEq, decide_false, Bool.false_eq_true, if_false] at h1 h2 ⊢
        have hst := (hr.st.off).rebind (fun x => { x with data := some a1.dict, fieldName := some f1.name }) (fun _ _ => rfl)
        rcases hf.sim.at value hst with ⟨es, st1', hne, e1⟩ | ⟨e, st1', e1⟩ | ⟨y, st1', st2', e1, e2, hr'⟩
        · rw [e1] at h2
          dsimp only at h2
          rw [if_pos (by simp)] at h2
          exact absurd (List.map_eq_nil_iff.mp (app_right h2)) hne
        · rw [e1] at h1; cases h1
        · rw [e1] at h1 h2 ⊢
          rw [e2]
          dsimp only at h2 ⊢
          refine ⟨rfl, rfl, h2, hr.errs2, hr.fieldsSet, ?_, ?_⟩
          · dsimp only; rw [hr.used]
          · exact ⟨hr.st.strict, hr.st.extra, hr'.off1, hr'.off2, hr'.guard⟩

theorem sim_fieldLoop {t1 t2 : TypedDict α} (ht : TdSame t1 t2) (view : DictView α) (a : α) (ba bn : Bool) :
    ∀ (fs1 fs2 : List (Field α)) (a1 a2 : FAcc α), All2 FieldSim fs1 fs2 → FRel a1 a2 →
    (t1.fieldLoop view a ba bn none .off fs1 a1).1 = .ok () → (t1.fieldLoop view a ba bn none .off fs1 a1).2.errs = [] →
    (t2.fieldLoop view a ba bn none .off fs2 a2).1 = .ok () ∧
      FRel (t1.fieldLoop view a ba bn none .off fs1 a1).2 (t2.fieldLoop view a ba bn none .off fs2 a2).2
  | [], _, a1, a2, h, hr, h1, h2 => by cases h; exact ⟨rfl, hr⟩
  | f1 :: fs1, _, a1, a2, h, hr, h1, h2 => by
    cases h with
    | @cons _ f2 _ fs2 hf hfs =>
      simp only [TypedDict.fieldLoop] at h1 h2 ⊢
      have key := sim_fieldStep ht view a ba bn hf hr
      generalize t1.fieldStep view a ba bn none .off f1 a1 = r at h1 h2 key
      obtain ⟨r, acc1⟩ := r
      cases r with
      | error e => cases h1
      | ok u =>
        dsimp only at h1 h2 key ⊢
        obtain ⟨k1, k2⟩ := key rfl (fieldLoop_errs _ _ _ _ _ _ _ _ _ h2)
        rw [k1]
        exact sim_fieldLoop ht view a ba bn fs1 fs2 _ _ hfs k2 h1 h2

/-- The loops over extra items. -/
structure XRel (a1 a2 : Fields.TAcc α) : Prop where
  dict : a2.dict = a1.dict
  errs1 : a1.errs = []
  errs2 : a2.errs = []
  st : R a1.st a2.st

/-- Two validators of extra items. -/
def ExtrasSim : Option (Validator α α) → Option (Validator α α) → Prop
  | none, none => True
  | some v1, some v2 => Sim v1 v2
  | _, _ => False

theorem sim_extraStep {t1 t2 : TypedDict α} (ht : TdSame t1 t2) (hX : ExtrasSim t1.extrasV t2.extrasV) (used : List String)
    (k w : α) {a1 a2 : Fields.TAcc α} (hr : XRel a1 a2) (h1 : (t1.extraStep used none .off k w a1).1 = .ok ())
    (h2 : (t1.extraStep used none .off k w a1).2.errs = []) :
    (t2.extraStep used none .off k w a2).1 = .ok () ∧
      XRel (t1.extraStep used none .off k w a1).2 (t2.extraStep used none .off k w a2).2 := by
  simp only [TypedDict.extraStep] at h1 h2 ⊢
  rw [ht.keyOps, ht.extra, hr.dict]
  cases hs : t1.keyOps.str k with
  | error e =>
    rw [hs] at h1 h2
    cases e with
    | lineErrors ls =>
      dsimp only at h1 h2 ⊢
      have := app_right h2
      refine ⟨rfl, rfl, h2, ?_, hr.st⟩
      dsimp only
      rw [this, hr.errs2]; rfl
    | internal e => cases h1
    | omitted => cases h1
    | useDefault => cases h1
  | ok n =>
    rw [hs] at h1 h2
    dsimp only at h1 h2 ⊢
    by_cases hu : used.contains n = true
    · rw [if_pos hu, if_pos hu]
      exact ⟨rfl, hr⟩
    · rw [if_neg hu] at h1 h2 ⊢
      rw [if_neg hu]
      cases hx : t1.extra with
      | forbid =>
        rw [hx] at h2
        exact absurd (app_right h2) (List.cons_ne_nil _ _)
      | ignore => exact ⟨rfl, hr⟩
      | allow =>
        rw [hx] at h1 h2
        dsimp only at h1 h2 ⊢
        cases hv1 : t1.extrasV with
        | none =>
          cases hv2 : t2.extrasV with
          | some v => rw [hv1, hv2] at hX; exact hX.elim
          | none =>
            exact ⟨rfl, rfl, hr.errs1, hr.errs2, hr.st⟩
        | some v1 =>
          cases hv2 : t2.extrasV with
          | none => rw [hv1, hv2] at hX; exact hX.elim
          | some v2 =>
            rw [hv1, hv2] at hX
            rw [hv1] at h1 h2
            simp only [reduceCtorEq, decide_false, Bool.false_eq_true, if_false] at h1 h2 ⊢
            rcases Sim.at hX w hr.st.off with ⟨es, st1', hne, e1⟩ | ⟨e, st1', e1⟩ | ⟨y, st1', st2', e1, e2, hr'⟩
            · rw [e1] at h2
              dsimp only at h2
              rw [if_pos (by simp)] at h2
              exact absurd (List.map_eq_nil_iff.mp (app_right h2)) hne
            · rw [e1] at h1; cases h1
            · rw [e1] at h2 ⊢; rw [e2]
              exact ⟨rfl, rfl, h2, hr.errs2, hr'⟩

theorem sim_extraLoop {t1 t2 : TypedDict α} (ht : TdSame t1 t2) (hX : ExtrasSim t1.extrasV t2.extrasV) (used : List String) :
    ∀ (es : List (ValResult α (α × α))) (a1 a2 : Fields.TAcc α), XRel a1 a2 →
    (t1.extraLoop used none .off es a1).1 = .ok () → (t1.extraLoop used none .off es a1).2.errs = [] →
    (t2.extraLoop used none .off es a2).1 = .ok () ∧
      XRel (t1.extraLoop used none .off es a1).2 (t2.extraLoop used none .off es a2).2
  | [], a1, a2, hr, h1, h2 => ⟨rfl, hr⟩
  | .error e :: _, a1, a2, hr, h1, h2 => by cases h1
  | .ok (k, w) :: rest, a1, a2, hr, h1, h2 => by
    simp only [TypedDict.extraLoop] at h1 h2 ⊢
    have key := sim_extraStep ht hX used k w hr
    generalize t1.extraStep used none .off k w a1 = r at h1 h2 key
    obtain ⟨r, acc1⟩ := r
    cases r with
    | error e => cases h1
    | ok u =>
      dsimp only at h1 h2 key ⊢
      obtain ⟨k1, k2⟩ := key rfl (extraLoop_errs _ _ _ _ _ _ h2)
      rw [k1]
      exact sim_extraLoop ht hX used rest _ _ k2 h1 h2

theorem finish_ok {t : TypedDict α} {d : Dict α} {es : List (LineError α)} {st : VState α} {y : α}
    (h : (t.finish d es st).1 = .ok y) : es = [] ∧ y = t.build d := by
  simp only [TypedDict.finish] at h
  cases es with
  | nil => simp only [List.isEmpty_nil, if_true] at h; cases h; exact ⟨rfl, rfl⟩
  | cons e es => rw [if_neg (by simp)] at h; cases h

theorem finish_nil (t : TypedDict α) (d : Dict α) (st : VState α) : t.finish d [] st = (.ok (t.build d), st) := by
  simp [TypedDict.finish]

theorem sim_typedDict {t1 t2 : TypedDict α} (ht : TdSame t1 t2) (hf : All2 FieldSim t1.fields t2.fields)
    (hX : ExtrasSim t1.extrasV t2.extrasV)
    (hl : ∀ strict a view, t1.asDict true a = .ok view → t1.asDict strict a = .ok view) :
    ∀ a st1 st2, R st1 st2 → ∀ y, (t1.validate a st1).1 = .ok y →
      (t2.validate a st2).1 = .ok y ∧ R (t1.validate a st1).2 (t2.validate a st2).2 := by
  intro a st1 st2 hr y hy
  simp only [TypedDict.validate] at hy ⊢
  rw [ht.asDict, ht.byAlias, ht.byName, hr.byAlias, hr.byName, hr.off1, hr.off2]
  rw [hr.strictOr, hr.off1] at hy
  rw [hr.strictOr]
  cases hs : t1.asDict true a with
  | error e => rw [hs] at hy; cases hy
  | ok view =>
    rw [hs] at hy; rw [hl _ a view hs]
    dsimp only at hy ⊢
    rw [show (if PartialMode.off.isActive = true then view.lastKey else none) = (none : Option LocItem) from rfl] at hy ⊢
    have key := sim_fieldLoop ht view a (st1.validateByAliasOr t1.byAlias) (st1.validateByNameOr t1.byName) t1.fields
      t2.fields ⟨[], [], [], 0, [], st1⟩ ⟨[], [], [], 0, [], st2⟩ hf ⟨rfl, rfl, rfl, rfl, rfl, hr⟩
    generalize t1.fieldLoop view a _ _ none .off t1.fields _ = r at hy key
    obtain ⟨r, acc1⟩ := r
    simp only [TypedDict.afterFields] at hy ⊢
    cases r with
    | error e => cases hy
    | ok u =>
      dsimp only at hy key ⊢
      have fin : ∀ d1 es1 (s1 : VState α) d2 es2 (s2 : VState α), (t1.finish d1 es1 s1).1 = .ok y → d2 = d1 → es2 = [] → R s1 s2 →
          (t2.finish d2 es2 s2).1 = .ok y ∧ R (t1.finish d1 es1 s1).2 (t2.finish d2 es2 s2).2 := by
        intro d1 es1 s1 d2 es2 s2 h hd he hs
        obtain ⟨rfl, rfl⟩ := finish_ok h
        subst hd he
        rw [finish_nil, finish_nil, ht.build]
        exact ⟨rfl, hs⟩
      by_cases hi : t1.extra = .ignore ∨ view.isPyGetAttr = true
      · rw [if_pos hi] at hy ⊢
        obtain ⟨k1, k2⟩ := key rfl (finish_ok hy).1
        rw [k1]
        dsimp only
        rw [ht.extra, if_pos hi]
        exact fin _ _ _ _ _ _ hy k2.dict k2.errs2 (k2.st.addFieldsSet _ _)
      · rw [if_neg hi] at hy ⊢
        cases he : view.entries with
        | error e => rw [he] at hy; cases hy
        | ok es =>
          rw [he] at hy
          dsimp only at hy ⊢
          have key2 := fun a2 => sim_extraLoop ht hX acc1.used es ⟨acc1.dict, acc1.errs, acc1.st.addFieldsSet acc1.count⟩ a2
          have hmono := extraLoop_errs t1 acc1.used none .off es ⟨acc1.dict, acc1.errs, acc1.st.addFieldsSet acc1.count⟩
          generalize t1.extraLoop acc1.used none .off es _ = x at hy key2 hmono
          obtain ⟨x, xacc⟩ := x
          cases x with
          | error e => cases hy
          | ok u =>
            dsimp only at hy key2 hmono ⊢
            have hxe := (finish_ok hy).1
            obtain ⟨k1, k2⟩ := key rfl (hmono hxe)
            generalize t2.fieldLoop view a _ _ none .off t2.fields _ = r2 at k1 k2
            obtain ⟨r2, acc2⟩ := r2
            cases k1
            dsimp only at k2 ⊢
            rw [ht.extra, if_neg hi]
            rw [k2.used]
            obtain ⟨j1, j2⟩ := key2 ⟨acc2.dict, acc2.errs, acc2.st.addFieldsSet acc2.count⟩ ⟨k2.dict, k2.errs1, k2.errs2, k2.st.addFieldsSet _ _⟩ rfl hxe
            rw [j1]
            exact fin _ _ _ _ _ _ hy j2.dict j2.errs2 j2.st

/-! Outcomes of a typed dict. -/

/-- Not a request for omission or for the default, and not without errors. -/
def ErrOk : ValError α → Prop
  | .lineErrors es => es ≠ []
  | .internal _ => True
  | .omitted => False
  | .useDefault => False

theorem ErrOk.out {e : ValError α} (h : ErrOk e) {C : α → Prop} : Out C (fun _ _ => True) (.error e) := by
  match e, h with
  | .lineErrors es, h => exact ⟨h, fun _ _ => trivial⟩
  | .internal _, _ => trivial

theorem AtInput.errOk {a : α} {e : ValError α} (h : AtInput a e) : ErrOk e := by
  match e, h with
  | .lineErrors es, h => exact h.1
  | .internal _, _ => trivial

theorem Out.errOk {C : α → Prop} {L : List LocItem → α → Prop} {e : ValError α} (h : Out C L (.error e)) : ErrOk e := by
  match e, h with
  | .lineErrors es, h => exact h.1
  | .internal _, _ => trivial

theorem ends_extraStep (t : TypedDict α) (hX : ∀ v, t.extrasV = some v → Ends v) (hstr : StrOk t.keyOps) (used : List String)
    (k w : α) (acc : Fields.TAcc α) (hk : Keeps (some true) acc.st) :
    Keeps (some true) (t.extraStep used none .off k w acc).2.st ∧
      ∀ e, (t.extraStep used none .off k w acc).1 = .error e → ErrOk e := by
  simp only [TypedDict.extraStep]
  cases hs : t.keyOps.str k with
  | error e =>
    rcases hstr k e hs with ⟨x, rfl⟩ | ⟨es, rfl, h1, h2⟩
    · exact ⟨hk, fun e h => (by cases h; trivial)⟩
    · exact ⟨hk, fun e h => (by cases h)⟩
  | ok n =>
    dsimp only
    by_cases hu : used.contains n = true
    · rw [if_pos hu]; exact ⟨hk, fun e h => (by cases h)⟩
    · rw [if_neg hu]
      cases hx : t.extra with
      | forbid => exact ⟨hk, fun e h => (by cases h)⟩
      | ignore => exact ⟨hk, fun e h => (by cases h)⟩
      | allow =>
        dsimp only
        cases hv : t.extrasV with
        | none => exact ⟨hk, fun e h => (by cases h)⟩
        | some v =>
          simp only [reduceCtorEq, decide_false, Bool.false_eq_true, if_false]
          have hk0 : Keeps (some true) ({ acc.st with allowPartial := .off } : VState α) := ⟨hk.strict, rfl⟩
          obtain ⟨k1, o1⟩ := hX v hv w _ hk0
          generalize v w _ = r at k1 o1
          obtain ⟨r, s⟩ := r
          dsimp only at k1 o1 ⊢
          match r, o1 with
          | .ok y, _ => exact ⟨k1, fun e h => (by cases h)⟩
          | .error (.lineErrors es), _ =>
            dsimp only
            rw [if_pos (by simp)]
            exact ⟨k1, fun e h => (by cases h)⟩
          | .error (.internal e), _ => exact ⟨k1, fun e h => (by cases h; trivial)⟩

theorem ends_extraLoop (t : TypedDict α) (hX : ∀ v, t.extrasV = some v → Ends v) (hstr : StrOk t.keyOps) (used : List String) :
    ∀ (es : List (ValResult α (α × α))) (acc : Fields.TAcc α), (∀ e, .error e ∈ es → ErrOk e) → Keeps (some true) acc.st →
    Keeps (some true) (t.extraLoop used none .off es acc).2.st ∧
      ∀ e, (t.extraLoop used none .off es acc).1 = .error e → ErrOk e
  | [], acc, _, hk => ⟨hk, fun e h => (by cases h)⟩
  | .error e :: _, acc, h, hk => ⟨hk, fun e h' => (by cases h'; exact h e (by simp))⟩
  | .ok (k, w) :: rest, acc, h, hk => by
    simp only [TypedDict.extraLoop]
    obtain ⟨k1, o1⟩ := ends_extraStep t hX hstr used k w acc hk
    generalize t.extraStep used none .off k w acc = r at k1 o1
    obtain ⟨r, acc1⟩ := r
    cases r with
    | error e => exact ⟨k1, fun e' h' => (by cases h'; exact o1 e rfl)⟩
    | ok u => exact ends_extraLoop t hX hstr used rest acc1 (fun e he => h e (by simp [he])) k1

theorem ends_typedDict (t : TypedDict α) (ss : List (FieldSpec α)) (hfs : All2 (FieldPost (some true)) t.fields ss)
    (hX : ∀ v, t.extrasV = some v → Ends v) (hstr : StrOk t.keyOps)
    (hview : ∀ strict a view, t.asDict strict a = .ok view → ViewOk t.keyOps a view)
    (hnd : (ss.map FieldSpec.name).Nodup) (hkp : ∀ s ∈ ss, ∀ ba bn key, s.keys.select ba bn = .ok key → keyPaths key ≠ [])
    (herr : ∀ strict a e, t.asDict strict a = .error e → ErrOk e) : Ends t.validate := by
  intro a st hk
  simp only [TypedDict.validate]
  rw [hk.off]
  cases hs : t.asDict (st.strictOr t.strict) a with
  | error e => exact ⟨hk, (herr _ _ _ hs).out⟩
  | ok view =>
    have hv := hview _ _ _ hs
    dsimp only
    obtain ⟨k1, o1⟩ := post_fieldLoop t view a (st.validateByAliasOr t.byAlias) (st.validateByNameOr t.byName) hv.get
      (fun _ _ => True) t.fields ss [] ⟨[], [], [], 0, [], st⟩ hfs hnd (fun s h key => hkp s h _ _ key)
      (fun _ _ _ _ _ _ _ _ _ => trivial) (fun _ _ _ _ _ _ _ _ _ _ => trivial)
      hk (fun e h => (by cases h))
      ⟨fun _ => ⟨List.Sublist.refl _, fun n v h => (by cases h), fun f h => (by cases h)⟩, fun f h => (by cases h), fun f h => (by cases h)⟩
    rw [show (if PartialMode.off.isActive = true then view.lastKey else none) = (none : Option LocItem) from rfl]
    generalize t.fieldLoop view a _ _ none .off t.fields ⟨[], [], [], 0, [], st⟩ = r at k1 o1
    obtain ⟨r, acc⟩ := r
    simp only [TypedDict.afterFields]
    dsimp only at k1 o1
    have fin : ∀ d es (s : VState α), Keeps (some true) s → Keeps (some true) (t.finish d es s).2 ∧
        Out (fun _ => True) (fun _ _ => True) (t.finish d es s).1 := by
      intro d es s hk
      simp only [TypedDict.finish]
      cases es with
      | nil => exact ⟨hk, trivial⟩
      | cons e es => rw [if_neg (by simp)]; exact ⟨hk, List.cons_ne_nil _ _, fun _ _ => trivial⟩
    cases r with
    | error e => exact ⟨k1, Out.imp_error o1⟩
    | ok u =>
      have k2 : Keeps (some true) (acc.st.addFieldsSet acc.count) := ⟨k1.strict, k1.off⟩
      dsimp only
      split
      · exact fin _ _ _ k2
      · cases he : view.entries with
        | error e => exact ⟨k2, (hv.entriesErr e he).errOk.out⟩
        | ok es =>
          dsimp only
          obtain ⟨k3, o3⟩ := ends_extraLoop t hX hstr acc.used es ⟨acc.dict, acc.errs, acc.st.addFieldsSet acc.count⟩
            (fun e h => (hv.entryErr es e he h).errOk) k2
          generalize t.extraLoop acc.used none .off es _ = x at k3 o3
          obtain ⟨x, xacc⟩ := x
          cases x with
          | error e => exact ⟨k3, (o3 e rfl).out⟩
          | ok u => exact fin _ _ _ k3

/-! ### Models -/

theorem modelFieldStep_errs (t : ModelFields α) (view : DictView α) (a : α) (ba bn : Bool) (f : Field α) (acc : FAcc α)
    (h : (t.fieldStep view a ba bn f acc).2.errs = []) : acc.errs = [] := by
  simp only [ModelFields.fieldStep] at h
  repeat' split at h
  all_goals first | exact h | exact app_left h

theorem modelFieldLoop_errs (t : ModelFields α) (view : DictView α) (a : α) (ba bn : Bool) :
    ∀ (fs : List (Field α)) (acc : FAcc α), (t.fieldLoop view a ba bn fs acc).2.errs = [] → acc.errs = []
  | [], acc, h => h
  | f :: fs, acc, h => by
    simp only [ModelFields.fieldLoop] at h
    have hm := modelFieldStep_errs t view a ba bn f acc
    generalize t.fieldStep view a ba bn f acc = r at h hm
    obtain ⟨r, acc1⟩ := r
    cases r with
    | ok u => exact hm (modelFieldLoop_errs t view a ba bn fs acc1 h)
    | error e => exact hm h

/-- Two model-fields validators that differ in the validators of their fields only; extra items are not validated. -/
structure MfSame (t1 t2 : ModelFields α) : Prop where
  extra : t2.extra = t1.extra
  locByAlias : t2.locByAlias = t1.locByAlias
  byAlias : t2.byAlias = t1.byAlias
  byName : t2.byName = t1.byName
  fromAttributes : t2.fromAttributes = t1.fromAttributes
  asFields : t2.asFields = t1.asFields
  keyOps : t2.keyOps = t1.keyOps
  noV1 : t1.extrasV = none
  noV2 : t2.extrasV = none
  noKV1 : t1.extrasKeysV = none
  noKV2 : t2.extrasKeysV = none

theorem sim_modelFieldStep {t1 t2 : ModelFields α} (ht : MfSame t1 t2) (view : DictView α) (a : α) (ba bn : Bool)
    {f1 f2 : Field α} (hf : FieldSim f1 f2) {a1 a2 : FAcc α} (hr : FRel a1 a2)
    (h1 : (t1.fieldStep view a ba bn f1 a1).1 = .ok ()) (h2 : (t1.fieldStep view a ba bn f1 a1).2.errs = []) :
    (t2.fieldStep view a ba bn f2 a2).1 = .ok () ∧
      FRel (t1.fieldStep view a ba bn f1 a1).2 (t2.fieldStep view a ba bn f2 a2).2 := by
  simp only [ModelFields.fieldStep] at h1 h2 ⊢
  rw [hf.name, hf.keys, hr.dict, ht.locByAlias]
  cases hk : f1.keys.select ba bn with
  | error e => rw [hk] at h1; cases h1
  | ok key =>
    rw [hk] at h1 h2
    dsimp only at h1 h2 ⊢
    cases hg : view.get key with
    | error e =>
      rw [hg] at h1 h2
      cases e with
      | lineErrors ls =>
        dsimp only at h1 h2 ⊢
        have := app_right h2
        refine ⟨rfl, rfl, h2, ?_, hr.fieldsSet, hr.used, hr.st⟩
        dsimp only
        rw [this, hr.errs2]; rfl
      | internal e => cases h1
      | omitted => cases h1
      | useDefault => cases h1
    | ok o =>
      cases o with
      | none =>
        obtain ⟨d, hd1, hd2⟩ := hf.default
        rw [hg] at h1 h2
        dsimp only [rebindExtra] at h1 h2 ⊢
        rw [hd1] at h1 h2 ⊢
        rw [hd2]
        dsimp only at h1 h2 ⊢
        have hst : R ({ a1.st with extra := a1.st.extra } : VState α) { a2.st with extra := a2.st.extra } :=
          ⟨hr.st.strict, hr.st.extra, hr.st.off1, hr.st.off2, hr.st.guard⟩
        cases d with
        | some d =>
          dsimp only
          exact ⟨rfl, rfl, hr.errs1, hr.errs2, hr.fieldsSet, hr.used, hst⟩
        | none =>
          dsimp only at h1 h2 ⊢
          have := app_right h2
          refine ⟨rfl, rfl, h2, ?_, hr.fieldsSet, hr.used, hst⟩
          dsimp only
          rw [this, hr.errs2]; rfl
      | some o =>
        obtain ⟨path, value⟩ := o
        rw [hg] at h1 h2
        simp only [rebindExtra] at h1 h2 ⊢
        have hst := hr.st.rebind (fun x => { x with data := some a1.dict, fieldName := some f1.name }) (fun _ _ => rfl)
        rcases hf.sim.at value hst with ⟨es, st1', hne, e1⟩ | ⟨e, st1', e1⟩ | ⟨y, st1', st2', e1, e2, hr'⟩
        · rw [e1] at h2
          exact absurd (List.map_eq_nil_iff.mp (app_right h2)) hne
        · rw [e1] at h1; cases h1
        · rw [e1] at h1 h2 ⊢
          rw [e2]
          dsimp only at h2 ⊢
          refine ⟨rfl, rfl, h2, hr.errs2, ?_, ?_, ?_⟩
          · dsimp only; rw [hr.fieldsSet]
          · dsimp only; rw [hr.used]
          · exact ⟨hr.st.strict, hr.st.extra, hr'.off1, hr'.off2, hr'.guard⟩

theorem sim_modelFieldLoop {t1 t2 : ModelFields α} (ht : MfSame t1 t2) (view : DictView α) (a : α) (ba bn : Bool) :
    ∀ (fs1 fs2 : List (Field α)) (a1 a2 : FAcc α), All2 FieldSim fs1 fs2 → FRel a1 a2 →
    (t1.fieldLoop view a ba bn fs1 a1).1 = .ok () → (t1.fieldLoop view a ba bn fs1 a1).2.errs = [] →
    (t2.fieldLoop view a ba bn fs2 a2).1 = .ok () ∧
      FRel (t1.fieldLoop view a ba bn fs1 a1).2 (t2.fieldLoop view a ba bn fs2 a2).2
  | [], _, a1, a2, h, hr, h1, h2 => by cases h; exact ⟨rfl, hr⟩
  | f1 :: fs1, _, a1, a2, h, hr, h1, h2 => by
    cases h with
    | @cons _ f2 _ fs2 hf hfs =>
      simp only [ModelFields.fieldLoop] at h1 h2 ⊢
      have key := sim_modelFieldStep ht view a ba bn hf hr
      generalize t1.fieldStep view a ba bn f1 a1 = r at h1 h2 key
      obtain ⟨r, acc1⟩ := r
      cases r with
      | error e => cases h1
      | ok u =>
        dsimp only at h1 h2 key ⊢
        obtain ⟨k1, k2⟩ := key rfl (modelFieldLoop_errs _ _ _ _ _ _ _ h2)
        rw [k1]
        exact sim_modelFieldLoop ht view a ba bn fs1 fs2 _ _ hfs k2 h1 h2

theorem modelExtraStep_st {t : ModelFields α} (hv : t.extrasV = none) (hk : t.extrasKeysV = none) (used : List String)
    (k w : α) (acc : XAcc α) : (t.extraStep used k w acc).2.st = acc.st := by
  simp only [ModelFields.extraStep, ModelFields.extraKey, hv, hk]
  repeat' split
  all_goals rfl

/-- The step does not depend on the state: given another one, it leaves the same behind otherwise. -/
theorem modelExtraStep_same {t1 t2 : ModelFields α} (ht : MfSame t1 t2) (used : List String) (k w : α) (acc : XAcc α)
    (st2 : VState α) : t2.extraStep used k w { acc with st := st2 } =
      ((t1.extraStep used k w acc).1, { (t1.extraStep used k w acc).2 with st := st2 }) := by
  simp only [ModelFields.extraStep, ModelFields.extraKey, ht.noV1, ht.noV2, ht.noKV1, ht.noKV2, ht.extra, ht.keyOps]
  cases t1.keyOps.str k with
  | error e => cases e <;> rfl
  | ok n =>
    dsimp only
    by_cases hu : used.contains n = true
    · rw [if_pos hu, if_pos hu]
    · rw [if_neg hu, if_neg hu]
      cases t1.extra <;> rfl

theorem modelExtraLoop_same {t1 t2 : ModelFields α} (ht : MfSame t1 t2) (used : List String) :
    ∀ (es : List (ValResult α (α × α))) (acc : XAcc α) (st2 : VState α), t2.extraLoop used es { acc with st := st2 } =
      ((t1.extraLoop used es acc).1, { (t1.extraLoop used es acc).2 with st := st2 })
  | [], acc, st2 => rfl
  | .error e :: _, acc, st2 => rfl
  | .ok (k, w) :: rest, acc, st2 => by
    simp only [ModelFields.extraLoop]
    rw [modelExtraStep_same ht]
    generalize t1.extraStep used k w acc = r
    obtain ⟨r, acc1⟩ := r
    cases r with
    | error e => rfl
    | ok u => exact modelExtraLoop_same ht used rest acc1 st2

theorem modelExtraLoop_st {t : ModelFields α} (hv : t.extrasV = none) (hk : t.extrasKeysV = none) (used : List String) :
    ∀ (es : List (ValResult α (α × α))) (acc : XAcc α), (t.extraLoop used es acc).2.st = acc.st
  | [], acc => rfl
  | .error e :: _, acc => rfl
  | .ok (k, w) :: rest, acc => by
    simp only [ModelFields.extraLoop]
    have := modelExtraStep_st hv hk used k w acc
    generalize t.extraStep used k w acc = r at this
    obtain ⟨r, acc1⟩ := r
    cases r with
    | error e => exact this
    | ok u => exact (modelExtraLoop_st hv hk used rest acc1).trans this

theorem modelExtraStep_errs (t : ModelFields α) (hk : t.extrasKeysV = none) (used : List String) (k w : α) (acc : XAcc α)
    (h : (t.extraStep used k w acc).2.errs = []) : acc.errs = [] := by
  simp only [ModelFields.extraStep, ModelFields.extraKey, hk] at h
  repeat' split at h
  all_goals first | exact h | exact app_left h

theorem modelExtraLoop_errs (t : ModelFields α) (hk : t.extrasKeysV = none) (used : List String) :
    ∀ (es : List (ValResult α (α × α))) (acc : XAcc α), (t.extraLoop used es acc).2.errs = [] → acc.errs = []
  | [], acc, h => h
  | .error e :: _, acc, h => h
  | .ok (k, w) :: rest, acc, h => by
    simp only [ModelFields.extraLoop] at h
    have hm := modelExtraStep_errs t hk used k w acc
    generalize t.extraStep used k w acc = r at h hm
    obtain ⟨r, acc1⟩ := r
    cases r with
    | ok u => exact hm (modelExtraLoop_errs t hk used rest acc1 h)
    | error e => exact hm h

theorem modelFinish_ok {t : ModelFields α} {d : Dict α} {x : Option (Dict α)} {es : List (LineError α)} {fs : List String}
    {n : Nat} {st : VState α} {y : ModelOut α} (h : (t.finish d x es fs n st).1 = .ok y) : es = [] := by
  simp only [ModelFields.finish] at h
  cases es with
  | nil => rfl
  | cons e es => rw [if_neg (by simp)] at h; cases h

theorem sim_modelFields {t1 t2 : ModelFields α} (ht : MfSame t1 t2) (hf : All2 FieldSim t1.fields t2.fields)
    (hl : ∀ strict fa a view, t1.asFields true fa a = .ok view → t1.asFields strict fa a = .ok view) :
    ∀ a st1 st2, R st1 st2 → ∀ y, (t1.validate a st1).1 = .ok y →
      (t2.validate a st2).1 = .ok y ∧ R (t1.validate a st1).2 (t2.validate a st2).2 := by
  intro a st1 st2 hr0 y hy
  have hr : R ({ st1 with allowPartial := .ofBool false } : VState α) { st2 with allowPartial := .ofBool false } := hr0.off
  simp only [ModelFields.validate] at hy ⊢
  rw [hr0.fromAttributes, ht.fromAttributes]
  generalize st1.extra.fromAttributes.getD t1.fromAttributes = fa at hy ⊢
  generalize ({ st1 with allowPartial := .ofBool false } : VState α) = st1 at hr hy ⊢
  generalize ({ st2 with allowPartial := .ofBool false } : VState α) = st2 at hr ⊢
  rw [ht.asFields, ht.byAlias, ht.byName, hr.byAlias, hr.byName]
  rw [hr.strictOr] at hy ⊢
  cases hs : t1.asFields true fa a with
  | error e => rw [hs] at hy; cases hy
  | ok view =>
    rw [hs] at hy; rw [hl _ _ a view hs]
    dsimp only at hy ⊢
    have key := sim_modelFieldLoop ht view a (st1.validateByAliasOr t1.byAlias) (st1.validateByNameOr t1.byName) t1.fields
      t2.fields ⟨[], [], [], 0, [], st1⟩ ⟨[], [], [], 0, [], st2⟩ hf ⟨rfl, rfl, rfl, rfl, rfl, hr⟩
    generalize t1.fieldLoop view a _ _ t1.fields _ = r at hy key
    generalize t2.fieldLoop view a _ _ t2.fields _ = r2 at key
    obtain ⟨r, acc1⟩ := r
    obtain ⟨r2, acc2⟩ := r2
    simp only [ModelFields.afterFields] at hy ⊢
    cases r with
    | error e => cases hy
    | ok u =>
      dsimp only at hy key ⊢
      have fin : ∀ d x es fs n1 n2 (s1 s2 : VState α), (t1.finish d x es fs n1 s1).1 = .ok y → R s1 s2 →
          (t2.finish d x es fs n2 s2).1 = .ok y ∧ R (t1.finish d x es fs n1 s1).2 (t2.finish d x es fs n2 s2).2 := by
        intro d x es fs n1 n2 s1 s2 h hs
        have he := modelFinish_ok h
        subst he
        simp only [ModelFields.finish, List.isEmpty_nil, if_true, ht.extra] at h ⊢
        exact ⟨h, hs.addFieldsSet _ _⟩
      by_cases hi : t1.extra = .ignore ∨ view.isPyGetAttr = true
      · rw [if_pos hi] at hy ⊢
        have he := modelFinish_ok hy
        obtain ⟨k1, k2⟩ := key rfl he
        cases k1
        dsimp only
        rw [ht.extra, if_pos hi, k2.dict, k2.errs2, ← he, k2.fieldsSet]
        exact fin _ _ _ _ _ _ _ _ hy k2.st
      · rw [if_neg hi] at hy ⊢
        cases he : view.entries with
        | error e => rw [he] at hy; cases hy
        | ok es =>
          rw [he] at hy
          dsimp only at hy ⊢
          have hsame := modelExtraLoop_same ht acc1.used es ⟨[], acc1.errs, acc1.fieldsSet, acc1.st⟩ acc2.st
          have hst := modelExtraLoop_st ht.noV1 ht.noKV1 acc1.used es ⟨[], acc1.errs, acc1.fieldsSet, acc1.st⟩
          have hmono := modelExtraLoop_errs t1 ht.noKV1 acc1.used es ⟨[], acc1.errs, acc1.fieldsSet, acc1.st⟩
          generalize t1.extraLoop acc1.used es _ = x at hy hsame hst hmono
          obtain ⟨x, xacc⟩ := x
          cases x with
          | error e => cases hy
          | ok u =>
            dsimp only at hy hsame hst hmono ⊢
            obtain ⟨k1, k2⟩ := key rfl (hmono (modelFinish_ok hy))
            cases k1
            dsimp only
            rw [ht.extra, if_neg hi, k2.used, k2.errs2, ← k2.errs1, k2.fieldsSet, hsame]
            dsimp only
            rw [k2.dict]
            exact fin _ _ _ _ _ _ _ _ hy (hst ▸ k2.st)

end PC.Engine
