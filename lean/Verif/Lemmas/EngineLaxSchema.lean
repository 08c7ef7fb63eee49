import Verif.Lemmas.EngineLaxFields

/-
The validator of a whole schema in two runs, the first one strict.
-/

namespace PC.Engine
open PC.Comb PC.Coll PC.Union PC.Fields PC.Lookup
variable {α : Type} {st1 st2 : VState α} {v1 v2 : Validator α α}

/-! ### Scalars and unions of scalars -/

theorem sim_leaf {l : Leaf α} (h : l.LaxExtends) : Sim l.validate l.validate := by
  refine ⟨post_leaf l (fun _ _ _ _ => trivial) (fun _ => trivial), fun a st1 st2 hr y hy => ?_⟩
  simp only [Leaf.validate] at hy ⊢
  rw [hr.strictOr] at hy ⊢
  cases hc : l.check true a with
  | error t => rw [hc] at hy; cases hy
  | ok o =>
    obtain ⟨v, ex⟩ := o
    obtain ⟨ex', h2⟩ := h (st2.strictOr l.strict) a v ex hc
    rw [hc] at hy; rw [h2]
    cases hy
    exact ⟨rfl, hr.floor _ _⟩

theorem Leaf.LaxMarked.extends {l : Leaf α} (h : l.LaxMarked) : l.LaxExtends := by
  intro strict a y ex hc
  cases strict with
  | true => exact ⟨ex, hc⟩
  | false => exact ⟨ex, (h.1 a y ex hc).2⟩

theorem leaf_ok {l : Leaf α} {a v : α} {ex : Exactness} (st : VState α) (h : l.check (st.strictOr l.strict) a = .ok (v, ex)) :
    l.validate a { st with exactness := some .exact, fieldsSetCount := none } =
      (.ok v, { st with exactness := some ex, fieldsSetCount := none }) := by
  have h' : l.check (({ st with exactness := some .exact, fieldsSetCount := none } : VState α).strictOr l.strict) a = .ok (v, ex) := h
  simp only [Leaf.validate, h']
  cases ex <;> rfl

theorem leaf_error {l : Leaf α} {a : α} {t : ErrType} (st : VState α) (h : l.check (st.strictOr l.strict) a = .error t) :
    l.validate a { st with exactness := some .exact, fieldsSetCount := none } =
      (.error (.new t a), { st with exactness := some .exact, fieldsSetCount := none }) := by
  have h' : l.check (({ st with exactness := some .exact, fieldsSetCount := none } : VState α).strictOr l.strict) a = .error t := h
  simp only [Leaf.validate, h']

/-- The best matches of the two runs: the same, or a lax one in the second run only. -/
def BestRel : Option (Best α) → Option (Best α) → Prop
  | some b, b2 => b.exactness ≠ .lax ∧ b.fieldsSet = none ∧ b2 = some b
  | none, some b => b.exactness = .lax ∧ b.fieldsSet = none
  | none, none => True

/-- What the loops of the two runs end with. -/
def LoopRel : LoopEnd α → LoopEnd α → Prop
  | .returned (.ok y) s1, r => ∃ s2, r = .returned (.ok y) s2 ∧ R s1 s2
  | .returned (.error _) _, _ => True
  | .finished (some b) _ s1, r => ∃ b' e s2, r = .finished (some b') e s2 ∧ b'.value = b.value ∧ R s1 s2
  | .finished none _ _, _ => True

theorem R.counts (h : R st1 st2) (e1 e2 : Option Exactness) (f1 f2 : Option Nat) :
    R ({ st1 with exactness := e1, fieldsSetCount := f1 } : VState α) { st2 with exactness := e2, fieldsSetCount := f2 } :=
  ⟨h.strict, h.extra, h.off1, h.off2, h.guard⟩

theorem sim_smartLoop (oE1 oE2 : Option Exactness) (oF1 oF2 : Option Nat) (a : α) :
    ∀ (cs : List (Choice α)), (∀ c ∈ cs, ∃ l : Leaf α, c.run = l.validate ∧ l.LaxMarked) →
    ∀ (b1 b2 : Option (Best α)) (e1 e2 : MaybeErrors α) (st1 st2 : VState α), BestRel b1 b2 → R st1 st2 →
    LoopRel (smartLoop oE1 oF1 a cs b1 e1 st1) (smartLoop oE2 oF2 a cs b2 e2 st2)
  | [], _, b1, b2, e1, e2, st1, st2, hb, hr => by
    simp only [smartLoop]
    cases b1 with
    | none => trivial
    | some b =>
      obtain ⟨_, _, rfl⟩ := hb
      exact ⟨b, e2, st2, rfl, rfl, hr⟩
  | c :: cs, hcs, b1, b2, e1, e2, st1, st2, hb, hr => by
    obtain ⟨l, hc, hm⟩ := hcs c (by simp)
    have ih := sim_smartLoop oE1 oE2 oF1 oF2 a cs (fun c h => hcs c (by simp [h]))
    simp only [smartLoop]
    rw [hc]
    cases h1 : l.check true a with
    | ok o =>
      obtain ⟨v, ex⟩ := o
      obtain ⟨hne, hlax⟩ := hm.1 a v ex h1
      have h2 : l.check (st2.strictOr l.strict) a = .ok (v, ex) := by
        cases st2.strictOr l.strict with
        | true => exact h1
        | false => exact hlax
      rw [leaf_ok st1 (by rw [hr.strictOr]; exact h1), leaf_ok st2 h2]
      dsimp only
      cases ex with
      | exact => exact ⟨_, rfl, hr.counts _ _ _ _⟩
      | lax => exact absurd rfl hne
      | strict =>
        dsimp only [Option.getD]
        cases b1 with
        | some b =>
          obtain ⟨g1, g2, rfl⟩ := hb
          split
          · exact ih _ _ _ _ _ _ ⟨hne, rfl, rfl⟩ (hr.counts _ _ _ _)
          · exact ih _ _ _ _ _ _ ⟨g1, g2, rfl⟩ (hr.counts _ _ _ _)
        | none =>
          have : isBetter b2 .strict none = true := by
            cases b2 with
            | none => rfl
            | some b =>
              obtain ⟨g1, g2⟩ := hb
              simp only [isBetter, g1, g2]
              rfl
          have h0 : isBetter (none : Option (Best α)) .strict none = true := rfl
          simp only [this, h0, if_true]
          exact ih (some _) _ _ _ _ _ ⟨hne, rfl, rfl⟩ (hr.counts _ _ _ _)
    | error t =>
      rw [leaf_error st1 (by rw [hr.strictOr]; exact h1)]
      dsimp only [ValError.new]
      cases h2 : l.check (st2.strictOr l.strict) a with
      | error t' =>
        rw [leaf_error st2 h2]
        exact ih _ _ _ _ _ _ hb (hr.counts _ _ _ _)
      | ok o =>
        obtain ⟨v, ex⟩ := o
        have hx : ex = .lax := by
          cases hs : st2.strictOr l.strict with
          | true => rw [hs, h1] at h2; cases h2
          | false => rw [hs] at h2; exact hm.2 a t v ex h1 h2
        subst hx
        rw [leaf_ok st2 h2]
        dsimp only [Option.getD]
        cases b1 with
        | some b =>
          obtain ⟨g1, g2, rfl⟩ := hb
          have : isBetter (some b) .lax none = false := by
            simp only [isBetter, g2]
            cases b.exactness <;> rfl
          simp only [this, Bool.false_eq_true, if_false]
          exact ih (some b) _ _ _ _ _ ⟨g1, g2, rfl⟩ (hr.counts _ _ _ _)
        | none =>
          by_cases hbt : isBetter b2 .lax none = true
          · simp only [hbt, if_true]
            exact ih none (some _) _ _ _ _ ⟨rfl, rfl⟩ (hr.counts _ _ _ _)
          · simp only [hbt]
            exact ih none b2 _ _ _ _ hb (hr.counts _ _ _ _)

theorem sim_smart (cs : List (Choice α)) (hcs : ∀ c ∈ cs, ∃ l : Leaf α, c.run = l.validate ∧ l.LaxMarked)
    (ce : Option ErrType) : ∀ a st1 st2, R st1 st2 → ∀ y, (validateSmart cs ce a st1).1 = .ok y →
      (validateSmart cs ce a st2).1 = .ok y ∧ R (validateSmart cs ce a st1).2 (validateSmart cs ce a st2).2 := by
  intro a st1 st2 hr y hy
  simp only [validateSmart] at hy ⊢
  have key := sim_smartLoop st1.exactness st2.exactness st1.fieldsSetCount st2.fieldsSetCount a cs hcs none none
    (.new ce) (.new ce) st1 st2 trivial hr
  generalize smartLoop st1.exactness st1.fieldsSetCount a cs none (.new ce) st1 = r1 at hy key
  generalize smartLoop st2.exactness st2.fieldsSetCount a cs none (.new ce) st2 = r2 at key
  match r1, key with
  | .returned (.ok z) s1, ⟨s2, h1, h2⟩ => subst h1; exact ⟨hy, h2⟩
  | .returned (.error e) s1, _ => cases hy
  | .finished none e s1, _ => cases hy
  | .finished (some b) e s1, ⟨b', e', s2, h1, h2, h3⟩ =>
    subst h1
    dsimp only at hy ⊢
    rw [h2]
    refine ⟨hy, ?_⟩
    have h4 := (h3.counts st1.exactness st2.exactness st1.fieldsSetCount st2.fieldsSetCount).floor b.exactness b'.exactness
    cases b.fieldsSet <;> cases b'.fieldsSet <;> exact ⟨h4.strict, h4.extra, h4.off1, h4.off2, h4.guard⟩

/-! ### Validators around validators -/

theorem sim_customError (t : ErrType) (h : Sim v1 v2) : Sim (customError t v1) (customError t v2) := by
  refine ⟨post_customError t h.ends (fun _ _ => trivial) (fun _ => trivial), fun a st1 st2 hr y hy => ?_⟩
  simp only [customError] at hy ⊢
  rcases h.at a hr with ⟨es, s1, hne, e1⟩ | ⟨e, s1, e1⟩ | ⟨z, s1, s2, e1, e2, hr'⟩
  · rw [e1] at hy; cases hy
  · rw [e1] at hy; cases hy
  · rw [e1] at hy ⊢; rw [e2]; exact ⟨hy, hr'⟩

theorem convert_out {f : PyFunc α} (hf : FunctionOk f) {x : Extra α} {a b : α} {e : PyExc α} (h : f x a = .error e)
    {C : α → Prop} : Out C (fun _ _ => True) (.error (convertErr e b)) := by
  have := hf.2 x a e h
  match e, this with
  | .customError t, _ => exact Out.new trivial
  | .knownError t, _ => exact Out.new trivial
  | .validationError ls, h => exact ⟨h, fun _ _ => trivial⟩
  | .valueError (.ok s), _ => exact Out.new trivial
  | .valueError (.error e), _ => trivial
  | .assertionError (.ok s), _ => exact Out.new trivial
  | .assertionError (.error e), _ => trivial
  | .other e, _ => trivial

theorem FunctionOk.same {f : PyFunc α} (hf : FunctionOk f) (hr : R st1 st2) (a : α) : f st2.extra a = f st1.extra a := by
  rw [hr.extra, hf.1]

theorem sim_before {f : PyFunc α} (hf : FunctionOk f) (h : Sim v1 v2) : Sim (functionBefore f v1) (functionBefore f v2) := by
  refine ⟨fun a st hk => ?_, fun a st1 st2 hr y hy => ?_⟩
  · simp only [functionBefore]
    cases he : f st.extra a with
    | error e => exact ⟨hk, convert_out hf he⟩
    | ok b => exact h.ends b st hk
  · simp only [functionBefore] at hy ⊢
    rw [hf.same hr]
    cases he : f st1.extra a with
    | error e => rw [he] at hy; cases hy
    | ok b => rw [he] at hy; exact h.ok b st1 st2 hr y hy

theorem sim_after {f : PyFunc α} (hf : FunctionOk f) (h : Sim v1 v2) : Sim (functionAfter f v1) (functionAfter f v2) := by
  refine ⟨fun a st hk => ?_, fun a st1 st2 hr y hy => ?_⟩
  · simp only [functionAfter]
    obtain ⟨k1, o1⟩ := h.ends a st hk
    generalize v1 a st = r at k1 o1
    obtain ⟨r, s⟩ := r
    cases r with
    | error e => exact ⟨k1, o1⟩
    | ok b =>
      dsimp only at k1 ⊢
      cases he : f s.extra b with
      | error e => exact ⟨k1, convert_out hf he⟩
      | ok w => exact ⟨k1, trivial⟩
  · simp only [functionAfter] at hy ⊢
    rcases h.at a hr with ⟨es, s1, hne, e1⟩ | ⟨e, s1, e1⟩ | ⟨z, s1, s2, e1, e2, hr'⟩
    · rw [e1] at hy; cases hy
    · rw [e1] at hy; cases hy
    · rw [e1] at hy ⊢
      rw [e2]
      dsimp only at hy ⊢
      rw [hf.same hr']
      cases he : f s1.extra z with
      | error e => rw [he] at hy; cases hy
      | ok w => rw [he] at hy; exact ⟨hy, hr'⟩

theorem sim_withDefault (d : Option α) (h : Sim v1 v2) : Sim (withDefault d v1) (withDefault d v2) := by
  refine ⟨post_withDefault d h.ends, fun a st1 st2 hr y hy => ?_⟩
  simp only [withDefault] at hy ⊢
  rcases h.at a hr with ⟨es, s1, hne, e1⟩ | ⟨e, s1, e1⟩ | ⟨z, s1, s2, e1, e2, hr'⟩
  · rw [e1] at hy; cases hy
  · rw [e1] at hy; cases hy
  · rw [e1] at hy ⊢; rw [e2]; exact ⟨hy, hr'⟩

theorem sim_definitionRef (E1 E2 : Env α) (hw : E2.world = E1.world) (hp : E2.platform = E1.platform)
    (hpanic : ∃ e, E1.panic = .error (.internal e)) (name : Nat) (h : Sim v1 v2) :
    Sim (definitionRef E1 name v1) (definitionRef E2 name v2) := by
  obtain ⟨e, hpe⟩ := hpanic
  refine ⟨post_definitionRef E1 name h.ends (fun _ _ => trivial) (fun _ _ _ _ => trivial) (fun _ => trivial)
    (fun a => by rw [hpe]; trivial), fun a st1 st2 hr y hy => ?_⟩
  simp only [definitionRef] at hy ⊢
  rw [hw, hp]
  have hr0 : R ({ st1 with allowPartial := .ofBool false } : VState α) { st2 with allowPartial := .ofBool false } := hr.off
  cases hid : E1.world.identity a with
  | none => rw [hid] at hy; exact h.ok a _ _ hr0 y hy
  | some id =>
    rw [hid] at hy
    dsimp only at hy ⊢
    rw [← hr.guard]
    generalize Guard.enter E1.platform st1.guard (id, name) = g at hy ⊢
    obtain ⟨g0, g⟩ := g
    cases g0 with
    | error e => cases hy
    | ok u =>
      dsimp only at hy ⊢
      have hr1 : R ({ st1 with allowPartial := .ofBool false, guard := g } : VState α)
          { st2 with allowPartial := .ofBool false, guard := g } := ⟨hr0.strict, hr0.extra, rfl, rfl, rfl⟩
      rcases h.at a hr1 with ⟨es, s1, hne, e1⟩ | ⟨e, s1, e1⟩ | ⟨z, s1, s2, e1, e2, hr'⟩
      · rw [e1] at hy
        dsimp only at hy
        cases hl : Guard.leave s1.guard (id, name) with
        | none => rw [hl, hpe] at hy; cases hy
        | some g' => rw [hl] at hy; cases hy
      · rw [e1] at hy
        dsimp only at hy
        cases hl : Guard.leave s1.guard (id, name) with
        | none => rw [hl, hpe] at hy; cases hy
        | some g' => rw [hl] at hy; cases hy
      · rw [e1] at hy ⊢
        rw [e2]
        dsimp only at hy ⊢
        rw [← hr'.guard]
        cases hl : Guard.leave s1.guard (id, name) with
        | none => rw [hl, hpe] at hy; cases hy
        | some g' => rw [hl] at hy; exact ⟨hy, hr'.strict, hr'.extra, hr'.off1, hr'.off2, rfl⟩

/-! ### Models -/

theorem sim_modelRun (W : World α) (cls : Nat) {m1 m2 : Cls.ModelV α} (hc1 : m1.customInit = none) (hc2 : m2.customInit = none)
    (hp1 : m1.postInit = none) (hp2 : m2.postInit = none) (hrv : m2.revalidate = m1.revalidate)
    (hd : ∀ i, m2.data i = m1.data i)
    (hnew : ∀ a ex st1 st2, R st1 st2 → ∀ i, (m1.attrs ⟨[], none, []⟩ a ex st1).1 = .ok i →
      (m2.attrs ⟨[], none, []⟩ a ex st2).1 = .ok i ∧
      R (m1.attrs ⟨[], none, []⟩ a ex st1).2 (m2.attrs ⟨[], none, []⟩ a ex st2).2) :
    ∀ a st1 st2, R st1 st2 → ∀ y, (modelRun W cls m1 a st1).1 = .ok y →
      (modelRun W cls m2 a st2).1 = .ok y ∧ R (modelRun W cls m1 a st1).2 (modelRun W cls m2 a st2).2 := by
  intro a st1 st2 hr y hy
  show (asObject W cls a (m2.validate (W.source cls a) a st2)).1 = .ok y ∧
    R (asObject W cls a (m1.validate (W.source cls a) a st1)).2 (asObject W cls a (m2.validate (W.source cls a) a st2)).2
  have hy : (asObject W cls a (m1.validate (W.source cls a) a st1)).1 = .ok y := hy
  have key : ∀ b ex (s1 s2 : VState α), R s1 s2 → (asObject W cls a (m1.construct b ex s1)).1 = .ok y →
      (asObject W cls a (m2.construct b ex s2)).1 = .ok y ∧
      R (asObject W cls a (m1.construct b ex s1)).2 (asObject W cls a (m2.construct b ex s2)).2 := by
    intro b ex s1 s2 hs h
    simp only [Cls.ModelV.construct, hc1, hc2, Option.bind, Cls.ModelV.callPostInit, hp1, hp2] at h ⊢
    have hn := hnew b ex s1 s2 hs
    generalize m1.attrs ⟨[], none, []⟩ b ex s1 = r1 at h hn
    obtain ⟨r1, t1⟩ := r1
    cases r1 with
    | error e => cases h
    | ok i =>
      obtain ⟨g1, g2⟩ := hn i rfl
      rw [g1]
      exact ⟨h, g2⟩
  have hrev : ∀ i, (asObject W cls a (m1.revalidateInstance i st1)).1 = .ok y →
      (asObject W cls a (m2.revalidateInstance i st2)).1 = .ok y ∧
      R (asObject W cls a (m1.revalidateInstance i st1)).2 (asObject W cls a (m2.revalidateInstance i st2)).2 := by
    intro i h
    simp only [Cls.ModelV.revalidateInstance, hd] at h ⊢
    cases hdi : m1.data i with
    | error e => rw [hdi] at h; cases h
    | ok data => rw [hdi] at h; exact key data _ st1 st2 hr h
  simp only [Cls.ModelV.validate, hrv] at hy ⊢
  cases hs : W.source cls a with
  | exact i =>
    rw [hs] at hy
    dsimp only at hy ⊢
    by_cases hsh : m1.revalidate.should true = true
    · rw [if_pos hsh] at hy ⊢; rw [if_pos hsh]; exact hrev i hy
    · rw [if_neg hsh] at hy ⊢; rw [if_neg hsh]; exact ⟨hy, hr⟩
  | subclass i =>
    rw [hs] at hy
    dsimp only at hy ⊢
    by_cases hsh : m1.revalidate.should false = true
    · rw [if_pos hsh] at hy ⊢; rw [if_pos hsh]; exact hrev i hy
    · rw [if_neg hsh] at hy ⊢; rw [if_neg hsh]; exact ⟨hy, hr⟩
  | genericOrigin i => rw [hs] at hy; exact hrev i hy
  | other => rw [hs] at hy; exact key a none _ _ (hr.floor _ _) hy

theorem sim_rootModel (W : World α) (cls : Nat) (rv : Dc.Revalidate) (h : Sim v1 v2) :
    Sim (modelRun W cls (rootModelV W rv v1)) (modelRun W cls (rootModelV W rv v2)) := by
  refine ⟨post_rootModel W cls rv h.ends (fun _ _ => trivial) (fun _ _ _ => trivial) (fun _ _ _ _ => trivial)
    (fun _ _ _ _ _ _ _ _ => trivial), sim_modelRun W cls rfl rfl rfl rfl rfl (fun _ => rfl) ?_⟩
  intro a ex st1 st2 hr i hi
  simp only [Cls.ModelV.attrs, rootModelV, rebindExtra] at hi ⊢
  rcases h.at a (hr.rebind (fun x => { x with fieldName := some "root" }) (fun _ _ => rfl)) with
    ⟨es, s1, hne, e1⟩ | ⟨e, s1, e1⟩ | ⟨z, s1, s2, e1, e2, hr'⟩
  · rw [e1] at hi; cases hi
  · rw [e1] at hi; cases hi
  · rw [e1] at hi ⊢
    rw [e2]
    exact ⟨hi, hr.strict, hr.extra, hr'.off1, hr'.off2, hr'.guard⟩

/-! ### Tagged unions -/

theorem all2_get {β γ : Type} {Q : β → γ → Prop} : ∀ {xs : List β} {ys : List γ}, All2 Q xs ys → ∀ (i : Nat) {x : β}, xs[i]? = some x →
    ∃ y, ys[i]? = some y ∧ Q x y
  | _, _, .nil, i, x, h => by cases i <;> cases h
  | _, _, .cons (a := a) (b := b) h1 h2, 0, x, h => by cases h; exact ⟨b, rfl, h1⟩
  | _, _, .cons h1 h2, i + 1, x, h => all2_get h2 i h

theorem findTag_lax {W : World α} (hl : StrictInLax W) {key : LookupKey} {fa : Bool} {a : α} {o : Option α} (strict : Bool)
    (h : findTag W key true fa a = .ok o) : findTag W key strict fa a = .ok o := by
  simp only [findTag] at h ⊢
  cases hv : W.asFields true fa a with
  | error e => rw [hv] at h; cases h
  | ok view => rw [hl.fields strict fa a view hv]; rw [hv] at h; exact h

theorem sim_tagged {W : World α} (hl : StrictInLax W) (cfg : TagCfg α) {vs ws : List (Validator α α)} (h : All2 Sim vs ws) :
    ∀ a st1 st2, R st1 st2 → ∀ y, ((taggedV W cfg vs).validate a st1).1 = .ok y →
      ((taggedV W cfg ws).validate a st2).1 = .ok y ∧
      R ((taggedV W cfg vs).validate a st1).2 ((taggedV W cfg ws).validate a st2).2 := by
  intro a st1 st2 hr y hy
  simp only [Tagged.validate, taggedV] at hy ⊢
  rw [hr.fromAttributes]
  rw [hr.strictOr] at hy ⊢
  cases hf : findTag W cfg.key true (st1.extra.fromAttributes.getD cfg.fromAttributes) a with
  | error e => rw [hf] at hy; cases hy
  | ok o =>
    rw [hf] at hy
    rw [findTag_lax hl _ hf]
    cases o with
    | none => cases hy
    | some tag =>
      dsimp only at hy ⊢
      simp only [Tagged.findCallValidator] at hy ⊢
      have miss : ∀ {P : Prop}, (match (none : Option (LocItem × Validator α α)) with
          | some (item, validator) =>
            match (validator a st1).1 with
            | .ok v => ((.ok v, (validator a st1).2) : ValResult α α × VState α)
            | .error e => (.error (e.withOuterLocation item), (validator a st1).2)
          | none =>
            match cfg.customError with
            | some t => (.error (ValError.new t a), st1)
            | none => (.error (ValError.new (.unionTagInvalid cfg.discriminatorRepr (cfg.tagString tag) cfg.tagsRepr) a), st1)).1
            = .ok y → P := by
        intro P h
        dsimp only at h
        cases hce : cfg.customError with
        | none => rw [hce] at h; cases h
        | some t => rw [hce] at h; cases h
      cases hx : cfg.index tag with
      | none =>
        rw [hx] at hy
        dsimp only [Option.bind] at hy
        split at hy <;> cases hy
      | some x =>
        obtain ⟨item, i⟩ := x
        rw [hx] at hy
        dsimp only [Option.bind] at hy ⊢
        cases hi : vs[i]? with
        | none =>
          rw [hi] at hy
          dsimp only [Option.map] at hy
          split at hy <;> cases hy
        | some v =>
          obtain ⟨w, hw, hs⟩ := all2_get h i hi
          rw [hi] at hy; rw [hw]
          dsimp only [Option.map] at hy ⊢
          rcases hs.at a hr with ⟨es, s1, hne, e1⟩ | ⟨e, s1, e1⟩ | ⟨z, s1, s2, e1, e2, hr'⟩
          · rw [e1] at hy; cases hy
          · rw [e1] at hy; cases hy
          · rw [e1] at hy ⊢; rw [e2]; exact ⟨hy, hr'⟩

/-! ### Whole schemas -/

/-- The conditions on each schema. -/
def laxOk (s : Schema α) : Prop := built s ∧ strictMeansLax s

/-- Specifications that say nothing. -/
def anyItems (vs : List (Validator α α)) : List (ItemSpec α) := vs.map fun _ => (fun _ => True, fun _ _ _ => True)

theorem all2_anyItems : ∀ {vs ws : List (Validator α α)}, All2 Sim vs ws → All2 (ItemPost (some true)) (vs.map titem) (anyItems vs)
  | _, _, .nil => .nil
  | _, _, .cons h hs => .cons ⟨h.ends, rfl⟩ (all2_anyItems hs)

theorem all2_titem : ∀ {vs ws : List (Validator α α)}, All2 Sim vs ws → All2 ItemSim (vs.map titem) (ws.map titem)
  | _, _, .nil => .nil
  | _, _, .cons h hs => .cons ⟨h, rfl⟩ (all2_titem hs)

/-- The fields, with nothing said about their outcomes. -/
def anyFields : FieldSchemas α → List (FieldSpec α)
  | .nil => []
  | .cons name keys required dflt _ rest => ⟨name, keys, required, dflt, fun _ => True, fun _ _ _ => True⟩ :: anyFields rest

theorem names_anyFields : ∀ {fs : FieldSchemas α}, (anyFields fs).map FieldSpec.name = fs.names
  | .nil => rfl
  | .cons n k r d s rest => by simp only [anyFields, List.map_cons, FieldSchemas.names, names_anyFields]

theorem mem_anyFields : ∀ {fs : FieldSchemas α} {c}, c ∈ anyFields fs → ∃ s, fs.Has c.name c.keys c.required c.dflt s
  | .nil, c, h => by cases h
  | .cons n k r d s rest, c, h => by
    rcases List.mem_cons.mp h with h | h
    · subst h; exact ⟨s, .inl ⟨rfl, rfl, rfl, rfl, rfl⟩⟩
    · obtain ⟨s', h1⟩ := mem_anyFields h
      exact ⟨s', .inr h1⟩

section
variable {W : World α} (p1 p2 : ValResult α α) (rs1 rs2 : Nat → Validator α α)

theorem members_leaf : ∀ (ms : Members α), ms.LaxMarked →
    buildMembers W p2 rs2 ms = buildMembers W p1 rs1 ms ∧
    (∀ c ∈ buildMembers W p1 rs1 ms, ∃ l : Leaf α, c.run = l.validate ∧ l.LaxMarked)
  | .nil, _ => by simp only [buildMembers]; exact ⟨trivial, fun c h => (by cases h)⟩
  | .cons n l s rest, h => by
    obtain ⟨⟨lf, rfl, hm⟩, hrest⟩ := h
    obtain ⟨i1, i2⟩ := members_leaf rest hrest
    simp only [buildMembers, build]
    refine ⟨by rw [i1], fun c hc => ?_⟩
    rcases List.mem_cons.mp hc with rfl | hc
    · exact ⟨lf, rfl, hm⟩
    · exact i2 c hc

theorem sim_union (ce : Option ErrType) (ms : Members α) (hne : ms ≠ .nil) (h : ms.LaxMarked) :
    Sim (validateSmart (buildMembers W p1 rs1 ms) ce) (validateSmart (buildMembers W p2 rs2 ms) ce) := by
  obtain ⟨h1, h2⟩ := members_leaf (W := W) p1 p2 rs1 rs2 ms h
  rw [h1]
  refine ⟨?_, sim_smart _ h2 ce⟩
  refine post_smart (m := some true) (C' := fun _ => True) (L' := fun _ _ _ => True) _
    ((buildMembers W p1 rs1 ms).map fun c => ⟨c.name, c.label, fun _ => True, fun _ _ _ => True⟩) ce ?_ ?_
    (fun _ _ _ _ => trivial) (fun _ _ => trivial) (fun _ _ _ _ _ _ _ => trivial)
  · generalize buildMembers W p1 rs1 ms = cs at h2
    induction cs with
    | nil => exact .nil
    | cons c cs ih =>
      obtain ⟨l, hc, hm⟩ := h2 c (by simp)
      refine .cons ⟨rfl, rfl, ?_⟩ (ih fun c hc => h2 c (by simp [hc]))
      rw [hc]
      exact (sim_leaf hm.extends).ends
  · left
    cases ms with
    | nil => exact absurd rfl hne
    | cons n l s rest => simp only [buildMembers]; exact List.cons_ne_nil _ _

theorem sim_typed (hW : W.Lawful) (hl : StrictInLax W) (cfg : TypedCfg) (fields : FieldSchemas α) {vs ws : List (Field α)}
    {x1 x2 : Option (Validator α α)} (hX : ExtrasSim x1 x2)
    (hb : fields.names.Nodup ∧ ∀ n k r d s, fields.Has n k r d s → ∀ ba bn key, k.select ba bn = .ok key → keyPaths key ≠ [])
    (hfs : All2 FieldSim vs ws) (hpost : All2 (FieldPost (some true)) vs (anyFields fields)) :
    Sim (typedDictV W cfg vs x1).validate (typedDictV W cfg ws x2).validate := by
  refine ⟨?_, sim_typedDict ⟨rfl, rfl, rfl, rfl, rfl, rfl, rfl⟩ hfs hX hl.view⟩
  refine ends_typedDict (typedDictV W cfg vs x1) (anyFields fields) hpost ?_ hW.strOk
    (fun _ a v h => (hW.views _ a v h).ok) (by rw [names_anyFields]; exact hb.1) ?_ (fun b a e h => (hW.view b a e h).errOk)
  · intro v hv
    have hv : x1 = some v := hv
    subst hv
    cases x2 with
    | none => exact hX.elim
    | some w => exact hX.ends
  · intro s hs
    obtain ⟨x, h1⟩ := mem_anyFields hs
    exact hb.2 _ _ _ _ _ h1

theorem sim_model (hW : W.Lawful) (hl : StrictInLax W) (cfg : ModelCfg) (fields : FieldSchemas α) {vs ws : List (Field α)}
    (hb : fields.names.Nodup ∧ ∀ n k r d s, fields.Has n k r d s → ∀ ba bn key, k.select ba bn = .ok key → keyPaths key ≠ [])
    (hfs : All2 FieldSim vs ws) (hpost : All2 (FieldPost (some true)) vs (anyFields fields)) :
    Sim (modelRun W cfg.cls (modelV W cfg vs)) (modelRun W cfg.cls (modelV W cfg ws)) := by
  have hp := post_modelFields (m := some true) (L' := fun _ _ _ => True) (modelFieldsV W cfg vs) rfl rfl
    (anyFields fields) hpost hW.strOk hW.fieldViews (by rw [names_anyFields]; exact hb.1) (by
      intro s hs
      obtain ⟨x, h1⟩ := mem_anyFields hs
      exact hb.2 _ _ _ _ _ h1) (fun a => trivial) hW.asFields
    (fun _ _ _ _ _ _ _ _ _ _ _ _ _ _ _ => trivial) (fun _ _ _ _ _ _ _ _ _ _ _ _ _ => trivial)
    (fun _ _ _ _ _ _ _ _ _ _ _ _ _ _ _ _ _ => trivial) (fun _ _ _ _ _ _ _ _ _ _ => trivial)
    (fun _ _ _ _ _ _ _ _ _ _ _ => trivial)
  have hs := sim_modelFields (t1 := modelFieldsV W cfg vs) (t2 := modelFieldsV W cfg ws)
    ⟨rfl, rfl, rfl, rfl, rfl, rfl, rfl, rfl, rfl, rfl, rfl⟩ hfs hl.fields
  refine ⟨?_, sim_modelRun W cfg.cls rfl rfl rfl rfl rfl (fun _ => rfl) ?_⟩
  · refine post_modelRun (L := fun _ _ _ => True) W cfg.cls _ rfl rfl (fun _ => True) (fun _ _ => trivial)
      (fun _ _ => trivial) ?_ (fun _ _ _ _ => trivial) (fun i e he => by cases he) (fun _ _ _ _ _ _ _ _ => trivial)
    intro a ex st hk
    obtain ⟨k1, o1⟩ := hp a st hk
    simp only [Cls.ModelV.attrs, modelV]
    generalize (modelFieldsV W cfg vs).validate a st = r at k1 o1
    obtain ⟨r, s⟩ := r
    cases r with
    | error e => exact ⟨k1, o1⟩
    | ok out => exact ⟨k1, trivial⟩
  · intro a ex st1 st2 hr i hi
    simp only [Cls.ModelV.attrs, modelV] at hi ⊢
    have h1 := hs a st1 st2 hr
    generalize (modelFieldsV W cfg vs).validate a st1 = r1 at hi h1
    obtain ⟨r1, s1⟩ := r1
    cases r1 with
    | error e => cases hi
    | ok out =>
      obtain ⟨g1, g2⟩ := h1 out rfl
      rw [g1]
      exact ⟨hi, g2⟩

mutual
theorem build_sim (hW : W.Lawful) (hl : StrictInLax W) (hr : ∀ name, Sim (rs1 name) (rs2 name)) :
    ∀ s : Schema α, s.All laxOk → Sim (build W p1 rs1 s) (build W p2 rs2 s)
  | .leaf l, h => by
    simp only [build]
    exact sim_leaf h.2
  | .nullable s, h => by
    simp only [build]
    have ih := build_sim hW hl hr s h.2
    exact ⟨post_nullable ih.ends trivial (fun _ _ => trivial) (fun _ _ _ _ => trivial), ih.nullable _ _⟩
  | .list strict mn mx ff item, h => by
    simp only [build]
    have ih := build_sim hW hl hr item h.2
    exact ⟨post_list ⟨strict, none, mn, mx, ff, W.asList, W.mkList⟩ _ ih.ends (fun _ _ _ _ => trivial) (fun _ => trivial)
        (fun b a e he => (hW.asList b a e he).errOk.out) (fun _ _ _ _ _ _ _ _ => trivial) (fun _ _ _ _ _ _ _ _ _ _ _ => trivial),
      sim_list ih ⟨strict, none, mn, mx, ff, W.asList, W.mkList⟩ hl.list⟩
  | .set ty strict mn mx ff item, h => by
    simp only [build]
    have ih := build_sim hW hl hr item h.2
    exact ⟨post_set ⟨strict, build W p1 rs1 item, mn, mx, ff, ty, W.hashing, W.asSet, W.mkSet⟩ _ ih.ends (fun _ => trivial)
        (fun _ _ _ _ _ => trivial) (fun _ => trivial)
        (fun b a e he => (hW.asSet b a e he).errOk.out) (fun _ _ _ _ _ _ _ _ => trivial) (fun _ _ _ _ _ _ _ _ _ _ _ => trivial),
      sim_set ih ⟨strict, build W p1 rs1 item, mn, mx, ff, ty, W.hashing, W.asSet, W.mkSet⟩ hl.set⟩
  | .dict strict mn mx key value, h => by
    simp only [build]
    have ihk := build_sim hW hl hr key h.2.1
    have ihv := build_sim hW hl hr value h.2.2
    exact ⟨post_dict ⟨strict, build W p1 rs1 key, build W p1 rs1 value, mn, mx, W.hashing, W.keyLoc, W.asDict, W.mkDict⟩ _ _
        ihk.ends ihv.ends (fun _ => trivial) (fun _ _ _ _ _ => trivial)
        (fun b a e he => (hW.asDict b a e he).errOk.out)
        (fun b a es e h1 h2 => (hW.dictEntry b a es e h1 h2).errOk.out)
        (fun _ _ _ _ _ _ _ _ _ _ => trivial) (fun _ _ _ _ _ _ _ _ _ _ => trivial),
      sim_dict ⟨strict, build W p1 rs1 key, build W p1 rs1 value, mn, mx, W.hashing, W.keyLoc, W.asDict, W.mkDict⟩ ihk ihv hl.dict⟩
  | .tuple strict mn mx ff head, h => by
    simp only [build]
    have ih := buildAll_sim hW hl hr head h.2
    refine ⟨post_tuple _ p1 (anyItems _) none (all2_anyItems ih) trivial (fun _ _ _ _ => trivial) (fun _ => trivial)
      (fun b a e he => (hW.asTuple b a e he).errOk.out) (fun _ _ _ _ _ _ _ => trivial) (fun _ _ _ _ _ _ _ _ => trivial)
      (fun _ _ _ _ _ _ _ _ _ _ _ _ _ => trivial) (fun _ _ h => (by cases h)) (fun _ _ _ h => (by cases h)), ?_⟩
    exact sim_tuple p1 p2 ⟨rfl, rfl, rfl, rfl, rfl, rfl⟩ (all2_titem ih) trivial hl.tuple
  | .tupleVar strict mn mx ff head variadic tail, h => by
    simp only [build]
    have ihh := buildAll_sim hW hl hr head h.2.1
    have ihv := build_sim hW hl hr variadic h.2.2.1
    have iht := buildAll_sim hW hl hr tail h.2.2.2
    refine ⟨post_tuple _ p1 (anyItems _) (some ((fun _ => True, fun _ _ _ => True), anyItems _)) (all2_anyItems ihh)
      ⟨⟨ihv.ends, rfl⟩, all2_anyItems iht⟩ (fun _ _ _ _ => trivial) (fun _ => trivial)
      (fun b a e he => (hW.asTuple b a e he).errOk.out) (fun _ _ _ _ _ _ _ => trivial) (fun _ _ _ _ _ _ _ _ => trivial)
      (fun _ _ _ _ _ _ _ _ _ _ _ _ _ => trivial) (fun _ _ _ _ _ _ _ _ _ _ _ _ _ _ => trivial)
      (fun _ _ _ _ _ _ _ => trivial), ?_⟩
    exact sim_tuple p1 p2 ⟨rfl, rfl, rfl, rfl, rfl, rfl⟩ (all2_titem ihh) ⟨⟨ihv, rfl⟩, all2_titem iht⟩ hl.tuple
  | .typedDict cfg fields, h => by
    simp only [build]
    obtain ⟨f1, f2⟩ := buildFields_sim hW hl hr fields h.2
    exact sim_typed hW hl cfg fields trivial h.1.1 f1 f2
  | .typedDictExtras cfg fields extras, h => by
    simp only [build]
    obtain ⟨f1, f2⟩ := buildFields_sim hW hl hr fields h.2.1
    exact sim_typed hW hl cfg fields (build_sim hW hl hr extras h.2.2) h.1.1 f1 f2
  | .union ltr ce members, h => by
    obtain ⟨rfl, h2⟩ := h.1.2
    simp only [build, Bool.false_eq_true, if_false]
    exact sim_union p1 p2 rs1 rs2 ce members h.1.1 h2
  | .tagged cfg choices, h => by
    simp only [build]
    have ih := buildAll_sim hW hl hr choices h.2
    exact ⟨post_tagged W hW cfg _ (anyItems _) (all2_anyItems ih) (fun _ => trivial) (fun _ _ _ _ => trivial)
      (fun _ _ _ _ _ _ _ _ _ _ _ _ _ => trivial), sim_tagged hl cfg ih⟩
  | .model cfg fields, h => by
    simp only [build]
    obtain ⟨f1, f2⟩ := buildFields_sim hW hl hr fields h.2
    exact sim_model hW hl cfg fields h.1.1 f1 f2
  | .rootModel cls rv root, h => by
    simp only [build]
    exact sim_rootModel W cls rv (build_sim hW hl hr root h.2)
  | .before f s, h => by
    simp only [build]
    exact sim_before h.1.2 (build_sim hW hl hr s h.2)
  | .after f s, h => by
    simp only [build]
    exact sim_after h.1.2 (build_sim hW hl hr s h.2)
  | .wrap f s, h => h.1.2.elim
  | .customError ty s, h => by
    simp only [build]
    exact sim_customError ty (build_sim hW hl hr s h.2)
  | .laxOrStrict strict lax strictS, h => h.1.2.elim
  | .ref name, _ => by
    simp only [build]
    exact hr name
theorem buildAll_sim (hW : W.Lawful) (hl : StrictInLax W) (hr : ∀ name, Sim (rs1 name) (rs2 name)) :
    ∀ ss : Schemas α, ss.All laxOk → All2 Sim (buildAll W p1 rs1 ss) (buildAll W p2 rs2 ss)
  | .nil, _ => by simp only [buildAll]; exact .nil
  | .cons s rest, h => by
    simp only [buildAll]
    exact .cons (build_sim hW hl hr s h.1) (buildAll_sim hW hl hr rest h.2)
theorem buildFields_sim (hW : W.Lawful) (hl : StrictInLax W) (hr : ∀ name, Sim (rs1 name) (rs2 name)) :
    ∀ ss : FieldSchemas α, ss.All laxOk → All2 FieldSim (buildFields W p1 rs1 ss) (buildFields W p2 rs2 ss) ∧
      All2 (FieldPost (some true)) (buildFields W p1 rs1 ss) (anyFields ss)
  | .nil, _ => by simp only [buildFields]; exact ⟨.nil, .nil⟩
  | .cons n k r d s rest, h => by
    simp only [buildFields]
    have ih := sim_withDefault d (build_sim hW hl hr s h.1)
    obtain ⟨i1, i2⟩ := buildFields_sim hW hl hr rest h.2
    exact ⟨.cons ⟨rfl, rfl, rfl, ⟨d, fun _ _ => rfl, fun _ _ => rfl⟩, ih⟩ i1, .cons ⟨rfl, rfl, rfl, rfl, ih.ends⟩ i2⟩
end

end

theorem refs_sim (E1 E2 : Env α) (hw : E2.world = E1.world) (hpl : E2.platform = E1.platform) (hd : E2.defs = E1.defs)
    (hW : E1.world.Lawful) (hl : StrictInLax E1.world) (hdefs : ∀ name, (E1.defs name).All laxOk)
    (hpanic : ∃ e, E1.panic = .error (.internal e)) (hfuel : ∃ e, E1.outOfFuel = fun _ _ st => (.error (.internal e), st)) :
    ∀ n name, Sim (refs E1 n name) (refs E2 n name) := by
  obtain ⟨W, pl, defs, f1, p1⟩ := E1
  obtain ⟨W2, pl2, defs2, f2, p2⟩ := E2
  dsimp only at *
  subst hw hpl hd
  intro n
  induction n with
  | zero =>
    intro name
    obtain ⟨e, rfl⟩ := hfuel
    exact ⟨fun a st hk => ⟨hk, trivial⟩, fun a st1 st2 hr y hy => by cases hy⟩
  | succ n ih =>
    intro name
    exact sim_definitionRef ⟨W2, pl2, defs2, f1, p1⟩ ⟨W2, pl2, defs2, f2, p2⟩ rfl rfl hpanic name (build_sim p1 p2 _ _ hW hl ih (defs2 name) (hdefs name))

theorem run_sim (E : Env α) (hW : E.world.Lawful) (hl : StrictInLax E.world) (hdefs : ∀ name, (E.defs name).All laxOk)
    (s : Schema α) (hs : s.All laxOk) (a y : α) (hr : R st1 st2) (N : Nat) (st1' : VState α)
    (h : EndsWith E N s a st1 (.ok y, st1')) (n : Nat) (f : Nat → Validator α α) (p : ValResult α α) (hn : N ≤ n) :
    (run { E with outOfFuel := f, panic := p } n s a st2).1 = .ok y := by
  have h1 := h n (fun _ _ st => (.error (.internal ⟨""⟩), st)) (.error (.internal ⟨""⟩)) hn
  have hsim := refs_sim { E with outOfFuel := fun _ _ st => (.error (.internal ⟨""⟩), st), panic := .error (.internal ⟨""⟩) }
    { E with outOfFuel := f, panic := p } rfl rfl rfl hW hl hdefs ⟨_, rfl⟩ ⟨_, rfl⟩ n
  have := (build_sim (.error (.internal ⟨""⟩)) p _ _ hW hl hsim s hs).ok a st1 st2 hr y
  simp only [run] at h1 ⊢
  exact (this (by rw [h1])).1

end PC.Engine
