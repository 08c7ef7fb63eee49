import Verif.Lemmas.Count
import Verif.Props.Models
import Verif.Props.Union
import Verif.Props.DataclassInstance

/-
C98: how many fields a validation reports as set, which is what smart unions go by first.
-/

namespace PC.Count
open PC.Lookup PC.Fields PC.Args PC.Dc
variable {α : Type}

theorem some_of_add (st : VState α) (n : Nat) : (st.addFieldsSet n).fieldsSetCount = some (cnt st + n) := rfl

/-- **C98.**  A model that accepts its input reports the number of its fields that the input holds a value for, and on top of that what the
validators of its fields report.  Defaults and extra items do not count. -/
theorem model_count (m : ModelFields α) (input : α) (st : VState α) (view : DictView α) (hv : m.Reads input st view)
    (hr : ∀ key, view.get key ≠ .error (.lineErrors [])) (w : String → α → Nat) (wd : String → Nat)
    (hf : ∀ f ∈ m.fields, Counts f.run (w f.name) ∧ DefaultCounts f.dflt (wd f.name))
    (hx : ∀ v, m.extrasV = some v → Silent v) (hkx : ∀ v, m.extrasKeysV = some v → Silent v) (out : ModelOut α)
    (hok : (m.validate input st).1 = .ok out) :
    (m.validate input st).2.fieldsSetCount = some (cnt st +
      ownCount view.get (st.validateByAliasOr m.byAlias) (st.validateByNameOr m.byName) m.fields +
      nested view.get (st.validateByAliasOr m.byAlias) (st.validateByNameOr m.byName) w wd m.fields) := by
  have hv' : m.asFields (({ st with allowPartial := .ofBool false } : VState α).strictOr m.strict)
      (({ st with allowPartial := .ofBool false } : VState α).extra.fromAttributes.getD m.fromAttributes) input = .ok view := hv
  unfold ModelFields.validate at hok ⊢
  dsimp only at hok ⊢
  rw [hv'] at hok ⊢
  dsimp only at hok ⊢
  have hl := model_loop m view input (st.validateByAliasOr m.byAlias) (st.validateByNameOr m.byName) w wd hr m.fields hf
    ⟨[], [], [], 0, [], { st with allowPartial := .ofBool false }⟩
  change (m.afterFields view (m.fieldLoop view input (st.validateByAliasOr m.byAlias) (st.validateByNameOr m.byName) m.fields
    ⟨[], [], [], 0, [], { st with allowPartial := .ofBool false }⟩)).1 = _ at hok
  change (m.afterFields view (m.fieldLoop view input (st.validateByAliasOr m.byAlias) (st.validateByNameOr m.byName) m.fields
    ⟨[], [], [], 0, [], { st with allowPartial := .ofBool false }⟩)).2.fieldsSetCount = _
  generalize m.fieldLoop view input (st.validateByAliasOr m.byAlias) (st.validateByNameOr m.byName) m.fields
    ⟨[], [], [], 0, [], { st with allowPartial := .ofBool false }⟩ = r at hl hok ⊢
  unfold ModelFields.afterFields at hok ⊢
  cases hr1 : r.1 with
  | error e => rw [hr1] at hok; cases hok
  | ok u =>
    rw [hr1] at hok
    dsimp only at hok ⊢
    by_cases hig : m.extra = .ignore ∨ view.isPyGetAttr = true
    · rw [if_pos hig] at hok ⊢
      unfold ModelFields.finish at hok ⊢
      by_cases he : r.2.errs.isEmpty = true
      · rw [if_pos he]
        obtain ⟨-, h2, h3⟩ := hl hr1 (by simpa using he)
        dsimp only at h2 h3 ⊢
        rw [some_of_add, h2, h3]
        congr 1
        change cnt st + _ + _ = _
        omega
      · rw [if_neg he] at hok; cases hok
    · rw [if_neg hig] at hok ⊢
      cases hen : view.entries with
      | error e => rw [hen] at hok; cases hok
      | ok es =>
        rw [hen] at hok
        dsimp only at hok ⊢
        obtain ⟨h1, l, h2⟩ := model_extra_loop m hx hkx r.2.used es ⟨[], r.2.errs, r.2.fieldsSet, r.2.st⟩
        generalize m.extraLoop r.2.used es ⟨[], r.2.errs, r.2.fieldsSet, r.2.st⟩ = x at hok h1 h2 ⊢
        cases hx1 : x.1 with
        | error e => rw [hx1] at hok; cases hok
        | ok u =>
          rw [hx1] at hok
          dsimp only at hok h1 h2 ⊢
          unfold ModelFields.finish at hok ⊢
          by_cases he : x.2.errs.isEmpty = true
          · rw [if_pos he]
            have he' : r.2.errs = [] := by
              have : x.2.errs = [] := by simpa using he
              rw [h2, List.append_eq_nil_iff] at this
              exact this.1
            obtain ⟨-, h3, h4⟩ := hl hr1 he'
            dsimp only at h3 h4 ⊢
            have hc : cnt x.2.st = cnt r.2.st := by unfold cnt; rw [h1]
            rw [some_of_add, h3, hc, h4]
            congr 1
            change cnt st + _ + _ = _
            omega
          · rw [if_neg he] at hok; cases hok

/-- **C98.**  So does a typed dict, outside of partial mode. -/
theorem dict_count (t : TypedDict α) (input : α) (st : VState α) (view : DictView α) (hv : t.Reads input st view)
    (hp : st.allowPartial.isActive = false) (hr : ∀ key ls, view.get key ≠ .error (.lineErrors ls)) (w : String → α → Nat)
    (wd : String → Nat) (hf : ∀ f ∈ t.fields, Counts f.run (w f.name) ∧ DefaultCounts f.dflt (wd f.name))
    (hx : ∀ v, t.extrasV = some v → Silent v) (out : α) (hok : (t.validate input st).1 = .ok out) :
    (t.validate input st).2.fieldsSetCount = some (cnt st +
      ownCount view.get (st.validateByAliasOr t.byAlias) (st.validateByNameOr t.byName) t.fields +
      nested view.get (st.validateByAliasOr t.byAlias) (st.validateByNameOr t.byName) w wd t.fields) := by
  have hv' : t.asDict (st.strictOr t.strict) input = .ok view := hv
  unfold TypedDict.validate at hok ⊢
  rw [hv'] at hok ⊢
  simp only [hp, Bool.false_eq_true, if_false] at hok ⊢
  have hl := dict_loop t view input (st.validateByAliasOr t.byAlias) (st.validateByNameOr t.byName) st.allowPartial w wd hr t.fields hf
    ⟨[], [], [], 0, [], st⟩
  generalize t.fieldLoop view input (st.validateByAliasOr t.byAlias) (st.validateByNameOr t.byName) none st.allowPartial t.fields
    ⟨[], [], [], 0, [], st⟩ = r at hl hok ⊢
  unfold TypedDict.afterFields at hok ⊢
  cases hr1 : r.1 with
  | error e => rw [hr1] at hok; cases hok
  | ok u =>
    rw [hr1] at hok
    dsimp only at hok ⊢
    by_cases hig : t.extra = .ignore ∨ view.isPyGetAttr = true
    · rw [if_pos hig] at hok ⊢
      unfold TypedDict.finish at hok ⊢
      by_cases he : r.2.errs.isEmpty = true
      · rw [if_pos he]
        obtain ⟨-, h2, h3⟩ := hl hr1 (by simpa using he)
        dsimp only at h2 h3 ⊢
        rw [some_of_add, h2, h3]
        congr 1
        omega
      · rw [if_neg he] at hok; cases hok
    · rw [if_neg hig] at hok ⊢
      cases hen : view.entries with
      | error e => rw [hen] at hok; cases hok
      | ok es =>
        rw [hen] at hok
        dsimp only at hok ⊢
        obtain ⟨h1, l, h2⟩ := dict_extra_loop t hx r.2.used st.allowPartial es ⟨r.2.dict, r.2.errs, r.2.st.addFieldsSet r.2.count⟩
        generalize t.extraLoop r.2.used none st.allowPartial es ⟨r.2.dict, r.2.errs, r.2.st.addFieldsSet r.2.count⟩ = x at hok h1 h2 ⊢
        cases hx1 : x.1 with
        | error e => rw [hx1] at hok; cases hok
        | ok u =>
          rw [hx1] at hok
          dsimp only at hok h1 h2 ⊢
          unfold TypedDict.finish at hok ⊢
          by_cases he : x.2.errs.isEmpty = true
          · rw [if_pos he]
            have he' : r.2.errs = [] := by
              have : x.2.errs = [] := by simpa using he
              rw [h2, List.append_eq_nil_iff] at this
              exact this.1
            obtain ⟨-, h3, h4⟩ := hl hr1 he'
            dsimp only at h3 h4 ⊢
            rw [h1, some_of_add, h3, h4]
            congr 1
            omega
          · rw [if_neg he] at hok; cases hok

theorem argsPart_facts (d : DcArgs α) (view : ArgsView α) (acc : DAcc α) :
    (d.argsPart view acc).st = acc.st ∧ (d.argsPart view acc).count = acc.count ∧ ∃ l, (d.argsPart view acc).errs = acc.errs ++ l := by
  unfold DcArgs.argsPart
  cases view.args with
  | none => exact ⟨rfl, rfl, [], by simp⟩
  | some args =>
    dsimp only
    split
    · exact ⟨rfl, rfl, _, rfl⟩
    · exact ⟨rfl, rfl, [], by simp⟩

theorem run_count (d : DcArgs α) (input : α) (st : VState α) (view : ArgsView α)
    (w : String → α → Nat) (wd : String → Nat) (hasDefault : String → Bool)
    (hf : ∀ f ∈ d.fields, Counts f.run (w f.name) ∧ DefaultCounts f.dflt (wd f.name) ∧
      ∀ l st r, (f.dflt l st).1 = .ok r → r.isSome = hasDefault f.name)
    (hx : ∀ v, d.extrasV = some v → Silent v) (out : DcOut α) (hok : (d.run view input st).1 = .ok out) :
    (d.run view input st).2.fieldsSetCount = some (cnt st +
      dcOwn view (st.validateByAliasOr d.byAlias) (st.validateByNameOr d.byName) hasDefault 0 d.fields +
      dcNested view (st.validateByAliasOr d.byAlias) (st.validateByNameOr d.byName) w wd 0 d.fields) := by
  have hl := dc_loop d view input (st.validateByAliasOr d.byAlias) (st.validateByNameOr d.byName) w wd hasDefault d.fields hf 0
    ⟨[], [], [], [], 0, st⟩
  unfold DcArgs.run at hok ⊢
  dsimp only at hok ⊢
  generalize d.loop view input (st.validateByAliasOr d.byAlias) (st.validateByNameOr d.byName) 0 d.fields
    ⟨[], [], [], [], 0, st⟩ = r at hl hok ⊢
  cases hr1 : r.1 with
  | error e => rw [hr1] at hok; cases hok
  | ok u =>
    rw [hr1] at hok
    dsimp only at hok ⊢
    obtain ⟨a1, a2, l, a3⟩ := argsPart_facts d view r.2
    have hk : (d.kwPart view (d.argsPart view r.2)).2.st.fieldsSetCount = r.2.st.fieldsSetCount ∧
        (d.kwPart view (d.argsPart view r.2)).2.count = r.2.count ∧
        ∃ l, (d.kwPart view (d.argsPart view r.2)).2.errs = r.2.errs ++ l := by
      unfold DcArgs.kwPart
      cases view.kwargs with
      | none => exact ⟨by rw [a1], a2, l, a3⟩
      | some kw =>
        dsimp only
        split
        · obtain ⟨b1, b2, l', b3⟩ := dc_kwLoop d hx kw.entries (d.argsPart view r.2)
          exact ⟨by rw [b1, a1], b2.trans a2, l ++ l', by rw [b3, a3, List.append_assoc]⟩
        · exact ⟨by rw [a1], a2, l, a3⟩
    generalize d.kwPart view (d.argsPart view r.2) = x at hok hk ⊢
    obtain ⟨k1, k2, l', k3⟩ := hk
    cases hx1 : x.1 with
    | error e => rw [hx1] at hok; cases hok
    | ok u =>
      rw [hx1] at hok
      dsimp only at hok ⊢
      by_cases he : x.2.errs.isEmpty = true
      · rw [if_pos he]
        have he' : r.2.errs = [] := by
          have : x.2.errs = [] := by simpa using he
          rw [k3, List.append_eq_nil_iff] at this
          exact this.1
        obtain ⟨-, h3, h4⟩ := hl hr1 he'
        dsimp only at h3 h4 ⊢
        have hc : cnt x.2.st = cnt r.2.st := by unfold cnt; rw [k1]
        rw [some_of_add, k2, h3, hc, h4]
        congr 1
        omega
      · rw [if_neg he] at hok; cases hok

/-- **C98.**  A dataclass reports the number of its parameters that the call holds a value for, and on top of that what the validators of
its fields report; but fields that are not parameters count, too, if they have a default. -/
theorem dataclass_count (d : DcArgs α) (input : α) (st : VState α) (view : ArgsView α) (hv : d.asArgs input = .ok view)
    (w : String → α → Nat) (wd : String → Nat) (hasDefault : String → Bool)
    (hf : ∀ f ∈ d.fields, Counts f.run (w f.name) ∧ DefaultCounts f.dflt (wd f.name) ∧
      ∀ l st r, (f.dflt l st).1 = .ok r → r.isSome = hasDefault f.name)
    (hx : ∀ v, d.extrasV = some v → Silent v) (out : DcOut α) (hok : (d.validate input st).1 = .ok out) :
    (d.validate input st).2.fieldsSetCount = some (cnt st +
      dcOwn view (st.validateByAliasOr d.byAlias) (st.validateByNameOr d.byName) hasDefault 0 d.fields +
      dcNested view (st.validateByAliasOr d.byAlias) (st.validateByNameOr d.byName) w wd 0 d.fields) := by
  unfold DcArgs.validate at hok ⊢
  dsimp only at hok ⊢
  rw [hv] at hok ⊢
  exact run_count d input { st with allowPartial := .ofBool false } view w wd hasDefault hf hx out hok

/-! ### What smart unions do with it -/

/-- A model as a member of a union; `mk` makes an instance. -/
def member (mk : ModelOut α → α) (m : ModelFields α) : Union.Choice α :=
  ⟨"", none, fun x st => ((m.validate x st).1.map mk, (m.validate x st).2)⟩

/-- The attempt of a member is its validation in some state with the options of the call. -/
def IsAttempt (mk : ModelOut α → α) (input : α) (st : VState α) (m : ModelFields α) (a : Union.Attempt α) : Prop :=
  ∃ s, s.extra = st.extra ∧ s.fieldsSetCount = none ∧ a.outcome = (m.validate input s).1.map mk ∧
    a.fieldsSet = (m.validate input s).2.fieldsSetCount

theorem attempts_all (mk : ModelOut α → α) (input : α) (st : VState α) :
    ∀ (ms : List (ModelFields α)), (∀ m ∈ ms, ∀ s, s.extra = st.extra → (m.validate input s).2.extra = s.extra) → ∀ s, s.extra = st.extra →
      ∀ m' ∈ ms, ∃ x ∈ Union.attempts input (ms.map (member mk)) s, IsAttempt mk input st m' x := by
  intro ms
  induction ms with
  | nil => intro _ s _ m' hm'; cases hm'
  | cons m ms ih =>
    intro hk s hs m' hm'
    rcases List.mem_cons.1 hm' with rfl | hm'
    · exact ⟨_, List.mem_cons_self, Union.fresh s, hs, rfl, rfl, rfl⟩
    · obtain ⟨x, hx, h⟩ := ih (fun m hm => hk m (List.mem_cons_of_mem _ hm)) (m.validate input (Union.fresh s)).2
        ((hk m List.mem_cons_self (Union.fresh s) hs).trans hs) m' hm'
      exact ⟨x, List.mem_cons_of_mem _ hx, h⟩

theorem attempts_split (mk : ModelOut α → α) (input : α) (st : VState α) :
    ∀ (ms : List (ModelFields α)), (∀ m ∈ ms, ∀ s, s.extra = st.extra → (m.validate input s).2.extra = s.extra) → ∀ s, s.extra = st.extra →
      ∀ pre a post, Union.attempts input (ms.map (member mk)) s = pre ++ a :: post →
      ∃ mpre m mpost, ms = mpre ++ m :: mpost ∧ IsAttempt mk input st m a ∧
        (∀ m' ∈ mpre, ∃ x ∈ pre, IsAttempt mk input st m' x) ∧ ∀ m' ∈ mpost, ∃ x ∈ post, IsAttempt mk input st m' x := by
  intro ms
  induction ms with
  | nil => intro _ s _ pre a post h; cases pre <;> cases h
  | cons m ms ih =>
    intro hk s hs pre a post h
    have hk' : ∀ m ∈ ms, ∀ s, s.extra = st.extra → (m.validate input s).2.extra = s.extra := fun m hm => hk m (List.mem_cons_of_mem _ hm)
    have hs' : ((member mk m).run input (Union.fresh s)).2.extra = st.extra := (hk m List.mem_cons_self (Union.fresh s) hs).trans hs
    rw [List.map_cons, Union.attempts] at h
    cases pre with
    | nil =>
      cases h
      exact ⟨[], m, ms, rfl, ⟨Union.fresh s, hs, rfl, rfl, rfl⟩, fun _ h => (by cases h), attempts_all mk input st ms hk' _ hs'⟩
    | cons p pre =>
      rw [List.cons_append, List.cons.injEq] at h
      obtain ⟨rfl, h⟩ := h
      obtain ⟨mpre, m0, mpost, rfl, h1, h2, h3⟩ := ih hk' _ hs' pre a post h
      refine ⟨m :: mpre, m0, mpost, rfl, h1, fun m' hm' => ?_, h3⟩
      rcases List.mem_cons.1 hm' with rfl | hm'
      · exact ⟨_, List.mem_cons_self, Union.fresh s, hs, rfl, rfl, rfl⟩
      · obtain ⟨x, hx, hx'⟩ := h2 m' hm'
        exact ⟨x, List.mem_cons_of_mem _ hx, hx'⟩

/-- **C98.**  A smart union of models whose fields have no models in them, of which one at least accepts the input, gives an instance of
a model for which the input holds as many fields as for any other model that accepts it. -/
theorem smart_union_most_fields (ms : List (ModelFields α)) (mk : ModelOut α → α) (ce : Option ErrType) (input : α) (st : VState α)
    (view : ModelFields α → DictView α) (hv : ∀ m ∈ ms, m.Reads input st (view m))
    (hr : ∀ m ∈ ms, ∀ key, (view m).get key ≠ .error (.lineErrors []))
    (hf : ∀ m ∈ ms, ∀ f ∈ m.fields, Counts f.run (fun _ => 0) ∧ DefaultCounts f.dflt 0)
    (hx : ∀ m ∈ ms, (∀ v, m.extrasV = some v → Silent v) ∧ ∀ v, m.extrasKeysV = some v → Silent v)
    (hk : ∀ m ∈ ms, ∀ s, s.extra = st.extra → (m.validate input s).2.extra = s.extra)
    (hord : ∀ m ∈ ms, ∀ s, s.extra = st.extra → (∃ o, (m.validate input s).1 = .ok o) ∨ ∃ ls, (m.validate input s).1 = .error (.lineErrors ls))
    (hsome : ∃ m ∈ ms, ∀ s, s.extra = st.extra → ∃ o, (m.validate input s).1 = .ok o) :
    ∃ m ∈ ms, ∃ s out, s.extra = st.extra ∧ (m.validate input s).1 = .ok out ∧
      (Union.validateSmart (ms.map (member mk)) ce input st).1 = .ok (mk out) ∧
      ∀ m' ∈ ms, (∀ s, s.extra = st.extra → ∃ o, (m'.validate input s).1 = .ok o) →
        ownCount (view m').get (st.validateByAliasOr m'.byAlias) (st.validateByNameOr m'.byName) m'.fields ≤
          ownCount (view m).get (st.validateByAliasOr m.byAlias) (st.validateByNameOr m.byName) m.fields := by
  have hn0 : ∀ (get : LookupKey → ValResult α (Option (LookupPath × α))) (ba bn : Bool) (fs : List (Field α)),
      nested get ba bn (fun _ _ => 0) (fun _ => 0) fs = 0 := by
    intro get ba bn fs
    induction fs with
    | nil => rfl
    | cons f fs ih =>
      rw [nested_cons, ih]
      unfold nested1
      cases given get ba bn f.keys <;> rfl
  have hcount : ∀ m ∈ ms, ∀ s, s.extra = st.extra → s.fieldsSetCount = none → ∀ o, (m.validate input s).1 = .ok o →
      (m.validate input s).2.fieldsSetCount =
        some (ownCount (view m).get (st.validateByAliasOr m.byAlias) (st.validateByNameOr m.byName) m.fields) := by
    intro m hm s hs hn o ho
    have hv' : m.Reads input s (view m) := by
      have := hv m hm
      unfold ModelFields.Reads VState.strictOr at this ⊢
      rw [hs]
      exact this
    have h := model_count m input s (view m) hv' (hr m hm) (fun _ _ => 0) (fun _ => 0) (hf m hm) (hx m hm).1 (hx m hm).2 o ho
    rw [h, hn0]
    unfold cnt VState.validateByAliasOr VState.validateByNameOr
    rw [hs, hn]
    simp
  have hmem : ∀ a ∈ Union.attempts input (ms.map (member mk)) st, ∃ m ∈ ms, IsAttempt mk input st m a := by
    intro a ha
    obtain ⟨pre, post, h⟩ := List.append_of_mem ha
    obtain ⟨mpre, m, mpost, rfl, h1, -, -⟩ := attempts_split mk input st ms hk st rfl pre a post h
    exact ⟨m, by simp, h1⟩
  have hordA : ∀ a ∈ Union.attempts input (ms.map (member mk)) st, a.Ordinary := by
    intro a ha
    obtain ⟨m, hm, s, hs, -, h, -⟩ := hmem a ha
    unfold Union.Attempt.Ordinary
    rw [h]
    rcases hord m hm s hs with ⟨o, ho⟩ | ⟨ls, hls⟩
    · exact .inl ⟨mk o, by rw [ho]; rfl⟩
    · exact .inr ⟨ls, by rw [hls]; rfl⟩
  have hsucc : ∀ m ∈ ms, ∀ a, IsAttempt mk input st m a → a.Succeeds →
      a.fieldsSet = some (ownCount (view m).get (st.validateByAliasOr m.byAlias) (st.validateByNameOr m.byName) m.fields) := by
    rintro m hm a ⟨s, hs, hn, h1, h2⟩ ⟨v, hv⟩
    rw [h1] at hv
    cases ho : (m.validate input s).1 with
    | error e => rw [ho] at hv; cases hv
    | ok o => rw [h2]; exact hcount m hm s hs hn o ho
  have hyes : ∀ m a, IsAttempt mk input st m a → (∀ s, s.extra = st.extra → ∃ o, (m.validate input s).1 = .ok o) → a.Succeeds := by
    rintro m a ⟨s, hs, -, h1, -⟩ h
    obtain ⟨o, ho⟩ := h s hs
    exact ⟨mk o, by rw [h1, ho]; rfl⟩
  obtain ⟨pre, a, post, v, h1, h2, h3, h4, h5⟩ := Union.smart_union_best_partial (ms.map (member mk)) ce input st hordA
    (.inl fun a ha hs => by
      obtain ⟨m, hm, hA⟩ := hmem a ha
      rw [hsucc m hm a hA hs]
      exact fun h => by cases h)
    (by
      obtain ⟨m, hm, h⟩ := hsome
      obtain ⟨x, hx', hA⟩ := attempts_all mk input st ms hk st rfl m hm
      exact ⟨x, hx', hyes m x hA h⟩)
  obtain ⟨mpre, m, mpost, hms, hA, g2, g3⟩ := attempts_split mk input st ms hk st rfl pre a post h1
  have hm : m ∈ ms := by rw [hms]; simp
  have hAc := hsucc m hm a hA ⟨v, h2⟩
  obtain ⟨s, hs, hn, ho, hc⟩ := hA
  cases hout : (m.validate input s).1 with
  | error e => rw [hout] at ho; rw [ho] at h2; cases h2
  | ok out =>
    have hvo : v = mk out := by
      rw [hout] at ho
      rw [ho] at h2
      cases h2
      rfl
    refine ⟨m, hm, s, out, hs, hout, by rw [h3, hvo], fun m' hm' hacc => ?_⟩
    have hle : ∀ x, IsAttempt mk input st m' x → Union.NotAbove x.score a.score → 
        ownCount (view m').get (st.validateByAliasOr m'.byAlias) (st.validateByNameOr m'.byName) m'.fields ≤
          ownCount (view m).get (st.validateByAliasOr m.byAlias) (st.validateByNameOr m.byName) m.fields := by
      intro x hx' hna
      have hxc := hsucc m' hm' x hx' (hyes m' x hx' hacc)
      unfold Union.NotAbove Union.Below Union.Attempt.score at hna
      rw [hxc, hAc] at hna
      rcases hna with h | h | h
      · exact Nat.le_of_eq (Prod.mk.injEq .. ▸ h).1
      · exact Nat.le_of_lt h
      · exact Nat.le_of_eq h.1
    rw [hms] at hm'
    rcases List.mem_append.1 hm' with h | h
    · obtain ⟨x, hx', hA'⟩ := g2 m' h
      exact hle x hA' (.inr (h4 x hx' (hyes m' x hA' hacc)))
    · rcases List.mem_cons.1 h with rfl | h
      · exact Nat.le_refl _
      · obtain ⟨x, hx', hA'⟩ := g3 m' h
        exact hle x hA' (h5 x hx' (hyes m' x hA' hacc))

/-! ### Cases -/

namespace Demo
open PC.Fields.Demo

/-- Items found under plain names only. -/
def items (es : List (String × Nat)) : DictView V where
  get := fun key => .ok (match key with
    | .simple p => (Dict.get p.first es).map fun n => (p, .num n)
    | _ => none)
  isPyGetAttr := false
  entries := .ok (es.map fun kv => .ok (.str kv.1, .num kv.2))
  lastKey := none

/-- The items of a dict. -/
def asItems (v : V) : ValResult V (DictView V) :=
  match v with
  | .dict es => .ok (items es)
  | _ => .error (.new (.other "dict_type") v)

/-- An integer field below 100, with or without a default of 7. -/
def int (name : String) (opt : Bool) : Field V :=
  ⟨name, ⟨.simple ⟨name, []⟩, none, none⟩, num, if opt then seven else noDefault, false, !opt⟩

/-- A model of such fields. -/
def ints (fs : List (Field V)) : ModelFields V :=
  ⟨fs, .ignore, none, none, false, false, true, none, none, fun _ _ => asItems, keyOps⟩

theorem num_counts : Counts num (fun _ => 0) := by
  intro v st
  unfold num
  split
  · split
    · exact ⟨(fun h => by cases h), (fun h => by cases h), fun r _ => rfl⟩
    · exact ⟨(fun h => by cases h), (fun h => by cases h), fun r h => by cases h⟩
  · exact ⟨(fun h => by cases h), (fun h => by cases h), fun r h => by cases h⟩

theorem default_counts (opt : Bool) : DefaultCounts (if opt then seven else noDefault) 0 := by
  intro l st
  cases opt <;> exact ⟨(fun h => by cases h), (fun h => by cases h), fun r _ => rfl⟩

/-- A typed dict of such fields. -/
def dict (fs : List (Field V)) (extra : ExtraBehavior) : TypedDict V :=
  ⟨fs, extra, none, false, true, none, none, fun _ => asItems, keyOps, fun d => .dict (d.map fun kv => (kv.1, 0))⟩

end Demo

open Demo

/-- `model_count` applies: of `a`, `b`, `c` the input holds `a` and `c`. -/
example : ((ints [int "a" false, int "b" true, int "c" true]).validate (.dict [("a", 1), ("c", 2), ("z", 3)]) Fields.Demo.st).2.fieldsSetCount =
    some 2 :=
  model_count (ints [int "a" false, int "b" true, int "c" true]) (.dict [("a", 1), ("c", 2), ("z", 3)]) Fields.Demo.st
    (items [("a", 1), ("c", 2), ("z", 3)]) rfl (fun key h => by cases h) (fun _ _ => 0) (fun _ => 0)
    (fun f hf => by
      simp only [ints, List.mem_cons, List.not_mem_nil, or_false] at hf
      rcases hf with rfl | rfl | rfl <;> exact ⟨num_counts, default_counts _⟩)
    (fun v h => by cases h) (fun v h => by cases h) _ rfl

/-- `dict_count` applies. -/
example : ((dict [int "a" false, int "b" true, int "c" true] .ignore).validate (.dict [("a", 1), ("c", 2)]) Fields.Demo.st).2.fieldsSetCount =
    some 2 :=
  dict_count (dict [int "a" false, int "b" true, int "c" true] .ignore) (.dict [("a", 1), ("c", 2)]) Fields.Demo.st
    (items [("a", 1), ("c", 2)]) rfl rfl (fun key ls h => by cases h) (fun _ _ => 0) (fun _ => 0)
    (fun f hf => by
      simp only [dict, List.mem_cons, List.not_mem_nil, or_false] at hf
      rcases hf with rfl | rfl | rfl <;> exact ⟨num_counts, default_counts _⟩)
    (fun v h => by cases h) _ rfl

/-- `smart_union_most_fields` applies: `Union[A, B]` where `A` has `a`, `c` and `B` has `a`, `b`, given `a` and `b`. -/
example : ∃ m ∈ [ints [int "a" false, int "c" true], ints [int "a" false, int "b" true]], ∃ s out, s.extra = Fields.Demo.st.extra ∧
    (m.validate (.dict [("a", 1), ("b", 2)]) s).1 = .ok out ∧ 2 ≤ ownCount (items [("a", 1), ("b", 2)]).get true false m.fields := by
  have hf : ∀ f ∈ [int "a" false, int "c" true, int "b" true], Counts f.run (fun _ => 0) ∧ DefaultCounts f.dflt 0 := by
    intro f hf
    simp only [List.mem_cons, List.not_mem_nil, or_false] at hf
    rcases hf with rfl | rfl | rfl <;> exact ⟨num_counts, default_counts _⟩
  obtain ⟨m, hm, s, out, h1, h2, -, h4⟩ := smart_union_most_fields
    [ints [int "a" false, int "c" true], ints [int "a" false, int "b" true]] (fun _ => Fields.Demo.V.str "instance") none (.dict [("a", 1), ("b", 2)])
    Fields.Demo.st (fun _ => items [("a", 1), ("b", 2)])
    (fun m hm => by
      simp only [List.mem_cons, List.not_mem_nil, or_false] at hm
      rcases hm with rfl | rfl <;> rfl)
    (fun m _ key h => by cases h)
    (fun m hm f hf' => by
      simp only [List.mem_cons, List.not_mem_nil, or_false] at hm
      rcases hm with rfl | rfl <;> simp only [ints, List.mem_cons, List.not_mem_nil, or_false] at hf' <;>
        rcases hf' with rfl | rfl <;> exact hf _ (by simp))
    (fun m hm => by
      simp only [List.mem_cons, List.not_mem_nil, or_false] at hm
      rcases hm with rfl | rfl <;> exact ⟨(fun v h => by cases h), fun v h => by cases h⟩)
    (fun m hm s hs => by
      obtain ⟨g, e, n, p, x⟩ := s
      cases hs
      simp only [List.mem_cons, List.not_mem_nil, or_false] at hm
      rcases hm with rfl | rfl <;> rfl)
    (fun m hm s hs => by
      obtain ⟨g, e, n, p, x⟩ := s
      cases hs
      simp only [List.mem_cons, List.not_mem_nil, or_false] at hm
      rcases hm with rfl | rfl <;> exact .inl ⟨_, rfl⟩)
    ⟨_, List.mem_cons_self, fun s hs => by obtain ⟨g, e, n, p, x⟩ := s; cases hs; exact ⟨_, rfl⟩⟩
  exact ⟨m, hm, s, out, h1, h2, by
    have := h4 (ints [int "a" false, int "b" true]) (by simp) (fun s hs => by
      obtain ⟨g, e, n, p, x⟩ := s; cases hs; exact ⟨_, rfl⟩)
    simp only [List.mem_cons, List.not_mem_nil, or_false] at hm
    rcases hm with rfl | rfl <;> exact this⟩

/-- `dataclass_count` applies: a parameter that is given and one that is not. -/
example : ((dataclass [field "a" false true false (okV "") noDflt, field "b" false true false (okV "") (someDflt "d")] .ignore ["1"] []).validate
    "in" st0).2.fieldsSetCount = some 1 :=
  dataclass_count (dataclass [field "a" false true false (okV "") noDflt, field "b" false true false (okV "") (someDflt "d")] .ignore ["1"] [])
    "in" st0 _ rfl (fun _ _ => 0) (fun _ => 0) (fun n => n == "b")
    (fun f hf => by
      simp only [dataclass, List.mem_cons, List.not_mem_nil, or_false] at hf
      rcases hf with rfl | rfl <;>
        exact ⟨fun v st => ⟨(fun h => by cases h), (fun h => by cases h), fun r _ => rfl⟩,
          fun l st => ⟨(fun h => by cases h), (fun h => by cases h), fun r _ => rfl⟩, fun l st r h => by cases h; rfl⟩)
    (fun v h => by cases h) _ rfl

/-- **C98 fails** of fields of a dataclass that are not parameters: called without arguments, a class with one such field reports that
one field was set. -/
theorem noinit_default_counted :
    ((dataclass [field "a" false false false (okV "") (someDflt "d")] .ignore [] []).validate "in" st0).2.fieldsSetCount = some 1 := by
  rfl

/-- **C98 fails** of members of a left-to-right union that fail: the fields they set before they failed are reported along with those of
the member that accepts.  Here a typed dict that does not allow `b` comes before one that has no fields at all. -/
theorem failed_member_counted :
    let u := Union.validateLeftToRight [⟨"", none, (dict [int "a" false] .forbid).validate⟩, ⟨"", none, (dict [] .ignore).validate⟩] none
    (u (.dict [("a", 1), ("b", 2)]) Fields.Demo.st).1 = .ok (.dict []) ∧
    (u (.dict [("a", 1), ("b", 2)]) Fields.Demo.st).2.fieldsSetCount = some 1 := ⟨by rfl, by rfl⟩

end PC.Count
