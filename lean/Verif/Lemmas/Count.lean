import Verif.Spec.Count

namespace PC.Count
open PC.Lookup PC.Fields PC.Args PC.Dc
variable {α : Type}

theorem cnt_rebind {β : Type} (g : Extra α → Extra α) (body : VState α → β × VState α) (st : VState α) :
    cnt (rebindExtra g body st).2 = cnt (body { st with extra := g st.extra }).2 := rfl

theorem counts_rebind {run : Validator α α} {w : α → Nat} (h : Counts run w) (g : Extra α → Extra α) (v : α) (st : VState α) :
    (rebindExtra g (run v) st).1 ≠ .error .omitted ∧ (rebindExtra g (run v) st).1 ≠ .error (.lineErrors []) ∧
    ∀ r, (rebindExtra g (run v) st).1 = .ok r → cnt (rebindExtra g (run v) st).2 = cnt st + w v :=
  h v { st with extra := g st.extra }

theorem default_rebind {dflt : Option LocItem → VState α → ValResult α (Option α) × VState α} {w : Nat} (h : DefaultCounts dflt w)
    (g : Extra α → Extra α) (l : Option LocItem) (st : VState α) :
    (rebindExtra g (dflt l) st).1 ≠ .error .omitted ∧ (rebindExtra g (dflt l) st).1 ≠ .error (.lineErrors []) ∧
    ∀ r, (rebindExtra g (dflt l) st).1 = .ok r → cnt (rebindExtra g (dflt l) st).2 = cnt st + w :=
  h l { st with extra := g st.extra }

/-- What one field adds to the number of its model and what it reports itself. -/
def own1 (get : LookupKey → ValResult α (Option (LookupPath × α))) (byAlias byName : Bool) (f : Field α) : Nat :=
  if (given get byAlias byName f.keys).isSome then 1 else 0

def nested1 (get : LookupKey → ValResult α (Option (LookupPath × α))) (byAlias byName : Bool) (w : String → α → Nat)
    (wd : String → Nat) (f : Field α) : Nat :=
  match given get byAlias byName f.keys with
  | some v => w f.name v
  | none => wd f.name

theorem model_step (m : ModelFields α) (view : DictView α) (input : α) (ba bn : Bool) (f : Field α) (w : String → α → Nat)
    (wd : String → Nat) (hf : Counts f.run (w f.name)) (hd : DefaultCounts f.dflt (wd f.name))
    (hr : ∀ key, view.get key ≠ .error (.lineErrors [])) (acc : FAcc α)
    (hok : (m.fieldStep view input ba bn f acc).1 = .ok ()) (he : (m.fieldStep view input ba bn f acc).2.errs = []) :
    acc.errs = [] ∧ (m.fieldStep view input ba bn f acc).2.count = acc.count + own1 view.get ba bn f ∧
    cnt (m.fieldStep view input ba bn f acc).2.st = cnt acc.st + nested1 view.get ba bn w wd f := by
  unfold ModelFields.fieldStep at *
  cases hk : f.keys.select ba bn with
  | error e => rw [hk] at hok; cases hok
  | ok key =>
    rw [hk] at hok he
    dsimp only at hok he ⊢
    cases hg : view.get key with
    | error e =>
      rw [hg] at hok he
      cases e with
      | lineErrors ls =>
        dsimp only at he
        rw [List.append_eq_nil_iff, List.map_eq_nil_iff] at he
        rw [he.2] at hg
        exact absurd hg (hr key)
      | internal e => cases hok
      | omitted => cases hok
      | useDefault => cases hok
    | ok o =>
      rw [hg] at hok he
      cases o with
      | some pv =>
        obtain ⟨path, value⟩ := pv
        have hgv : given view.get ba bn f.keys = some value := by unfold given; rw [hk]; dsimp only; rw [hg]
        have ho : own1 view.get ba bn f = 1 := by unfold own1; rw [hgv]; rfl
        have hn : nested1 view.get ba bn w wd f = w f.name value := by unfold nested1; rw [hgv]
        rw [ho, hn]
        dsimp only at hok he ⊢
        have h := counts_rebind hf (fun x => { x with data := some acc.dict, fieldName := some f.name }) value acc.st
        cases hrun : (rebindExtra (fun x => { x with data := some acc.dict, fieldName := some f.name }) (f.run value) acc.st).1 with
        | ok v =>
          rw [hrun] at he
          exact ⟨he, rfl, h.2.2 v hrun⟩
        | error e =>
          rw [hrun] at hok he h
          cases e with
          | lineErrors ls =>
            dsimp only at he
            rw [List.append_eq_nil_iff, List.map_eq_nil_iff] at he
            rw [he.2] at h
            exact absurd rfl h.2.1
          | internal e => cases hok
          | omitted => exact absurd rfl h.1
          | useDefault => cases hok
      | none =>
        have hgv : given view.get ba bn f.keys = none := by unfold given; rw [hk]; dsimp only; rw [hg]
        have ho : own1 view.get ba bn f = 0 := by unfold own1; rw [hgv]; rfl
        have hn : nested1 view.get ba bn w wd f = wd f.name := by unfold nested1; rw [hgv]
        rw [ho, hn]
        dsimp only at hok he ⊢
        have h := default_rebind hd (fun x => { x with data := some acc.dict }) (some (.s f.name)) acc.st
        cases hrun : (rebindExtra (fun x => { x with data := some acc.dict }) (f.dflt (some (.s f.name))) acc.st).1 with
        | ok v =>
          rw [hrun] at he
          cases v with
          | some v => exact ⟨he, rfl, h.2.2 _ hrun⟩
          | none =>
            dsimp only at he
            rw [List.append_eq_nil_iff] at he
            exact ⟨he.1, rfl, h.2.2 _ hrun⟩
        | error e =>
          rw [hrun] at hok he h
          cases e with
          | lineErrors ls =>
            dsimp only at he
            rw [List.append_eq_nil_iff] at he
            rw [he.2] at h
            exact absurd rfl h.2.1
          | internal e => cases hok
          | omitted => exact absurd rfl h.1
          | useDefault => cases hok

theorem own_cons (get : LookupKey → ValResult α (Option (LookupPath × α))) (ba bn : Bool) (f : Field α) (fs : List (Field α)) :
    ownCount get ba bn (f :: fs) = own1 get ba bn f + ownCount get ba bn fs := by
  unfold ownCount own1
  rw [List.countP_cons, Nat.add_comm]

theorem nested_cons (get : LookupKey → ValResult α (Option (LookupPath × α))) (ba bn : Bool) (w : String → α → Nat)
    (wd : String → Nat) (f : Field α) (fs : List (Field α)) :
    nested get ba bn w wd (f :: fs) = nested1 get ba bn w wd f + nested get ba bn w wd fs := rfl

theorem model_loop (m : ModelFields α) (view : DictView α) (input : α) (ba bn : Bool) (w : String → α → Nat)
    (wd : String → Nat) (hr : ∀ key, view.get key ≠ .error (.lineErrors [])) :
    ∀ (fs : List (Field α)), (∀ f ∈ fs, Counts f.run (w f.name) ∧ DefaultCounts f.dflt (wd f.name)) → ∀ acc,
      (m.fieldLoop view input ba bn fs acc).1 = .ok () → (m.fieldLoop view input ba bn fs acc).2.errs = [] →
      acc.errs = [] ∧ (m.fieldLoop view input ba bn fs acc).2.count = acc.count + ownCount view.get ba bn fs ∧
      cnt (m.fieldLoop view input ba bn fs acc).2.st = cnt acc.st + nested view.get ba bn w wd fs
  | [], _, acc, _, he => ⟨he, rfl, rfl⟩
  | f :: fs, hfs, acc, hok, he => by
    unfold ModelFields.fieldLoop at hok he ⊢
    dsimp only at hok he ⊢
    cases hs : (m.fieldStep view input ba bn f acc).1 with
    | error e => rw [hs] at hok; cases hok
    | ok u =>
      rw [hs] at hok he
      dsimp only at hok he ⊢
      obtain ⟨h1, h2, h3⟩ := model_loop m view input ba bn w wd hr fs (fun g hg => hfs g (List.mem_cons_of_mem _ hg)) _ hok he
      obtain ⟨h4, h5, h6⟩ := model_step m view input ba bn f w wd (hfs f List.mem_cons_self).1 (hfs f List.mem_cons_self).2 hr acc hs h1
      refine ⟨h4, ?_, ?_⟩
      · rw [h2, h5, own_cons]; omega
      · rw [h3, h6, nested_cons]; omega

theorem model_extra_step (m : ModelFields α) (hx : ∀ v, m.extrasV = some v → Silent v) (hkx : ∀ v, m.extrasKeysV = some v → Silent v)
    (used : List String) (k v : α) (acc : XAcc α) :
    (m.extraStep used k v acc).2.st.fieldsSetCount = acc.st.fieldsSetCount ∧ ∃ es, (m.extraStep used k v acc).2.errs = acc.errs ++ es := by
  unfold ModelFields.extraStep
  cases m.keyOps.str k with
  | error e => cases e <;> exact ⟨rfl, by first | exact ⟨_, rfl⟩ | exact ⟨[], by simp⟩⟩
  | ok key =>
    dsimp only
    by_cases hu : used.contains key = true
    · rw [if_pos hu]; exact ⟨rfl, [], by simp⟩
    rw [if_neg hu]
    cases m.extra with
    | forbid => exact ⟨rfl, _, rfl⟩
    | ignore => exact ⟨rfl, [], by simp⟩
    | allow =>
      dsimp only
      have hkey : (m.extraKey k key acc).2.st.fieldsSetCount = acc.st.fieldsSetCount ∧ ∃ es, (m.extraKey k key acc).2.errs = acc.errs ++ es := by
        unfold ModelFields.extraKey
        cases hv : m.extrasKeysV with
        | none => exact ⟨rfl, [], by simp⟩
        | some u =>
          dsimp only
          cases hu : (u k acc.st).1 with
          | ok x =>
            dsimp only
            cases m.keyOps.downcast x <;> exact ⟨hkx u hv k acc.st, [], by simp⟩
          | error e => cases e <;> exact ⟨hkx u hv k acc.st, by first | exact ⟨_, rfl⟩ | exact ⟨[], by simp⟩⟩
      obtain ⟨h1, es, h2⟩ := hkey
      cases (m.extraKey k key acc).1 with
      | error e => exact ⟨h1, es, h2⟩
      | ok o =>
        cases o with
        | none => exact ⟨h1, es, h2⟩
        | some k' =>
          dsimp only
          cases hv : m.extrasV with
          | none => exact ⟨h1, es, h2⟩
          | some u =>
            dsimp only
            have h3 := (hx u hv v (m.extraKey k key acc).2.st).trans h1
            cases (u v (m.extraKey k key acc).2.st).1 with
            | ok x => exact ⟨h3, es, h2⟩
            | error e =>
              cases e with
              | lineErrors ls => exact ⟨h3, _, by dsimp only; rw [h2, List.append_assoc]⟩
              | internal e => exact ⟨h3, es, h2⟩
              | omitted => exact ⟨h3, es, h2⟩
              | useDefault => exact ⟨h3, es, h2⟩

theorem model_extra_loop (m : ModelFields α) (hx : ∀ v, m.extrasV = some v → Silent v)
    (hkx : ∀ v, m.extrasKeysV = some v → Silent v) (used : List String) :
    ∀ (es : List (ValResult α (α × α))) (acc : XAcc α),
      (m.extraLoop used es acc).2.st.fieldsSetCount = acc.st.fieldsSetCount ∧ ∃ l, (m.extraLoop used es acc).2.errs = acc.errs ++ l
  | [], acc => ⟨rfl, [], by simp [ModelFields.extraLoop]⟩
  | .error e :: _, acc => ⟨rfl, [], by simp [ModelFields.extraLoop]⟩
  | .ok (k, v) :: rest, acc => by
    unfold ModelFields.extraLoop
    dsimp only
    obtain ⟨h1, l1, h2⟩ := model_extra_step m hx hkx used k v acc
    cases (m.extraStep used k v acc).1 with
    | error e => exact ⟨h1, l1, h2⟩
    | ok u =>
      obtain ⟨h3, l2, h4⟩ := model_extra_loop m hx hkx used rest (m.extraStep used k v acc).2
      exact ⟨h3.trans h1, l1 ++ l2, by dsimp only; rw [h4, h2, List.append_assoc]⟩

theorem dict_step (t : TypedDict α) (view : DictView α) (input : α) (ba bn : Bool) (saved : PartialMode) (f : Field α)
    (w : String → α → Nat) (wd : String → Nat) (hf : Counts f.run (w f.name)) (hd : DefaultCounts f.dflt (wd f.name))
    (hr : ∀ key ls, view.get key ≠ .error (.lineErrors ls)) (acc : FAcc α)
    (hok : (t.fieldStep view input ba bn none saved f acc).1 = .ok ())
    (he : (t.fieldStep view input ba bn none saved f acc).2.errs = []) :
    acc.errs = [] ∧ (t.fieldStep view input ba bn none saved f acc).2.count = acc.count + own1 view.get ba bn f ∧
    cnt (t.fieldStep view input ba bn none saved f acc).2.st = cnt acc.st + nested1 view.get ba bn w wd f := by
  unfold TypedDict.fieldStep at *
  cases hk : f.keys.select ba bn with
  | error e => rw [hk] at hok; cases hok
  | ok key =>
    rw [hk] at hok he
    dsimp only at hok he ⊢
    cases hg : view.get key with
    | error e =>
      rw [hg] at hok he
      cases e with
      | lineErrors ls => exact absurd hg (hr key ls)
      | internal e => cases hok
      | omitted => cases hok
      | useDefault => cases hok
    | ok o =>
      rw [hg] at hok he
      cases o with
      | some pv =>
        obtain ⟨path, value⟩ := pv
        have hgv : given view.get ba bn f.keys = some value := by unfold given; rw [hk]; dsimp only; rw [hg]
        have ho : own1 view.get ba bn f = 1 := by unfold own1; rw [hgv]; rfl
        have hn : nested1 view.get ba bn w wd f = w f.name value := by unfold nested1; rw [hgv]
        rw [ho, hn]
        simp only [reduceCtorEq, decide_false, Bool.false_eq_true, if_false, Bool.not_false, Bool.true_or, if_true] at hok he ⊢
        have h := counts_rebind hf (fun x => { x with data := some acc.dict, fieldName := some f.name }) value
          { acc.st with allowPartial := .off }
        cases hrun : (rebindExtra (fun x => { x with data := some acc.dict, fieldName := some f.name }) (f.run value)
            { acc.st with allowPartial := .off }).1 with
        | ok v =>
          rw [hrun] at he
          exact ⟨he, rfl, h.2.2 v hrun⟩
        | error e =>
          rw [hrun] at hok he h
          cases e with
          | lineErrors ls =>
            dsimp only at he
            rw [List.append_eq_nil_iff, List.map_eq_nil_iff] at he
            rw [he.2] at h
            exact absurd rfl h.2.1
          | internal e => cases hok
          | omitted => exact absurd rfl h.1
          | useDefault => cases hok
      | none =>
        have hgv : given view.get ba bn f.keys = none := by unfold given; rw [hk]; dsimp only; rw [hg]
        have ho : own1 view.get ba bn f = 0 := by unfold own1; rw [hgv]; rfl
        have hn : nested1 view.get ba bn w wd f = wd f.name := by unfold nested1; rw [hgv]
        rw [ho, hn]
        dsimp only at hok he ⊢
        have h := default_rebind hd (fun x => { x with data := some acc.dict }) (some (.s f.name)) acc.st
        cases hrun : (rebindExtra (fun x => { x with data := some acc.dict }) (f.dflt (some (.s f.name))) acc.st).1 with
        | ok v =>
          rw [hrun] at he
          cases v with
          | some v => exact ⟨he, rfl, h.2.2 _ hrun⟩
          | none =>
            dsimp only at he ⊢
            by_cases hq : f.required = true
            · rw [if_pos hq] at he ⊢
              dsimp only at he
              rw [List.append_eq_nil_iff] at he
              exact ⟨he.1, rfl, h.2.2 _ hrun⟩
            · rw [if_neg hq] at he ⊢
              exact ⟨he, rfl, h.2.2 _ hrun⟩
        | error e =>
          rw [hrun] at hok he h
          cases e with
          | lineErrors ls =>
            dsimp only at he
            rw [List.append_eq_nil_iff] at he
            rw [he.2] at h
            exact absurd rfl h.2.1
          | internal e => cases hok
          | omitted => exact absurd rfl h.1
          | useDefault => cases hok

theorem dict_loop (t : TypedDict α) (view : DictView α) (input : α) (ba bn : Bool) (saved : PartialMode) (w : String → α → Nat)
    (wd : String → Nat) (hr : ∀ key ls, view.get key ≠ .error (.lineErrors ls)) :
    ∀ (fs : List (Field α)), (∀ f ∈ fs, Counts f.run (w f.name) ∧ DefaultCounts f.dflt (wd f.name)) → ∀ acc,
      (t.fieldLoop view input ba bn none saved fs acc).1 = .ok () → (t.fieldLoop view input ba bn none saved fs acc).2.errs = [] →
      acc.errs = [] ∧ (t.fieldLoop view input ba bn none saved fs acc).2.count = acc.count + ownCount view.get ba bn fs ∧
      cnt (t.fieldLoop view input ba bn none saved fs acc).2.st = cnt acc.st + nested view.get ba bn w wd fs
  | [], _, acc, _, he => ⟨he, rfl, rfl⟩
  | f :: fs, hfs, acc, hok, he => by
    unfold TypedDict.fieldLoop at hok he ⊢
    dsimp only at hok he ⊢
    cases hs : (t.fieldStep view input ba bn none saved f acc).1 with
    | error e => rw [hs] at hok; cases hok
    | ok u =>
      rw [hs] at hok he
      dsimp only at hok he ⊢
      obtain ⟨h1, h2, h3⟩ := dict_loop t view input ba bn saved w wd hr fs (fun g hg => hfs g (List.mem_cons_of_mem _ hg)) _ hok he
      obtain ⟨h4, h5, h6⟩ :=
        dict_step t view input ba bn saved f w wd (hfs f List.mem_cons_self).1 (hfs f List.mem_cons_self).2 hr acc hs h1
      refine ⟨h4, ?_, ?_⟩
      · rw [h2, h5, own_cons]; omega
      · rw [h3, h6, nested_cons]; omega

theorem dict_extra_step (t : TypedDict α) (hx : ∀ v, t.extrasV = some v → Silent v) (used : List String) (saved : PartialMode)
    (k v : α) (acc : TAcc α) :
    (t.extraStep used none saved k v acc).2.st.fieldsSetCount = acc.st.fieldsSetCount ∧
    ∃ es, (t.extraStep used none saved k v acc).2.errs = acc.errs ++ es := by
  unfold TypedDict.extraStep
  cases t.keyOps.str k with
  | error e => cases e <;> exact ⟨rfl, by first | exact ⟨_, rfl⟩ | exact ⟨[], by simp⟩⟩
  | ok key =>
    dsimp only
    by_cases hu : used.contains key = true
    · rw [if_pos hu]; exact ⟨rfl, [], by simp⟩
    rw [if_neg hu]
    cases t.extra with
    | forbid => exact ⟨rfl, _, rfl⟩
    | ignore => exact ⟨rfl, [], by simp⟩
    | allow =>
      dsimp only
      cases hv : t.extrasV with
      | none => exact ⟨rfl, [], by simp⟩
      | some u =>
        simp only [reduceCtorEq, decide_false, Bool.false_eq_true, if_false, Bool.not_false, if_true]
        have h3 := hx u hv v { acc.st with allowPartial := .off }
        cases (u v { acc.st with allowPartial := .off }).1 with
        | ok x => exact ⟨h3, [], by simp⟩
        | error e => cases e <;> exact ⟨h3, by first | exact ⟨_, rfl⟩ | exact ⟨[], by simp⟩⟩

theorem dict_extra_loop (t : TypedDict α) (hx : ∀ v, t.extrasV = some v → Silent v) (used : List String) (saved : PartialMode) :
    ∀ (es : List (ValResult α (α × α))) (acc : TAcc α),
      (t.extraLoop used none saved es acc).2.st.fieldsSetCount = acc.st.fieldsSetCount ∧
      ∃ l, (t.extraLoop used none saved es acc).2.errs = acc.errs ++ l
  | [], acc => ⟨rfl, [], by simp [TypedDict.extraLoop]⟩
  | .error e :: _, acc => ⟨rfl, [], by simp [TypedDict.extraLoop]⟩
  | .ok (k, v) :: rest, acc => by
    unfold TypedDict.extraLoop
    dsimp only
    obtain ⟨h1, l1, h2⟩ := dict_extra_step t hx used saved k v acc
    cases (t.extraStep used none saved k v acc).1 with
    | error e => exact ⟨h1, l1, h2⟩
    | ok u =>
      obtain ⟨h3, l2, h4⟩ := dict_extra_loop t hx used saved rest (t.extraStep used none saved k v acc).2
      exact ⟨h3.trans h1, l1 ++ l2, by dsimp only; rw [h4, h2, List.append_assoc]⟩

/-! ### Dataclasses -/

theorem setItem_facts (acc : DAcc α) (f : DcField α) (v : α) :
    (acc.setItem f v).errs = acc.errs ∧ (acc.setItem f v).count = acc.count ∧ (acc.setItem f v).st = acc.st := by
  unfold DAcc.setItem
  split <;> exact ⟨rfl, rfl, rfl⟩

def dcOwn1 (view : ArgsView α) (ba bn : Bool) (hasDefault : String → Bool) (i : Nat) (f : DcField α) : Nat :=
  if (if f.init then (dcGiven view ba bn i f).isSome else hasDefault f.name) then 1 else 0

def dcNested1 (view : ArgsView α) (ba bn : Bool) (w : String → α → Nat) (wd : String → Nat) (i : Nat) (f : DcField α) : Nat :=
  match (if f.init then dcGiven view ba bn i f else none) with
  | some v => w f.name v
  | none => wd f.name

theorem dc_step (d : DcArgs α) (view : ArgsView α) (input : α) (ba bn : Bool) (i : Nat) (f : DcField α) (w : String → α → Nat)
    (wd : String → Nat) (hasDefault : String → Bool) (hf : Counts f.run (w f.name)) (hd : DefaultCounts f.dflt (wd f.name))
    (hh : ∀ l st r, (f.dflt l st).1 = .ok r → r.isSome = hasDefault f.name) (acc : DAcc α)
    (hok : (d.step view input ba bn i f acc).1 = .ok ()) (he : (d.step view input ba bn i f acc).2.errs = []) :
    acc.errs = [] ∧ (d.step view input ba bn i f acc).2.count = acc.count + dcOwn1 view ba bn hasDefault i f ∧
    cnt (d.step view input ba bn i f acc).2.st = cnt acc.st + dcNested1 view ba bn w wd i f := by
  unfold DcArgs.step at *
  cases hi : f.init with
  | false =>
    have ho : dcOwn1 view ba bn hasDefault i f = if hasDefault f.name then 1 else 0 := by unfold dcOwn1; simp [hi]
    have hn : dcNested1 view ba bn w wd i f = wd f.name := by unfold dcNested1; simp [hi]
    rw [ho, hn]
    simp only [hi, Bool.false_eq_true, if_false] at hok he ⊢
    unfold noInitStep at *
    dsimp only at hok he ⊢
    have h := default_rebind hd (fun x => { x with data := some acc.dict }) (some (.s f.name)) acc.st
    have hs := fun r (hr : (rebindExtra (fun x => { x with data := some acc.dict }) (f.dflt (some (.s f.name))) acc.st).1 = .ok r) =>
      hh _ _ _ hr
    cases hrun : (rebindExtra (fun x => { x with data := some acc.dict }) (f.dflt (some (.s f.name))) acc.st).1 with
    | ok v =>
      rw [hrun] at he
      rw [← hs v hrun]
      cases v with
      | some v =>
        dsimp only at he ⊢
        obtain ⟨h1, h2, h3⟩ := setItem_facts
          { acc with st := (rebindExtra (fun x => { x with data := some acc.dict }) (f.dflt (some (.s f.name))) acc.st).2 } f v
        rw [h1] at he
        rw [h2, h3]
        exact ⟨he, rfl, h.2.2 _ hrun⟩
      | none => exact ⟨he, rfl, h.2.2 _ hrun⟩
    | error e =>
      rw [hrun] at hok he h
      cases e with
      | lineErrors ls =>
        dsimp only at he
        rw [List.append_eq_nil_iff] at he
        rw [he.2] at h
        exact absurd rfl h.2.1
      | internal e => cases hok
      | omitted => exact absurd rfl h.1
      | useDefault => cases hok
  | true =>
    simp only [hi, if_true] at hok he ⊢
    have ho : dcOwn1 view ba bn hasDefault i f = if (dcGiven view ba bn i f).isSome then 1 else 0 := by unfold dcOwn1; simp [hi]
    have hn : dcNested1 view ba bn w wd i f = (match dcGiven view ba bn i f with
        | some v => w f.name v
        | none => wd f.name) := by unfold dcNested1; simp [hi]
    rw [ho, hn]
    unfold DcArgs.initStep at *
    cases hl : lookup view f ba bn with
    | error e => rw [hl] at hok; cases hok
    | ok kv =>
      obtain ⟨key, kw⟩ := kv
      rw [hl] at hok he
      dsimp only at hok he ⊢
      have hkw : (match view.kwargs with
          | some kw => given kw.get ba bn f.keys
          | none => none) = kw.map Prod.snd := by
        unfold lookup at hl
        unfold given
        cases hsel : f.keys.select ba bn with
        | error e => rw [hsel] at hl; cases hl
        | ok k =>
          rw [hsel] at hl
          dsimp only at hl
          cases hvk : view.kwargs with
          | none => rw [hvk] at hl; cases hl; rfl
          | some kwv =>
            rw [hvk] at hl
            dsimp only at hl ⊢
            cases hgk : kwv.get k with
            | error e => rw [hgk] at hl; cases hl
            | ok o =>
              rw [hgk] at hl
              cases hl
              cases kw with
              | none => rfl
              | some o => rfl
      cases hp : posValue view f i with
      | some x =>
        have hg : dcGiven view ba bn i f = some x := by unfold dcGiven; rw [hp]
        rw [hg]
        rw [hp] at hok he
        cases kw with
        | some pv =>
          dsimp only at he
          exact absurd he (by simp)
        | none =>
          dsimp only at hok he ⊢
          have h := counts_rebind hf (fun e => { e with data := some acc.dict, fieldName := some f.name }) x acc.st
          cases hrun : (rebindExtra (fun e => { e with data := some acc.dict, fieldName := some f.name }) (f.run x) acc.st).1 with
          | ok v =>
            rw [hrun] at he
            dsimp only at he ⊢
            rw [(setItem_facts _ f v).1] at he
            rw [(setItem_facts _ f v).2.1, (setItem_facts _ f v).2.2]
            exact ⟨he, rfl, h.2.2 _ hrun⟩
          | error e =>
            rw [hrun] at hok he h
            cases e with
            | lineErrors ls =>
              dsimp only at he
              rw [List.append_eq_nil_iff, List.map_eq_nil_iff] at he
              rw [he.2] at h
              exact absurd rfl h.2.1
            | internal e => cases hok
            | omitted => exact absurd rfl h.1
            | useDefault => cases hok
      | none =>
        have hg : dcGiven view ba bn i f = kw.map Prod.snd := by unfold dcGiven; rw [hp]; exact hkw
        rw [hg]
        rw [hp] at hok he
        cases kw with
        | some pv =>
          obtain ⟨path, x⟩ := pv
          dsimp only [Option.map] at hok he ⊢
          have h := counts_rebind hf (fun e => { e with data := some acc.dict, fieldName := some f.name }) x acc.st
          cases hrun : (rebindExtra (fun e => { e with data := some acc.dict, fieldName := some f.name }) (f.run x) acc.st).1 with
          | ok v =>
            rw [hrun] at he
            dsimp only at he ⊢
            rw [(setItem_facts _ f v).1] at he
            rw [(setItem_facts _ f v).2.1, (setItem_facts _ f v).2.2]
            exact ⟨he, rfl, h.2.2 _ hrun⟩
          | error e =>
            rw [hrun] at hok he h
            cases e with
            | lineErrors ls =>
              dsimp only at he
              rw [List.append_eq_nil_iff, List.map_eq_nil_iff] at he
              rw [he.2] at h
              exact absurd rfl h.2.1
            | internal e => cases hok
            | omitted => exact absurd rfl h.1
            | useDefault => cases hok
        | none =>
          dsimp only [Option.map] at hok he ⊢
          have h := default_rebind hd (fun e => { e with data := some acc.dict, fieldName := some f.name }) (some (.s f.name)) acc.st
          cases hrun : (rebindExtra (fun e => { e with data := some acc.dict, fieldName := some f.name })
              (f.dflt (some (.s f.name))) acc.st).1 with
          | ok v =>
            rw [hrun] at he
            cases v with
            | some v =>
              dsimp only at he ⊢
              rw [(setItem_facts _ f v).1] at he
              rw [(setItem_facts _ f v).2.1, (setItem_facts _ f v).2.2]
              exact ⟨he, rfl, h.2.2 _ hrun⟩
            | none =>
              dsimp only at he
              rw [List.append_eq_nil_iff] at he
              exact ⟨he.1, rfl, h.2.2 _ hrun⟩
          | error e =>
            rw [hrun] at hok he h
            cases e with
            | lineErrors ls =>
              dsimp only at he
              rw [List.append_eq_nil_iff] at he
              rw [he.2] at h
              exact absurd rfl h.2.1
            | internal e => cases hok
            | omitted => exact absurd rfl h.1
            | useDefault => cases hok

theorem dc_loop (d : DcArgs α) (view : ArgsView α) (input : α) (ba bn : Bool) (w : String → α → Nat)
    (wd : String → Nat) (hasDefault : String → Bool) : ∀ (fs : List (DcField α)),
      (∀ f ∈ fs, Counts f.run (w f.name) ∧ DefaultCounts f.dflt (wd f.name) ∧
        ∀ l st r, (f.dflt l st).1 = .ok r → r.isSome = hasDefault f.name) → ∀ (i : Nat) (acc : DAcc α),
      (d.loop view input ba bn i fs acc).1 = .ok () → (d.loop view input ba bn i fs acc).2.errs = [] →
      acc.errs = [] ∧ (d.loop view input ba bn i fs acc).2.count = acc.count + dcOwn view ba bn hasDefault i fs ∧
      cnt (d.loop view input ba bn i fs acc).2.st = cnt acc.st + dcNested view ba bn w wd i fs
  | [], _, i, acc, _, he => ⟨he, rfl, rfl⟩
  | f :: fs, hfs, i, acc, hok, he => by
    unfold DcArgs.loop at hok he ⊢
    dsimp only at hok he ⊢
    cases hs : (d.step view input ba bn i f acc).1 with
    | error e => rw [hs] at hok; cases hok
    | ok u =>
      rw [hs] at hok he
      dsimp only at hok he ⊢
      obtain ⟨h1, h2, h3⟩ :=
        dc_loop d view input ba bn w wd hasDefault fs (fun g hg => hfs g (List.mem_cons_of_mem _ hg)) (i + 1) _ hok he
      obtain ⟨hf1, hf2, hf3⟩ := hfs f List.mem_cons_self
      obtain ⟨h4, h5, h6⟩ := dc_step d view input ba bn i f w wd hasDefault hf1 hf2 hf3 acc hs h1
      refine ⟨h4, ?_, ?_⟩
      · rw [h2, h5, show dcOwn view ba bn hasDefault i (f :: fs) = dcOwn1 view ba bn hasDefault i f +
          dcOwn view ba bn hasDefault (i + 1) fs from rfl]; omega
      · rw [h3, h6, show dcNested view ba bn w wd i (f :: fs) = dcNested1 view ba bn w wd i f +
          dcNested view ba bn w wd (i + 1) fs from rfl]; omega

theorem dc_kwStep (d : DcArgs α) (hx : ∀ v, d.extrasV = some v → Silent v) (k v : α) (acc : DAcc α) :
    (d.kwStep k v acc).2.st.fieldsSetCount = acc.st.fieldsSetCount ∧ (d.kwStep k v acc).2.count = acc.count ∧
    ∃ es, (d.kwStep k v acc).2.errs = acc.errs ++ es := by
  unfold DcArgs.kwStep
  cases d.keyOps.str k with
  | error e => cases e <;> exact ⟨rfl, rfl, by first | exact ⟨_, rfl⟩ | exact ⟨[], by simp⟩⟩
  | ok key =>
    dsimp only
    by_cases hu : acc.used.contains key = true
    · rw [if_pos hu]; exact ⟨rfl, rfl, [], by simp⟩
    rw [if_neg hu]
    cases d.extra with
    | forbid => exact ⟨rfl, rfl, _, rfl⟩
    | ignore => exact ⟨rfl, rfl, [], by simp⟩
    | allow =>
      dsimp only
      cases hv : d.extrasV with
      | none => exact ⟨rfl, rfl, [], by simp⟩
      | some u =>
        dsimp only
        have h3 : (rebindExtra (fun e => { e with data := some acc.dict }) (u v) acc.st).2.fieldsSetCount = acc.st.fieldsSetCount :=
          hx u hv v _
        cases (rebindExtra (fun e => { e with data := some acc.dict }) (u v) acc.st).1 with
        | ok x => exact ⟨h3, rfl, [], by simp⟩
        | error e => cases e <;> exact ⟨h3, rfl, by first | exact ⟨_, rfl⟩ | exact ⟨[], by simp⟩⟩

theorem dc_kwLoop (d : DcArgs α) (hx : ∀ v, d.extrasV = some v → Silent v) :
    ∀ (es : List (ValResult α (α × α))) (acc : DAcc α),
      (d.kwLoop es acc).2.st.fieldsSetCount = acc.st.fieldsSetCount ∧ (d.kwLoop es acc).2.count = acc.count ∧
      ∃ l, (d.kwLoop es acc).2.errs = acc.errs ++ l
  | [], acc => ⟨rfl, rfl, [], by simp [DcArgs.kwLoop]⟩
  | .error e :: _, acc => ⟨rfl, rfl, [], by simp [DcArgs.kwLoop]⟩
  | .ok (k, v) :: rest, acc => by
    unfold DcArgs.kwLoop
    dsimp only
    obtain ⟨h1, h0, l1, h2⟩ := dc_kwStep d hx k v acc
    cases (d.kwStep k v acc).1 with
    | error e => exact ⟨h1, h0, l1, h2⟩
    | ok u =>
      obtain ⟨h3, h5, l2, h4⟩ := dc_kwLoop d hx rest (d.kwStep k v acc).2
      exact ⟨h3.trans h1, h5.trans h0, l1 ++ l2, by dsimp only; rw [h4, h2, List.append_assoc]⟩

end PC.Count
