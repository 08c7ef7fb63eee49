import Verif.Spec.StringMode

namespace PC.StringMode

variable {V : Type}

/-! ### Texts and dicts give the same in both modes -/

theorem scalar_eq (E : Env V) (k : Kind) (st : Bool) (x : StringMapping) :
    (pyOps E).scalar k false x.toPy = (stringOps E).scalar k st x := by
  cases x <;> simp [pyOps, stringOps, StringMapping.toPy]

theorem runScalar_eq (E : Env V) (k : Kind) (x : StringMapping) :
    runScalar (pyOps E) E k false x.toPy = runScalar (stringOps E) E k false x := by
  unfold runScalar
  simp only [scalar_eq E _ false x]

theorem loc_eq (E : Env V) (x : StringMapping) : (pyOps E).loc x.toPy = (stringOps E).loc x := by
  cases x <;> rfl

theorem strictStr_eq (E : Env V) (x : StringMapping) :
    (pyOps E).strictStr x.toPy = (stringOps E).strictStr x := by
  cases x <;> rfl

theorem toPy_eq (E : Env V) (x : StringMapping) : (pyOps E).toPy x.toPy = (stringOps E).toPy x := by
  cases x <;> rfl

theorem newKey_eq (s : String) : newKey (.str s) = .ok (.string s) := rfl

/-- A value made of texts is read. -/
theorem newValue_stringy {x : PyT} (h : Stringy x) : ∃ y, newValue x = .ok y ∧ y.toPy = x := by
  cases h with
  | str s => exact ⟨.string s, rfl, rfl⟩
  | dict items _ _ => exact ⟨.mapping items, rfl, rfl⟩

theorem newValue_ok {x : PyT} {y : StringMapping} (h : newValue x = .ok y) : y.toPy = x := by
  cases x <;> simp [newValue] at h <;> subst h <;> rfl

theorem newKey_ok {x : PyT} {y : StringMapping} (h : newKey x = .ok y) :
    ∃ s, x = .str s ∧ y = .string s := by
  cases x <;> simp [newKey] at h
  exact ⟨_, rfl, h.symm⟩

theorem newValue_ok_strOrDict {x : PyT} {y : StringMapping} (h : newValue x = .ok y) : StrOrDict x := by
  cases x <;> simp [newValue] at h
  · exact .inl ⟨_, rfl⟩
  · exact .inr ⟨_, rfl⟩

theorem newKey_error {x : PyT} (h : ¬ ∃ s, x = .str s) :
    newKey x = .error [LineError.new (.other "string_type") x] := by
  cases x <;> first | rfl | exact absurd ⟨_, rfl⟩ h

theorem newValue_error {x : PyT} (h : ¬ StrOrDict x) :
    newValue x = .error [LineError.new (.other "string_type") x] := by
  cases x <;> first | rfl | exact absurd (.inl ⟨_, rfl⟩) h | exact absurd (.inr ⟨_, rfl⟩) h

/-- One item of a dict as the string input sees it. -/
def item (kv : PyT × PyT) : Except Errs (StringMapping × StringMapping) := do
  return ((← newKey kv.1), (← newValue kv.2))

theorem items_eq (E : Env V) (d : List (PyT × PyT)) : (stringOps E).items d = d.map item := rfl

theorem item_ok {a b : PyT} {x y : StringMapping} (ha : newKey a = .ok x) (hb : newValue b = .ok y) :
    item (a, b) = .ok (x, y) := by
  simp [item, ha, hb, bind, Except.bind, pure, Except.pure]

theorem item_bad_key {a b : PyT} (h : ¬ ∃ s, a = .str s) :
    item (a, b) = .error [LineError.new (.other "string_type") a] := by
  simp [item, newKey_error h, bind, Except.bind]

theorem item_bad_value {s : String} {b : PyT} (h : ¬ StrOrDict b) :
    item (.str s, b) = .error [LineError.new (.other "string_type") b] := by
  simp [item, newKey_eq, newValue_error h, bind, Except.bind]

theorem item_inv {kv : PyT × PyT} {p : StringMapping × StringMapping} (h : item kv = .ok p) :
    newKey kv.1 = .ok p.1 ∧ newValue kv.2 = .ok p.2 := by
  unfold item at h
  cases hk : newKey kv.1 with
  | error e => simp [hk, bind, Except.bind] at h
  | ok x =>
    cases hv : newValue kv.2 with
    | error e => simp [hk, hv, bind, Except.bind] at h
    | ok y =>
      simp [hk, hv, bind, Except.bind, pure, Except.pure] at h
      subst h
      exact ⟨rfl, rfl⟩

theorem getItem_eq (E : Env V) (d : List (PyT × PyT)) (name : String) :
    (stringOps E).getItem d name = match dictGet d name with
      | some x => (newValue x).map some
      | Option.none => .ok Option.none := by
  show (match dictGet d name with
    | some x => do return some (← newValue x)
    | Option.none => .ok Option.none) = _
  cases dictGet d name with
  | none => rfl
  | some x =>
    dsimp only
    cases newValue x <;> rfl

theorem dictGet_mem {d : List (PyT × PyT)} {name : String} {x : PyT} (h : dictGet d name = some x) :
    ∃ kv ∈ d, kv.2 = x := by
  unfold dictGet at h
  cases hf : d.find? (fun kv => isKey name kv.1) with
  | none => rw [hf] at h; cases h
  | some kv =>
    rw [hf] at h
    cases h
    exact ⟨kv, List.mem_of_find?_eq_some hf, rfl⟩

theorem dictLoop_eq (E : Env V) (kp vp : PyT → Res V) (ks vs : StringMapping → Res V)
    (hk : ∀ x : StringMapping, Stringy x.toPy → kp x.toPy = ks x)
    (hv : ∀ x : StringMapping, Stringy x.toPy → vp x.toPy = vs x) :
    ∀ (d : List (PyT × PyT)) (errors : Errs) (out : List (Out V × Out V)),
      (∀ kv ∈ d, ∃ s, kv.1 = .str s) → (∀ kv ∈ d, Stringy kv.2) →
      dictLoop (pyOps E) kp vp (d.map fun kv => .ok kv) errors out =
        dictLoop (stringOps E) ks vs (d.map item) errors out := by
  intro d
  induction d with
  | nil => intros; rfl
  | cons kv d ih =>
    intro errors out h1 h2
    obtain ⟨a, b⟩ := kv
    obtain ⟨s, hs⟩ := h1 (a, b) (by simp)
    dsimp only at hs
    subst hs
    obtain ⟨y, hy, hyb⟩ := newValue_stringy (h2 (.str s, b) (by simp))
    dsimp only at hy hyb
    subst hyb
    have h1' : ∀ kv ∈ d, ∃ s, kv.1 = .str s := fun kv hm => h1 kv (List.mem_cons_of_mem _ hm)
    have h2' : ∀ kv ∈ d, Stringy kv.2 := fun kv hm => h2 kv (List.mem_cons_of_mem _ hm)
    have ek : kp (.str s) = ks (.string s) := hk (.string s) (.str s)
    have ev : vp y.toPy = vs y := hv y (h2 (.str s, y.toPy) (by simp))
    have el : (pyOps E).loc (.str s) = (stringOps E).loc (.string s) := rfl
    simp only [List.map_cons, item_ok (newKey_eq s) hy, dictLoop, ek, ev, el]
    cases ks (.string s) <;> cases vs y <;> simp only [] <;> exact ih _ _ h1' h2'

theorem extraLoop_eq (E : Env V) (extra : Extra) (used : List String) :
    ∀ (d : List (PyT × PyT)) (errors : Errs) (out : List (String × PyT)),
      (∀ kv ∈ d, ∃ s, kv.1 = .str s) → (∀ kv ∈ d, Stringy kv.2) →
      extraLoop (pyOps E) extra used (d.map fun kv => .ok kv) errors out =
        extraLoop (stringOps E) extra used (d.map item) errors out := by
  intro d
  induction d with
  | nil => intros; rfl
  | cons kv d ih =>
    intro errors out h1 h2
    obtain ⟨a, b⟩ := kv
    obtain ⟨s, hs⟩ := h1 (a, b) (by simp)
    dsimp only at hs
    subst hs
    obtain ⟨y, hy, hyb⟩ := newValue_stringy (h2 (.str s, b) (by simp))
    dsimp only at hy hyb
    subst hyb
    have h1' : ∀ kv ∈ d, ∃ s, kv.1 = .str s := fun kv hm => h1 kv (List.mem_cons_of_mem _ hm)
    have h2' : ∀ kv ∈ d, Stringy kv.2 := fun kv hm => h2 kv (List.mem_cons_of_mem _ hm)
    have el : (pyOps E).loc (.str s) = (stringOps E).loc (.string s) := rfl
    have es : (pyOps E).strictStr (.str s) = .ok s := rfl
    have es' : (stringOps E).strictStr (.string s) = .ok s := rfl
    have et : (pyOps E).toPy y.toPy = (stringOps E).toPy y := toPy_eq E y
    simp only [List.map_cons, item_ok (newKey_eq s) hy, extraLoop, es, es', el, et]
    cases used.contains s with
    | true => exact ih _ _ h1' h2'
    | false => cases extra <;> exact ih _ _ h1' h2'

theorem fieldStep_eq (E : Env V) (fp : PyT → Res V) (fs : StringMapping → Res V)
    (hf : ∀ x : StringMapping, Stringy x.toPy → fp x.toPy = fs x)
    (x : StringMapping) (d : List (PyT × PyT)) (hd : ∀ kv ∈ d, Stringy kv.2) (name : String)
    (dflt : Option V) :
    fieldStep (pyOps E) fp x.toPy d name dflt = fieldStep (stringOps E) fs x d name dflt := by
  unfold fieldStep
  have hp : (pyOps E).getItem d name = .ok (dictGet d name) := rfl
  rw [getItem_eq, hp]
  cases hg : dictGet d name with
  | none => rfl
  | some y =>
    obtain ⟨kv, hm, he⟩ := dictGet_mem hg
    have hy : Stringy y := he ▸ hd kv hm
    obtain ⟨z, hz, hzy⟩ := newValue_stringy hy
    subst hzy
    simp only [hz, Except.map, hf z hy]

mutual
theorem run_eq (E : Env V) : ∀ (s : Schema V) (x : StringMapping), Stringy x.toPy →
    run (pyOps E) E (some false) s x.toPy = run (stringOps E) E (some false) s x
  | .scalar k own, x, _ => by
    simp only [run, Option.getD_some, runScalar_eq, toPy_eq]
  | .nullable s, x, h => by
    have h1 : (pyOps E).isNone x.toPy = false := by cases x <;> rfl
    have h2 : (stringOps E).isNone x = false := rfl
    simp only [run, h1, h2, run_eq E s x h]
  | .dict key value, x, h => by
    cases x with
    | string s => rfl
    | mapping items =>
      simp only [StringMapping.toPy] at h
      cases h with
      | dict _ hk hv =>
        exact dictLoop_eq E _ _ _ _ (fun x hx => run_eq E key x hx) (fun x hx => run_eq E value x hx)
          items [] [] hk hv
  | .list item, x, _ => by cases x <;> rfl
  | .model extra fields, x, h => by
    cases x with
    | string s => rfl
    | mapping items =>
      simp only [StringMapping.toPy] at h
      cases h with
      | dict _ hk hv =>
        have e1 := runFields_eq E fields (.mapping items) items hv
        have e2 := fun a => extraLoop_eq E extra (runFields (stringOps E) E (some false) fields (.mapping items) items).used
          items a [] hk hv
        simp only [StringMapping.toPy] at e1
        unfold run
        dsimp only [pyOps, stringOps] at *
        simp only [StringMapping.toPy, e1]
        have e2' := e2 (runFields (stringOps E) E (some false) fields (.mapping items) items).errors
        dsimp only [stringOps] at e2'
        rw [e2']
        rfl
termination_by structural s => s

theorem runFields_eq (E : Env V) : ∀ (fs : Fields V) (x : StringMapping) (d : List (PyT × PyT)),
    (∀ kv ∈ d, Stringy kv.2) →
    runFields (pyOps E) E (some false) fs x.toPy d = runFields (stringOps E) E (some false) fs x d
  | .nil, _, _, _ => rfl
  | .cons name dflt s rest, x, d, h => by
    simp only [runFields, fieldStep_eq E _ _ (fun x hx => run_eq E s x hx) x d h, runFields_eq E rest x d h]
termination_by structural fs => fs
end

/-! ### The strict flag -/

theorem runScalar_strict_ok (E : Env V) (k : Kind) (st : Bool) (x : StringMapping) (v : V)
    (h : runScalar (stringOps E) E k st x = .ok v) : runScalar (stringOps E) E k false x = .ok v := by
  cases st with
  | false => exact h
  | true =>
    unfold runScalar at h ⊢
    have e : (stringOps E).scalar k true x = (stringOps E).scalar k false x := rfl
    rw [e] at h
    cases hs : (stringOps E).scalar k false x with
    | ok w => rw [hs] at h; exact h
    | error t => rw [hs] at h; simp at h

theorem runScalar_noDates (E : Env V) (k : Kind) (st : Bool) (x : StringMapping)
    (h : k ≠ .date ∧ k ≠ .datetime) :
    runScalar (stringOps E) E k st x = runScalar (stringOps E) E k false x := by
  cases st with
  | false => rfl
  | true =>
    unfold runScalar
    have e : (stringOps E).scalar k true x = (stringOps E).scalar k false x := rfl
    rw [e]
    cases hs : (stringOps E).scalar k false x with
    | ok w => rfl
    | error t => cases k <;> simp_all

mutual
theorem run_noDates (E : Env V) (st : Option Bool) : ∀ (s : Schema V) (x : StringMapping), NoDates s →
    run (stringOps E) E st s x = run (stringOps E) E (some false) s x
  | .scalar k own, x, h => by
    unfold NoDates at h
    simp only [run, Option.getD_some, runScalar_noDates E k (st.getD own) x h]
  | .nullable s, x, h => by
    unfold NoDates at h
    simp only [run, run_noDates E st s x h]
  | .dict key value, x, h => by
    unfold NoDates at h
    have e1 : run (stringOps E) E st key = run (stringOps E) E (some false) key :=
      funext fun x => run_noDates E st key x h.1
    have e2 : run (stringOps E) E st value = run (stringOps E) E (some false) value :=
      funext fun x => run_noDates E st value x h.2
    unfold run
    rw [e1, e2]
    rfl
  | .list item, x, h => rfl
  | .model extra fields, x, h => by
    unfold NoDates at h
    have e := fun d => runFields_noDates E st fields x d h
    unfold run
    simp only [e]
    rfl
termination_by structural s => s

theorem runFields_noDates (E : Env V) (st : Option Bool) : ∀ (fs : Fields V) (x : StringMapping)
    (d : List (PyT × PyT)), NoDatesFields fs →
    runFields (stringOps E) E st fs x d = runFields (stringOps E) E (some false) fs x d
  | .nil, _, _, _ => rfl
  | .cons name dflt s rest, x, d, h => by
    unfold NoDatesFields at h
    have e : run (stringOps E) E st s = run (stringOps E) E (some false) s :=
      funext fun x => run_noDates E st s x h.1
    simp only [runFields, e, runFields_noDates E st rest x d h.2]
termination_by structural fs => fs
end

theorem dictLoop_errors (O : Ops StringMapping V) (kf vf : StringMapping → Res V) :
    ∀ (l : List (Except Errs (StringMapping × StringMapping))) (errors : Errs)
      (out : List (Out V × Out V)) (v : Out V), errors ≠ [] → dictLoop O kf vf l errors out ≠ .ok v := by
  intro l
  induction l with
  | nil =>
    intro errors out v h
    cases errors with
    | nil => exact absurd rfl h
    | cons a l => simp [dictLoop]
  | cons a l ih =>
    intro errors out v h
    cases a with
    | error es => simp [dictLoop]
    | ok p =>
      obtain ⟨a, b⟩ := p
      have hne : ∀ es : Errs, errors ++ es ≠ [] := by
        intro es he
        exact h (List.append_eq_nil_iff.1 he).1
      unfold dictLoop
      cases kf a with
      | ok k =>
        cases vf b with
        | ok w => exact ih _ _ _ h
        | error es => exact ih _ _ _ (hne _)
      | error kes =>
        cases vf b with
        | ok w => exact ih _ _ _ (hne _)
        | error es =>
          refine ih _ _ _ ?_
          rw [List.append_assoc]
          exact hne _

/-- If every error list of the functions has an element, an accepted dict is one all of whose items
were read and accepted. -/
theorem dictLoop_ok (O : Ops StringMapping V) (kf vf : StringMapping → Res V)
    (hk : ∀ x es, kf x = .error es → es ≠ []) (hv : ∀ x es, vf x = .error es → es ≠ []) :
    ∀ (l : List (Except Errs (StringMapping × StringMapping))) (errors : Errs)
      (out : List (Out V × Out V)) (w : Out V), dictLoop O kf vf l errors out = .ok w →
      ∀ p ∈ l, ∃ a b k v, p = .ok (a, b) ∧ kf a = .ok k ∧ vf b = .ok v := by
  intro l
  induction l with
  | nil => intro _ _ _ _ p hp; cases hp
  | cons c l ih =>
    intro errors out w h p hp
    cases c with
    | error es => simp [dictLoop] at h
    | ok q =>
      obtain ⟨a, b⟩ := q
      unfold dictLoop at h
      cases hka : kf a with
      | error kes =>
        exfalso
        rw [hka] at h
        dsimp only at h
        have hne : ∀ es : Errs, errors ++ kes.map (fun e =>
            (e.withOuterLocation (.s "[key]")).withOuterLocation (O.loc a)) ++ es ≠ [] := by
          intro es he
          have := (List.append_eq_nil_iff.1 (List.append_eq_nil_iff.1 he).1).2
          exact hk a kes hka (List.map_eq_nil_iff.1 this)
        cases hvb : vf b with
        | ok v =>
          rw [hvb] at h
          exact dictLoop_errors O kf vf l _ _ w (by simpa using hne []) h
        | error es =>
          rw [hvb] at h
          exact dictLoop_errors O kf vf l _ _ w (hne _) h
      | ok k =>
        rw [hka] at h
        dsimp only at h
        cases hvb : vf b with
        | error es =>
          rw [hvb] at h
          refine absurd h (dictLoop_errors O kf vf l _ _ w ?_)
          intro he
          exact hv b es hvb (List.map_eq_nil_iff.1 (List.append_eq_nil_iff.1 he).2)
        | ok v =>
          rw [hvb] at h
          rcases List.mem_cons.1 hp with hp | hp
          · exact ⟨a, b, k, v, hp, hka, hvb⟩
          · exact ih _ _ w h p hp

/-- The loop depends on the two functions at the items only. -/
theorem dictLoop_congr (O : Ops StringMapping V) (kf vf kf' vf' : StringMapping → Res V) :
    ∀ (l : List (Except Errs (StringMapping × StringMapping))) (errors : Errs)
      (out : List (Out V × Out V)),
      (∀ a b, .ok (a, b) ∈ l → kf a = kf' a ∧ vf b = vf' b) →
      dictLoop O kf vf l errors out = dictLoop O kf' vf' l errors out := by
  intro l
  induction l with
  | nil => intros; rfl
  | cons c l ih =>
    intro errors out h
    cases c with
    | error es => rfl
    | ok q =>
      obtain ⟨a, b⟩ := q
      obtain ⟨e1, e2⟩ := h a b (by simp)
      have h' : ∀ a b, .ok (a, b) ∈ l → kf a = kf' a ∧ vf b = vf' b :=
        fun a b hm => h a b (List.mem_cons_of_mem _ hm)
      unfold dictLoop
      rw [e1, e2]
      cases kf' a <;> cases vf' b <;> exact ih _ _ h'

theorem fieldStep_error_ne (O : Ops StringMapping V) (f : StringMapping → Res V) (x : StringMapping)
    (d : List (PyT × PyT)) (name : String) (dflt : Option V)
    (hf : ∀ x es, f x = .error es → es ≠ []) (hg : ∀ es, O.getItem d name = .error es → es ≠ [])
    (h : (fieldStep O f x d name dflt).errors = []) :
    (∃ y v, O.getItem d name = .ok (some y) ∧ f y = .ok v) ∨ O.getItem d name = .ok Option.none := by
  unfold fieldStep at h
  cases hgi : O.getItem d name with
  | error es =>
    rw [hgi] at h
    exact absurd (List.map_eq_nil_iff.1 h) (hg es hgi)
  | ok o =>
    cases o with
    | none => exact .inr rfl
    | some y =>
      rw [hgi] at h
      dsimp only at h
      cases hfy : f y with
      | ok v => exact .inl ⟨y, v, rfl, hfy⟩
      | error es =>
        rw [hfy] at h
        exact absurd (List.map_eq_nil_iff.1 h) (hf y es hfy)

theorem extraLoop_errors (O : Ops StringMapping V) (extra : Extra) (used : List String) :
    ∀ (l : List (Except Errs (StringMapping × StringMapping))) (errors : Errs)
      (out : List (String × PyT)) (r : Errs × List (String × PyT)),
      extraLoop O extra used l errors out = .ok r → r.1 = [] →
      errors = [] ∧ ∀ p ∈ l, ∃ a b, p = .ok (a, b) := by
  intro l
  induction l with
  | nil =>
    intro errors out r h hr
    simp only [extraLoop, Except.ok.injEq] at h
    subst h
    exact ⟨hr, fun p hp => by cases hp⟩
  | cons c l ih =>
    intro errors out r h hr
    cases c with
    | error es => simp [extraLoop] at h
    | ok q =>
      obtain ⟨a, b⟩ := q
      have fin : ∀ (es : Errs) (out : List (String × PyT)),
          extraLoop O extra used l (errors ++ es) out = .ok r →
          errors = [] ∧ ∀ p ∈ Except.ok (a, b) :: l, ∃ a b, p = .ok (a, b) := by
        intro es out h
        obtain ⟨h1, h2⟩ := ih _ _ r h hr
        refine ⟨(List.append_eq_nil_iff.1 h1).1, ?_⟩
        intro p hp
        rcases List.mem_cons.1 hp with hp | hp
        · exact ⟨a, b, hp⟩
        · exact h2 p hp
      have fin' : ∀ (out : List (String × PyT)), extraLoop O extra used l errors out = .ok r →
          errors = [] ∧ ∀ p ∈ Except.ok (a, b) :: l, ∃ a b, p = .ok (a, b) := by
        intro out h
        exact fin [] out (by simpa using h)
      unfold extraLoop at h
      cases hs : O.strictStr a with
      | error es => rw [hs] at h; exact fin _ _ h
      | ok name =>
        rw [hs] at h
        dsimp only at h
        split at h
        · exact fin' _ h
        · cases extra with
          | forbid => exact fin _ _ h
          | ignore => exact fin' _ h
          | allow => exact fin' _ h

theorem newValue_error_ne {x : PyT} {es : Errs} (h : newValue x = .error es) : es ≠ [] := by
  cases x <;> simp [newValue] at h <;> subst h <;> simp

theorem newKey_error_ne {x : PyT} {es : Errs} (h : newKey x = .error es) : es ≠ [] := by
  cases x <;> simp [newKey] at h <;> subst h <;> simp

theorem item_error_ne {kv : PyT × PyT} {es : Errs} (h : item kv = .error es) : es ≠ [] := by
  unfold item at h
  cases hk : newKey kv.1 with
  | error e =>
    simp [hk, bind, Except.bind] at h
    subst h
    exact newKey_error_ne hk
  | ok x =>
    cases hv : newValue kv.2 with
    | error e =>
      simp [hk, hv, bind, Except.bind] at h
      subst h
      exact newValue_error_ne hv
    | ok y => simp [hk, hv, bind, Except.bind, pure, Except.pure] at h

theorem getItem_error_ne (E : Env V) {d : List (PyT × PyT)} {name : String} {es : Errs}
    (h : (stringOps E).getItem d name = .error es) : es ≠ [] := by
  rw [getItem_eq] at h
  cases hg : dictGet d name with
  | none => rw [hg] at h; cases h
  | some x =>
    rw [hg] at h
    dsimp only at h
    cases hv : newValue x with
    | error e =>
      rw [hv] at h
      simp only [Except.map, Except.error.injEq] at h
      subst h
      exact newValue_error_ne hv
    | ok y => rw [hv] at h; cases h

theorem dictLoop_error_ne (O : Ops StringMapping V) (kf vf : StringMapping → Res V) :
    ∀ (l : List (Except Errs (StringMapping × StringMapping)))
      (_ : ∀ es, .error es ∈ l → es ≠ []) (errors : Errs) (out : List (Out V × Out V)) (es : Errs),
      dictLoop O kf vf l errors out = .error es → es ≠ [] := by
  intro l
  induction l with
  | nil =>
    intro _ errors out es h
    cases errors with
    | nil => simp [dictLoop] at h
    | cons a l => simp only [dictLoop, List.isEmpty_cons, Bool.false_eq_true, if_false, Except.error.injEq] at h; subst h; simp
  | cons c l ih =>
    intro hl errors out es h
    have hl' : ∀ es, .error es ∈ l → es ≠ [] := fun es hm => hl es (List.mem_cons_of_mem _ hm)
    cases c with
    | error e =>
      simp only [dictLoop, Except.error.injEq] at h
      subst h
      exact hl e (by simp)
    | ok q =>
      obtain ⟨a, b⟩ := q
      unfold dictLoop at h
      cases hk : kf a <;> cases hv : vf b <;> rw [hk, hv] at h <;> exact ih hl' _ _ es h

theorem extraLoop_error_ne (O : Ops StringMapping V) (extra : Extra) (used : List String) :
    ∀ (l : List (Except Errs (StringMapping × StringMapping)))
      (_ : ∀ es, .error es ∈ l → es ≠ []) (errors : Errs) (out : List (String × PyT)) (es : Errs),
      extraLoop O extra used l errors out = .error es → es ≠ [] := by
  intro l
  induction l with
  | nil => intro _ errors out es h; simp [extraLoop] at h
  | cons c l ih =>
    intro hl errors out es h
    have hl' : ∀ es, .error es ∈ l → es ≠ [] := fun es hm => hl es (List.mem_cons_of_mem _ hm)
    cases c with
    | error e =>
      simp only [extraLoop, Except.error.injEq] at h
      subst h
      exact hl e (by simp)
    | ok q =>
      obtain ⟨a, b⟩ := q
      unfold extraLoop at h
      cases hs : O.strictStr a with
      | error e => rw [hs] at h; exact ih hl' _ _ es h
      | ok name =>
        rw [hs] at h
        dsimp only at h
        split at h
        · exact ih hl' _ _ es h
        · cases extra <;> exact ih hl' _ _ es h

theorem items_error_ne (d : List (PyT × PyT)) : ∀ es, .error es ∈ d.map item → es ≠ [] := by
  intro es h
  obtain ⟨kv, _, he⟩ := List.mem_map.1 h
  exact item_error_ne he

/-- A refusal names at least one error. -/
theorem run_error_ne (E : Env V) (st : Option Bool) : ∀ (s : Schema V) (x : StringMapping) (es : Errs),
    run (stringOps E) E st s x = .error es → es ≠ []
  | .scalar k own, x, es, h => by
    unfold run at h
    cases hr : runScalar (stringOps E) E k (st.getD own) x <;> rw [hr] at h <;> simp at h
    subst h; simp
  | .nullable s, x, es, h => by
    have h2 : (stringOps E).isNone x = false := rfl
    unfold run at h
    rw [h2] at h
    exact run_error_ne E st s x es h
  | .dict key value, x, es, h => by
    cases x with
    | string s => simp [run, stringOps] at h; subst h; simp
    | mapping items => exact dictLoop_error_ne _ _ _ (items.map item) (items_error_ne items) [] [] es h
  | .list item, x, es, h => by
    simp [run, stringOps] at h
    subst h; simp
  | .model extra fields, x, es, h => by
    cases x with
    | string s => simp [run, stringOps] at h; subst h; simp
    | mapping items =>
      unfold run at h
      dsimp only [stringOps] at h
      change (if extra = .ignore then _ else match extraLoop (stringOps E) extra _ (items.map item) _ [] with | .error es => _ | .ok (errors, extras) => _) = _ at h
      split at h
      · split at h
        · cases h
        · rename_i hne
          simp only [Except.error.injEq] at h
          subst h
          intro he
          exact hne (by rw [he]; rfl)
      · split at h
        · rename_i es' he
          simp only [Except.error.injEq] at h
          subst h
          exact extraLoop_error_ne _ _ _ _ (items_error_ne items) _ _ _ he
        · split at h
          · cases h
          · rename_i hne
            simp only [Except.error.injEq] at h
            subst h
            intro he
            exact hne (by rw [he]; rfl)

/-! ### What is accepted -/

theorem model_ok (E : Env V) (st : Option Bool) (extra : Extra) (fields : Fields V) (x : StringMapping)
    (v : Out V) (h : run (stringOps E) E st (.model extra fields) x = .ok v) :
    ∃ items, x = .mapping items ∧
      (runFields (stringOps E) E st fields x items).errors = [] ∧
      (extra ≠ .ignore → ∀ kv ∈ items, ∃ a b, item kv = .ok (a, b)) := by
  cases x with
  | string s => simp [run, stringOps] at h
  | mapping items =>
    refine ⟨items, rfl, ?_⟩
    unfold run at h
    have hd : (stringOps E).dict (st.getD false) (.mapping items) = .ok items := rfl
    rw [hd] at h
    dsimp only at h
    by_cases he : extra = .ignore
    · rw [if_pos he] at h
      split at h
      · rename_i hn
        exact ⟨List.isEmpty_iff.1 hn, fun hne => absurd he hne⟩
      · cases h
    · rw [if_neg he, items_eq] at h
      split at h
      · cases h
      · rename_i errors extras hx
        split at h
        · rename_i hn
          obtain ⟨h1, h2⟩ := extraLoop_errors _ _ _ _ _ _ _ hx (List.isEmpty_iff.1 hn)
          refine ⟨h1, fun _ kv hm => ?_⟩
          exact h2 (item kv) (List.mem_map_of_mem hm)
        · cases h

mutual
theorem run_textual (E : Env V) (st : Option Bool) : ∀ (s : Schema V) (x : StringMapping) (v : Out V),
    run (stringOps E) E st s x = .ok v → Textual s x.toPy
  | .scalar k own, x, v, h => by
    unfold Textual
    cases x with
    | string s => exact ⟨s, rfl⟩
    | mapping items =>
      exfalso
      unfold run at h
      have : runScalar (stringOps E) E k (st.getD own) (.mapping items) = .error (typeErr k) := by
        unfold runScalar
        dsimp only [stringOps]
        cases st.getD own <;> cases k <;> simp [fromOther, typeErr]
      rw [this] at h
      cases h
  | .nullable s, x, v, h => by
    unfold Textual
    have h2 : (stringOps E).isNone x = false := rfl
    unfold run at h
    rw [h2] at h
    exact run_textual E st s x v h
  | .dict key value, x, v, h => by
    unfold Textual
    cases x with
    | string s => simp [run, stringOps] at h
    | mapping items =>
      refine ⟨items, rfl, fun kv hm => ?_⟩
      have h' : dictLoop (stringOps E) (run (stringOps E) E st key) (run (stringOps E) E st value)
        (items.map item) [] [] = .ok v := h
      obtain ⟨a, b, k, w, hp, hk, hw⟩ := dictLoop_ok _ _ _ (fun x es => run_error_ne E st key x es)
        (fun x es => run_error_ne E st value x es) _ _ _ _ h' (item kv) (List.mem_map_of_mem hm)
      obtain ⟨i1, i2⟩ := item_inv hp
      obtain ⟨s, hs, hsa⟩ := newKey_ok i1
      refine ⟨⟨s, hs⟩, ?_, ?_⟩
      · have := run_textual E st key a k hk
        dsimp only at hsa
        rw [hsa] at this
        rw [hs]
        exact this
      · rw [← newValue_ok i2]
        exact run_textual E st value b w hw
  | .list item, x, v, h => by simp [run, stringOps] at h
  | .model extra fields, x, v, h => by
    unfold Textual
    obtain ⟨items, hx, h1, h2⟩ := model_ok E st extra fields x v h
    subst hx
    refine ⟨items, rfl, runFields_textual E st fields _ items h1, fun hne kv hm => ?_⟩
    obtain ⟨a, b, hi⟩ := h2 hne kv hm
    obtain ⟨i1, i2⟩ := item_inv hi
    obtain ⟨s, hs, _⟩ := newKey_ok i1
    exact ⟨⟨s, hs⟩, newValue_ok_strOrDict i2⟩
termination_by structural s => s

theorem runFields_textual (E : Env V) (st : Option Bool) : ∀ (fs : Fields V) (x : StringMapping)
    (d : List (PyT × PyT)), (runFields (stringOps E) E st fs x d).errors = [] → TextualFields fs d
  | .nil, _, _, _ => by unfold TextualFields; trivial
  | .cons name dflt s rest, x, d, h => by
    unfold TextualFields
    unfold runFields at h
    obtain ⟨h1, h2⟩ := List.append_eq_nil_iff.1 h
    refine ⟨fun y hy => ?_, runFields_textual E st rest x d h2⟩
    rcases fieldStep_error_ne _ _ _ _ _ _ (fun x es => run_error_ne E st s x es)
      (fun es => getItem_error_ne E) h1 with ⟨z, v, hz, hv⟩ | hn
    · rw [getItem_eq, hy] at hz
      dsimp only at hz
      cases hw : newValue y with
      | error e => rw [hw] at hz; cases hz
      | ok w =>
        rw [hw] at hz
        simp only [Except.map, Except.ok.injEq, Option.some.injEq] at hz
        subst hz
        rw [← newValue_ok hw]
        exact run_textual E st s w v hv
    · rw [getItem_eq, hy] at hn
      dsimp only at hn
      cases hw : newValue y with
      | error e => rw [hw] at hn; cases hn
      | ok w => rw [hw] at hn; cases hn
termination_by structural fs => fs
end

mutual
theorem run_lax_ok (E : Env V) (st : Option Bool) : ∀ (s : Schema V) (x : StringMapping) (v : Out V),
    run (stringOps E) E st s x = .ok v → run (stringOps E) E (some false) s x = .ok v
  | .scalar k own, x, v, h => by
    unfold run at h ⊢
    cases hr : runScalar (stringOps E) E k (st.getD own) x with
    | error t => rw [hr] at h; cases h
    | ok w =>
      rw [hr] at h
      rw [Option.getD_some, runScalar_strict_ok E k _ x w hr]
      exact h
  | .nullable s, x, v, h => by
    have h2 : (stringOps E).isNone x = false := rfl
    unfold run at h ⊢
    rw [h2] at h ⊢
    exact run_lax_ok E st s x v h
  | .dict key value, x, v, h => by
    cases x with
    | string s => simp [run, stringOps] at h
    | mapping items =>
      have h' : dictLoop (stringOps E) (run (stringOps E) E st key) (run (stringOps E) E st value)
        (items.map item) [] [] = .ok v := h
      show dictLoop (stringOps E) (run (stringOps E) E (some false) key)
        (run (stringOps E) E (some false) value) (items.map item) [] [] = .ok v
      rw [← h']
      refine (dictLoop_congr _ _ _ _ _ _ _ _ fun a b hm => ?_).symm
      obtain ⟨a', b', k, w, hp, hk, hw⟩ := dictLoop_ok _ _ _ (fun x es => run_error_ne E st key x es)
        (fun x es => run_error_ne E st value x es) _ _ _ _ h' _ hm
      simp only [Except.ok.injEq, Prod.mk.injEq] at hp
      obtain ⟨rfl, rfl⟩ := hp
      rw [hk, hw, run_lax_ok E st key _ _ hk, run_lax_ok E st value _ _ hw]
      exact ⟨rfl, rfl⟩
  | .list item, x, v, h => by simp [run, stringOps] at h
  | .model extra fields, x, v, h => by
    obtain ⟨items, hx, h1, h2⟩ := model_ok E st extra fields x v h
    subst hx
    have e := runFields_lax E st fields _ items h1
    unfold run at h ⊢
    have hd : ∀ b, (stringOps E).dict b (.mapping items) = .ok items := fun _ => rfl
    rw [hd] at h ⊢
    rw [← h]
    dsimp only
    rw [e]
termination_by structural s => s

theorem runFields_lax (E : Env V) (st : Option Bool) : ∀ (fs : Fields V) (x : StringMapping)
    (d : List (PyT × PyT)), (runFields (stringOps E) E st fs x d).errors = [] →
    runFields (stringOps E) E (some false) fs x d = runFields (stringOps E) E st fs x d
  | .nil, _, _, _ => rfl
  | .cons name dflt s rest, x, d, h => by
    have h' := h
    unfold runFields at h'
    obtain ⟨h1, h2⟩ := List.append_eq_nil_iff.1 h'
    have e1 : fieldStep (stringOps E) (run (stringOps E) E (some false) s) x d name dflt =
        fieldStep (stringOps E) (run (stringOps E) E st s) x d name dflt := by
      rcases fieldStep_error_ne _ _ _ _ _ _ (fun x es => run_error_ne E st s x es)
        (fun es => getItem_error_ne E) h1 with ⟨z, v, hz, hv⟩ | hn
      · unfold fieldStep
        rw [hz]
        dsimp only
        rw [hv, run_lax_ok E st s z v hv]
      · unfold fieldStep
        rw [hn]
    simp only [runFields, e1, runFields_lax E st rest x d h2]
termination_by structural fs => fs
end

/-! ### The errors of unreadable items -/

/-- An unreadable item ends the loop over a dict. -/
theorem dictLoop_bad (O : Ops StringMapping V) (kf vf : StringMapping → Res V) (es : Errs)
    (post : List (Except Errs (StringMapping × StringMapping))) :
    ∀ (pre : List (Except Errs (StringMapping × StringMapping))) (errors : Errs)
      (out : List (Out V × Out V)), (∀ p ∈ pre, ∃ q, p = .ok q) →
      dictLoop O kf vf (pre ++ .error es :: post) errors out = .error es := by
  intro pre
  induction pre with
  | nil => intros; rfl
  | cons p pre ih =>
    intro errors out h
    obtain ⟨⟨a, b⟩, hq⟩ := h p (by simp)
    subst hq
    have h' : ∀ p ∈ pre, ∃ q, p = .ok q := fun p hm => h p (List.mem_cons_of_mem _ hm)
    simp only [List.cons_append]
    unfold dictLoop
    cases kf a <;> cases vf b <;> exact ih _ _ h'

/-- An unreadable item ends the loop over the extra items. -/
theorem extraLoop_bad (O : Ops StringMapping V) (extra : Extra) (used : List String) (es : Errs)
    (post : List (Except Errs (StringMapping × StringMapping))) :
    ∀ (pre : List (Except Errs (StringMapping × StringMapping))) (errors : Errs)
      (out : List (String × PyT)), (∀ p ∈ pre, ∃ q, p = .ok q) →
      extraLoop O extra used (pre ++ .error es :: post) errors out = .error es := by
  intro pre
  induction pre with
  | nil => intros; rfl
  | cons p pre ih =>
    intro errors out h
    obtain ⟨⟨a, b⟩, hq⟩ := h p (by simp)
    subst hq
    have h' : ∀ p ∈ pre, ∃ q, p = .ok q := fun p hm => h p (List.mem_cons_of_mem _ hm)
    simp only [List.cons_append]
    unfold extraLoop
    cases O.strictStr a with
    | error e => exact ih _ _ h'
    | ok name =>
      dsimp only
      split
      · exact ih _ _ h'
      · cases extra <;> exact ih _ _ h'

theorem item_good {kv : PyT × PyT} (hk : ∃ s, kv.1 = .str s) (hv : StrOrDict kv.2) :
    ∃ q, item kv = .ok q := by
  obtain ⟨a, b⟩ := kv
  obtain ⟨s, rfl⟩ := hk
  rcases hv with ⟨t, rfl⟩ | ⟨items, rfl⟩
  · exact ⟨_, item_ok (newKey_eq s) rfl⟩
  · exact ⟨_, item_ok (newKey_eq s) rfl⟩

/-- The error of an unreadable field value is among those of the fields, with its name. -/
theorem runFields_bad (E : Env V) (st : Option Bool) (name : String) (y : PyT) (hy : ¬ StrOrDict y) :
    ∀ (fs : Fields V) (x : StringMapping) (d : List (PyT × PyT)), HasField name fs →
      dictGet d name = some y →
      LineError.newWithLoc (.other "string_type") y (.s name) ∈ (runFields (stringOps E) E st fs x d).errors
  | .nil, _, _, h, _ => by cases h
  | .cons n dflt s rest, x, d, h, hg => by
    unfold runFields
    rcases h with rfl | h
    · refine List.mem_append_left _ ?_
      unfold fieldStep
      rw [getItem_eq, hg]
      dsimp only
      rw [newValue_error hy]
      exact List.mem_cons_self
    · exact List.mem_append_right _ (runFields_bad E st name y hy rest x d h hg)

end PC.StringMode
