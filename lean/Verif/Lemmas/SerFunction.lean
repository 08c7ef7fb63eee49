import Verif.Spec.SerFunction

/-
Lemmas about function serialisers.
-/

namespace PC.SerFunction
open PC.Filter (FVal)

variable {V J G ε : Type}

theorem Mode.isJson_iff (m : Mode) : m.isJson = true ↔ m = .json := by
  cases m <;> simp [Mode.isJson]

theorem shouldUse_iff (E : Env V J G ε) (w : WhenUsed) (x : Extra V) (v : V) :
    w.shouldUse E v x = true ↔ Used E w x v := by
  cases w <;> simp [WhenUsed.shouldUse, Used, Applies, Mode.isJson_iff]

theorem shouldUse_false_iff (E : Env V J G ε) (w : WhenUsed) (x : Extra V) (v : V) :
    w.shouldUse E v x = false ↔ ¬ Used E w x v := by
  rw [← shouldUse_iff]; simp

theorem shouldUseJson_iff (E : Env V J G ε) (w : WhenUsed) (x : Extra V) (v : V) (hm : x.mode = .json) :
    w.shouldUseJson E v = w.shouldUse E v x := by
  cases w <;> simp [WhenUsed.shouldUse, WhenUsed.shouldUseJson, hm, Mode.isJson]

theorem not_used_always {E : Env V J G ε} {w : WhenUsed} {x : Extra V} {v : V} (h : ¬ Used E w x v) :
    w ≠ .always := by
  rintro rfl; exact h trivial

theorem call_not_used {E : Env V J G ε} {w : WhenUsed} {x : Extra V} {v : V} (h : ¬ Used E w x v) (kind : Text)
    (f : Fn V ε) (exec : Extra V → Option FVal → Option FVal → Prog V ε → M G (Exc ε) V) (incl excl : Option FVal)
    (st : St G) : call E w kind f exec x v incl excl st = (.ok (false, v), st) := by
  unfold call
  rw [if_neg (by rw [shouldUse_iff]; exact h)]

theorem mkArgs_for {kind : Text} {f : Fn V ε} {x : Extra V} {v : V} {incl excl : Option FVal} {a : Args V}
    (h : mkArgs kind f x v incl excl = .ok a) : ArgsFor f x v incl excl a := by
  unfold mkArgs mkInfo at h
  cases hf : f.isField <;> cases hi : f.infoArg <;> cases hm : x.model <;> cases hn : x.fieldName <;>
    simp [hf, hi, hm, hn] at h <;> subst h <;>
    exact
      { value := rfl
        model := by simp [hf, hm]
        info_none := by simp [hi]
        info_some := by
          intro h'
          first
            | exact absurd (hi.symm.trans h') Bool.false_ne_true
            | exact ⟨_, rfl, by constructor <;> simp [hf, hn]⟩ }

theorem ArgsFor.unique {f : Fn V ε} {x : Extra V} {v : V} {incl excl : Option FVal} {a b : Args V}
    (ha : ArgsFor f x v incl excl a) (hb : ArgsFor f x v incl excl b) : a = b := by
  obtain ⟨am, av, ai⟩ := a
  obtain ⟨bm, bv, bi⟩ := b
  have h1 : av = bv := ha.value.trans hb.value.symm
  have h2 : am = bm := ha.model.trans hb.model.symm
  have h3 : ai = bi := by
    cases hi : f.infoArg
    · exact (ha.info_none hi).trans (hb.info_none hi).symm
    · obtain ⟨i, hi1, hi2⟩ := ha.info_some hi
      obtain ⟨j, hj1, hj2⟩ := hb.info_some hi
      dsimp only at hi1 hj1
      rw [hi1, hj1]
      congr 1
      obtain ⟨⟩ := i
      obtain ⟨⟩ := j
      congr 1
      · exact hi2.incl.trans hj2.incl.symm
      · exact hi2.excl.trans hj2.excl.symm
      · exact hi2.context.trans hj2.context.symm
      · exact hi2.mode.trans hj2.mode.symm
      · exact hi2.byAlias.trans hj2.byAlias.symm
      · exact hi2.excludeUnset.trans hj2.excludeUnset.symm
      · exact hi2.excludeDefaults.trans hj2.excludeDefaults.symm
      · exact hi2.excludeNone.trans hj2.excludeNone.symm
      · exact hi2.roundTrip.trans hj2.roundTrip.symm
      · exact hi2.fieldName.trans hj2.fieldName.symm
      · exact hi2.serializeAsAny.trans hj2.serializeAsAny.symm
  rw [h1, h2, h3]

theorem mkArgs_ok_iff (kind : Text) (f : Fn V ε) (x : Extra V) (v : V) (incl excl : Option FVal) :
    (∃ a, mkArgs kind f x v incl excl = .ok a) ↔ HasContext f x := by
  unfold mkArgs mkInfo HasContext
  cases hf : f.isField <;> cases hi : f.infoArg <;> cases hm : x.model <;> cases hn : x.fieldName <;>
    simp

theorem mkArgs_of_for {kind : Text} {f : Fn V ε} {x : Extra V} {v : V} {incl excl : Option FVal} {a : Args V}
    (hc : HasContext f x) (ha : ArgsFor f x v incl excl a) : mkArgs kind f x v incl excl = .ok a := by
  obtain ⟨b, hb⟩ := (mkArgs_ok_iff kind f x v incl excl).2 hc
  rw [hb, (mkArgs_for hb).unique ha]

/-- The error of missing context does not depend on the value. -/
theorem mkArgs_error_blind {kind : Text} {f : Fn V ε} {x : Extra V} {v : V} {incl excl : Option FVal} {e : Exc ε}
    (h : mkArgs kind f x v incl excl = .error e) (v' : V) :
    mkArgs kind f x v' incl excl = .error e ∧ ¬ IsUnexpected e := by
  unfold mkArgs mkInfo at *
  cases hf : f.isField <;> cases hi : f.infoArg <;> cases hm : x.model <;> cases hn : x.fieldName <;>
    simp [hf, hi, hm, hn] at h ⊢ <;> subst h <;> simp [IsUnexpected]

theorem call_used {E : Env V J G ε} {w : WhenUsed} {x : Extra V} {v : V} (h : Used E w x v) (kind : Text)
    {f : Fn V ε} (exec : Extra V → Option FVal → Option FVal → Prog V ε → M G (Exc ε) V) {incl excl : Option FVal}
    {a : Args V} (hc : HasContext f x) (ha : ArgsFor f x v incl excl a) (st : St G) :
    call E w kind f exec x v incl excl st =
      match exec x incl excl (f.body a) st with
      | (.ok o, st1) => (.ok (true, o), st1)
      | (.err e, st1) => (.err e, st1)
      | (.panic, st1) => (.panic, st1) := by
  unfold call
  rw [if_pos ((shouldUse_iff E w x v).2 h), mkArgs_of_for hc ha]
  rfl

theorem onError_reported {E : Env V J G ε} {name : Text} (x : Extra V) {e : Exc ε} (h : ¬ IsUnexpected e) (st : St G) :
    ∃ t, Reported E name e t ∧ onError E name x e st = (.err (.serError t), st) := by
  cases e with
  | unexpected u => exact absurd trivial h
  | serError m => exact ⟨_, .own m, rfl⟩
  | recursion => exact ⟨_, .recursion, rfl⟩
  | omitted => exact ⟨_, .omitted, rfl⟩
  | runtime m => exact ⟨_, .runtime m, rfl⟩
  | filter e => exact ⟨_, .filter e, rfl⟩
  | user e => exact ⟨_, .user e, rfl⟩

theorem finalCheck_no_panic (E : Env V J G ε) (m : WarnMode) (st : St G) : (finalCheck E m st).1 ≠ .panic := by
  unfold finalCheck
  split
  · simp
  · split
    · simp
    · split
      · dsimp only; split <;> simp
      · simp

theorem finalCheck_quiet (E : Env V J G ε) (m : WarnMode) (st : St G) (h : m = .none ∨ st.warnings = []) :
    finalCheck E m st = (.ok (), st) := by
  unfold finalCheck
  rcases h with h | h
  · simp [h]
  · by_cases hm : m = .none <;> simp [h, hm]

theorem checked_no_panic (E : Env V J G ε) {s : Ser V J G ε} (hs : NoPanic s) (x : Extra V) (v : V)
    (incl excl : Option FVal) (st : St G) : (checked E s x v incl excl st).1 ≠ .panic := by
  unfold checked
  have h1 := hs.py x v incl excl st
  cases h : s.py x v incl excl st with
  | mk r st1 =>
    cases r with
    | panic => rw [h] at h1; exact absurd rfl h1
    | err e => simp
    | ok o =>
      dsimp only
      have h2 := finalCheck_no_panic E x.warnMode st1
      cases hf : finalCheck E x.warnMode st1 with
      | mk r2 st2 =>
        cases r2 with
        | panic => rw [hf] at h2; exact absurd rfl h2
        | err e => simp
        | ok u => simp

theorem handler_no_panic (E : Env V J G ε) {s : Ser V J G ε} (hs : NoPanic s) (x : Extra V) (incl excl : Option FVal)
    (v : V) (key : Option Filter.Key) (st : St G) : (handler E s x incl excl v key st).1 ≠ .panic := by
  unfold handler
  cases key with
  | none => exact checked_no_panic E hs x v incl excl st
  | some k =>
    dsimp only
    cases hf : handlerFilter k incl excl with
    | error e => simp
    | ok n =>
      cases n with
      | none => simp
      | some p => exact checked_no_panic E hs x v p.1 p.2 st

theorem run_no_panic {h : V → Option Filter.Key → M G (Exc ε) V} (hh : ∀ v k st, (h v k st).1 ≠ .panic)
    (p : Prog V ε) (st : St G) : (run h p st).1 ≠ .panic := by
  induction p generalizing st with
  | ret v => simp [run]
  | raise e => simp [run]
  | call v key k ih =>
    unfold run
    have h1 := hh v key st
    cases hc : h v key st with
    | mk r st1 =>
      cases r with
      | ok o => exact ih _ st1
      | err e => exact ih _ st1
      | panic => rw [hc] at h1; exact absurd rfl h1

theorem onError_no_panic (E : Env V J G ε) (name : Text) (x : Extra V) (e : Exc ε) (st : St G) :
    (onError E name x e st).1 ≠ .panic := by
  cases e <;> simp [onError]
  split <;> simp

theorem call_no_panic {E : Env V J G ε} {w : WhenUsed} {kind : Text} {f : Fn V ε}
    {exec : Extra V → Option FVal → Option FVal → Prog V ε → M G (Exc ε) V}
    (he : ∀ x i e p st, (exec x i e p st).1 ≠ .panic) (x : Extra V) (v : V) (incl excl : Option FVal) (st : St G) :
    (call E w kind f exec x v incl excl st).1 ≠ .panic := by
  unfold call
  split
  · cases hm : mkArgs kind f x v incl excl with
    | error e => simp
    | ok a =>
      dsimp only
      have h1 := he x incl excl (f.body a) st
      cases hx : exec x incl excl (f.body a) st with
      | mk r st1 =>
        cases r with
        | panic => rw [hx] at h1; exact absurd rfl h1
        | err e => simp
        | ok o => simp
  · simp

/-- A function that is not used is the only way to the fallback. -/
theorem call_false {E : Env V J G ε} {w : WhenUsed} {kind : Text} {f : Fn V ε}
    {exec : Extra V → Option FVal → Option FVal → Prog V ε → M G (Exc ε) V} {x : Extra V} {v o : V}
    {incl excl : Option FVal} {st st1 : St G}
    (h : call E w kind f exec x v incl excl st = (.ok (false, o), st1)) : ¬ Used E w x v ∧ o = v ∧ st1 = st := by
  by_cases hu : Used E w x v
  · unfold call at h
    rw [if_pos ((shouldUse_iff E w x v).2 hu)] at h
    cases hm : mkArgs kind f x v incl excl with
    | error e => rw [hm] at h; simp at h
    | ok a =>
      rw [hm] at h
      dsimp only at h
      cases hx : exec x incl excl (f.body a) st with
      | mk r st2 => cases r <;> simp [hx] at h
  · rw [call_not_used hu] at h
    simp only [Prod.mk.injEq, Res.ok.injEq, true_and] at h
    exact ⟨hu, h.1.symm, h.2.symm⟩

theorem functionSer_no_panic {E : Env V J G ε} {w : WhenUsed} {kind : Text} {f : Fn V ε}
    {exec : Extra V → Option FVal → Option FVal → Prog V ε → M G (Exc ε) V} {ret : Ser V J G ε}
    {fallback : Option (Ser V J G ε)} (hi : NoPanic E.infer) (hr : NoPanic ret)
    (he : ∀ x i e p st, (exec x i e p st).1 ≠ .panic)
    (hf : w ≠ .always → ∃ s, fallback = some s ∧ NoPanic s) :
    NoPanic (functionSer E w kind f exec ret fallback) := by
  have hc := fun x v i e st => call_no_panic (E := E) (w := w) (kind := kind) (f := f) he x v i e st
  have ho := fun x e st => onError_no_panic E f.name x e st
  constructor
  · intro x v incl excl st
    simp only [functionSer]
    split
    · exact hr.py _ _ _ _ _
    · rename_i h
      obtain ⟨s, rfl, hs⟩ := hf (not_used_always (call_false h).1)
      exact hs.py _ _ _ _ _
    · rename_i h
      exact absurd (by rw [h]) (hc x v incl excl st)
    · split
      · simp
      · rename_i h
        exact absurd (by rw [h]) (ho _ _ _)
      · exact hi.py _ _ _ _ _
  · intro x v st
    simp only [functionSer]
    split
    · exact hr.key _ _ _
    · rename_i h
      obtain ⟨s, rfl, hs⟩ := hf (not_used_always (call_false h).1)
      exact hs.key _ _ _
    · rename_i h
      exact absurd (by rw [h]) (hc x v Option.none Option.none st)
    · split
      · simp
      · rename_i h
        exact absurd (by rw [h]) (ho _ _ _)
      · exact hi.key _ _ _
  · intro x v incl excl st
    simp only [functionSer]
    split
    · exact hr.json _ _ _ _ _
    · rename_i h
      obtain ⟨s, rfl, hs⟩ := hf (not_used_always (call_false h).1)
      exact hs.json _ _ _ _ _
    · rename_i h
      exact absurd (by rw [h]) (hc x v incl excl st)
    · split
      · simp
      · rename_i h
        exact absurd (by rw [h]) (ho _ _ _)
      · exact hi.json _ _ _ _ _

theorem lift_no_panic {A B : Type} (r : Except A B) (st : St G) : (lift r st).1 ≠ .panic := by
  cases r <;> simp [lift]

theorem formatSer_no_panic (E : Env V J G ε) (w : WhenUsed) (s : Text) : NoPanic (formatSer E w s) := by
  constructor
  · intro x v i e st
    simp only [formatSer]
    split
    · split <;> simp
    · simp
  · intro x v st
    simp only [formatSer]
    split
    · split
      · exact lift_no_panic _ _
      · simp
    · simp
  · intro x v i e st
    simp only [formatSer]
    split
    · split
      · exact lift_no_panic _ _
      · simp
    · simp

theorem toStringSer_no_panic (E : Env V J G ε) (w : WhenUsed) : NoPanic (toStringSer E w) := by
  constructor
  · intro x v i e st
    simp only [toStringSer]
    split
    · exact lift_no_panic _ _
    · simp
  · intro x v st
    simp only [toStringSer]
    split
    · split <;> simp
    · simp
  · intro x v i e st
    simp only [toStringSer]
    split
    · split
      · exact lift_no_panic _ _
      · simp
    · simp

theorem runWrap_no_panic (E : Env V J G ε) {s : Ser V J G ε} (hs : NoPanic s) (x : Extra V) (incl excl : Option FVal)
    (p : Prog V ε) (st : St G) : (runWrap E s x incl excl p st).1 ≠ .panic := by
  unfold runWrap
  exact run_no_panic (fun v k st => handler_no_panic E hs x incl excl v k st) p st

theorem runPlain_no_panic (p : Prog V ε) (st : St G) : (runPlain p st).1 ≠ .panic :=
  run_no_panic (fun _ _ _ => by simp [noHandler]) p st

theorem build_no_panic (E : Env V J G ε) (base : Nat → Ser V J G ε) (hi : NoPanic E.infer)
    (hb : ∀ n, NoPanic (base n)) (s : Schema V ε) : NoPanic (build E base s) := by
  induction s with
  | any => exact hi
  | base n => exact hb n
  | validator s ih => exact ih
  | validatorPlain => exact hi
  | plain w f ret outer ihr iho =>
    exact functionSer_no_panic hi ihr (fun _ _ _ p st => runPlain_no_panic p st)
      (fun hw => ⟨_, if_neg hw, iho⟩)
  | wrap w f ret inner ihr ihi =>
    exact functionSer_no_panic hi ihr (fun x i e p st => runWrap_no_panic E ihi x i e p st)
      (fun _ => ⟨_, rfl, ihi⟩)
  | format w s =>
    unfold build
    split
    · exact toStringSer_no_panic E w
    · exact formatSer_no_panic E w s
  | toStr w => exact toStringSer_no_panic E w

/-- Values that the function does not tell apart are serialised alike. -/
theorem functionSer_blind {E : Env V J G ε} {w : WhenUsed} {kind : Text} {f : Fn V ε}
    {exec : Extra V → Option FVal → Option FVal → Prog V ε → M G (Exc ε) V} {ret : Ser V J G ε}
    {fallback : Option (Ser V J G ε)} {x : Extra V} {v v' : V} (h : Used E w x v) (h' : Used E w x v')
    (hb : ∀ m i, f.body ⟨m, v, i⟩ = f.body ⟨m, v', i⟩)
    (hu : ∀ m i inc exc e st1 st2, exec x inc exc (f.body ⟨m, v, i⟩) st1 = (.err e, st2) → ¬ IsUnexpected e)
    (incl excl : Option FVal) (st : St G) :
    (functionSer E w kind f exec ret fallback).py x v incl excl st =
      (functionSer E w kind f exec ret fallback).py x v' incl excl st ∧
    (functionSer E w kind f exec ret fallback).json x v incl excl st =
      (functionSer E w kind f exec ret fallback).json x v' incl excl st ∧
    (functionSer E w kind f exec ret fallback).key x v st =
      (functionSer E w kind f exec ret fallback).key x v' st := by
  have hcall : ∀ i e, call E w kind f exec x v i e st =
      call E w kind f exec x v' i e st ∧
      (∀ ex st1, call E w kind f exec x v i e st = (.err ex, st1) →
        ¬ IsUnexpected ex) ∧
      (∀ o st1, call E w kind f exec x v i e st ≠ (.ok (false, o), st1)) := by
    intro i e
    have hnf : ∀ o st1, call E w kind f exec x v i e st ≠ (.ok (false, o), st1) :=
      fun o st1 hh => (call_false hh).1 h
    refine ⟨?_, ?_, hnf⟩
    · unfold call
      rw [if_pos ((shouldUse_iff E w x v).2 h), if_pos ((shouldUse_iff E w x v').2 h')]
      cases hm : mkArgs kind f x v i e with
      | error ex => rw [(mkArgs_error_blind hm v').1]
      | ok a =>
        have ha := mkArgs_for hm
        have hc := (mkArgs_ok_iff kind f x v i e).1 ⟨a, hm⟩
        have ha' : ArgsFor f x v' i e ⟨a.model, v', a.info⟩ := ⟨rfl, ha.model, ha.info_none, ha.info_some⟩
        rw [mkArgs_of_for hc ha']
        have : f.body a = f.body ⟨a.model, v', a.info⟩ := by
          rw [← hb a.model a.info, ← ha.value]
        dsimp only
        rw [this]
    · intro ex st1 hh
      unfold call at hh
      rw [if_pos ((shouldUse_iff E w x v).2 h)] at hh
      cases hm : mkArgs kind f x v i e with
      | error e' =>
        rw [hm] at hh
        simp only [Prod.mk.injEq, Res.err.injEq] at hh
        exact hh.1 ▸ (mkArgs_error_blind hm v).2
      | ok a =>
        rw [hm] at hh
        dsimp only at hh
        cases hr : exec x i e (f.body a) st with
        | mk r st2 =>
          rw [hr] at hh
          cases r with
          | ok o => simp at hh
          | panic => simp at hh
          | err e' =>
            simp only [Prod.mk.injEq, Res.err.injEq] at hh
            have ha := (mkArgs_for hm).value
            obtain ⟨am, av, ai⟩ := a
            dsimp only at ha
            subst ha
            exact hh.1 ▸ hu am ai i e e' st st2 hr
  refine ⟨?_, ?_, ?_⟩
  · obtain ⟨h1, h2, h3⟩ := hcall incl excl
    simp only [functionSer]
    rw [← h1]
    cases hc : call E w kind f exec x v incl excl st with
    | mk r st1 =>
      cases r with
      | ok p =>
        obtain ⟨u, o⟩ := p
        cases u with
        | true => rfl
        | false => exact absurd hc (h3 o st1)
      | panic => rfl
      | err ex =>
        obtain ⟨t, _, ho⟩ := onError_reported (E := E) (name := f.name) x (h2 ex st1 hc) st1
        dsimp only
        rw [ho]
  · obtain ⟨h1, h2, h3⟩ := hcall incl excl
    simp only [functionSer]
    rw [← h1]
    cases hc : call E w kind f exec x v incl excl st with
    | mk r st1 =>
      cases r with
      | ok p =>
        obtain ⟨u, o⟩ := p
        cases u with
        | true => rfl
        | false => exact absurd hc (h3 o st1)
      | panic => rfl
      | err ex =>
        obtain ⟨t, _, ho⟩ := onError_reported (E := E) (name := f.name) x (h2 ex st1 hc) st1
        dsimp only
        rw [ho]
  · obtain ⟨h1, h2, h3⟩ := hcall Option.none Option.none
    simp only [functionSer]
    rw [← h1]
    cases hc : call E w kind f exec x v Option.none Option.none st with
    | mk r st1 =>
      cases r with
      | ok p =>
        obtain ⟨u, o⟩ := p
        cases u with
        | true => rfl
        | false => exact absurd hc (h3 o st1)
      | panic => rfl
      | err ex =>
        obtain ⟨t, _, ho⟩ := onError_reported (E := E) (name := f.name) x (h2 ex st1 hc) st1
        dsimp only
        rw [ho]

/-- Agreement of the two outputs is kept by the function serialisers. -/
theorem functionSer_agrees {E : Env V J G ε} {rel : V → J → Prop} {w : WhenUsed} {kind : Text} {f : Fn V ε}
    {exec : Extra V → Option FVal → Option FVal → Prog V ε → M G (Exc ε) V} {ret : Ser V J G ε}
    {fallback : Option (Ser V J G ε)} (hi : JsonAgrees rel E.infer) (hr : JsonAgrees rel ret)
    (hf : ∀ s, fallback = some s → JsonAgrees rel s) :
    JsonAgrees rel (functionSer E w kind f exec ret fallback) := by
  intro x v incl excl st hm b st' h
  simp only [functionSer] at h ⊢
  cases hc : call E w kind f exec x v incl excl st with
  | mk r st1 =>
    rw [hc] at h
    cases r with
    | ok p =>
      obtain ⟨u, o⟩ := p
      cases u with
      | true => exact hr x o _ _ st1 hm b st' h
      | false =>
        cases hfb : fallback with
        | none => rw [hfb] at h; simp [expectJson] at h
        | some s =>
          rw [hfb] at h
          exact hf s hfb x o _ _ st1 hm b st' h
    | err e =>
      dsimp only at h ⊢
      cases ho : onError E f.name x e st1 with
      | mk r2 st2 =>
        rw [ho] at h
        cases r2 with
        | ok u => exact hi x v _ _ st2 hm b st' h
        | err e2 => simp at h
        | panic => simp at h
    | panic => simp at h

theorem formatSer_agrees {E : Env V J G ε} {rel : V → J → Prop} (w : WhenUsed) (s : Text)
    (hs : ∀ v j, E.strJson v = .ok j → rel v j) (hn : ∀ v, E.isNone v = true → rel v E.null) :
    JsonAgrees rel (formatSer E w s) := by
  intro x v incl excl st hm b st' h
  simp only [formatSer, shouldUseJson_iff E w x v hm] at h ⊢
  cases hu : w.shouldUse E v x with
  | true =>
    simp only [hu, if_true] at h ⊢
    cases hf : formatCall E s v with
    | error e => rw [hf] at h; simp at h
    | ok o =>
      rw [hf] at h
      dsimp only at h ⊢
      cases hj : E.strJson o with
      | error e => simp [lift, hj] at h
      | ok j =>
        simp only [lift, hj, Prod.mk.injEq, Res.ok.injEq] at h
        exact ⟨o, by rw [h.2], h.1 ▸ hs o j hj⟩
  | false =>
    simp only [hu, Bool.false_eq_true, if_false, Prod.mk.injEq, Res.ok.injEq] at h ⊢
    refine ⟨v, ⟨rfl, h.2⟩, h.1 ▸ hn v ?_⟩
    cases w <;> simp [WhenUsed.shouldUse, hm, Mode.isJson] at hu <;> exact hu

theorem toStringSer_agrees {E : Env V J G ε} {rel : V → J → Prop} (w : WhenUsed)
    (hs : ∀ v j, E.strJson v = .ok j → rel v j) (hn : ∀ v, E.isNone v = true → rel v E.null) :
    JsonAgrees rel (toStringSer E w) := by
  intro x v incl excl st hm b st' h
  simp only [toStringSer, shouldUseJson_iff E w x v hm] at h ⊢
  cases hu : w.shouldUse E v x with
  | true =>
    simp only [hu, if_true] at h ⊢
    cases hf : E.str v with
    | error e => rw [hf] at h; simp at h
    | ok o =>
      rw [hf] at h
      dsimp only at h ⊢
      cases hj : E.strJson o with
      | error e => simp [lift, hj] at h
      | ok j =>
        simp only [lift, hj, Prod.mk.injEq, Res.ok.injEq] at h
        exact ⟨o, by simp [lift, h.2], h.1 ▸ hs o j hj⟩
  | false =>
    simp only [hu, Bool.false_eq_true, if_false, Prod.mk.injEq, Res.ok.injEq] at h ⊢
    refine ⟨v, ⟨rfl, h.2⟩, h.1 ▸ hn v ?_⟩
    cases w <;> simp [WhenUsed.shouldUse, hm, Mode.isJson] at hu <;> exact hu

theorem build_agrees (E : Env V J G ε) (base : Nat → Ser V J G ε) (rel : V → J → Prop)
    (hi : JsonAgrees rel E.infer) (hb : ∀ n, JsonAgrees rel (base n))
    (hs : ∀ v j, E.strJson v = .ok j → rel v j) (hn : ∀ v, E.isNone v = true → rel v E.null) (s : Schema V ε) :
    JsonAgrees rel (build E base s) := by
  induction s with
  | any => exact hi
  | base n => exact hb n
  | validator s ih => exact ih
  | validatorPlain => exact hi
  | plain w f ret outer ihr iho =>
    refine functionSer_agrees hi ihr ?_
    intro s h
    split at h
    · cases h
    · cases h; exact iho
  | wrap w f ret inner ihr ihi =>
    refine functionSer_agrees hi ihr ?_
    intro s h
    cases h; exact ihi
  | format w s =>
    unfold build
    split
    · exact toStringSer_agrees w hs hn
    · exact formatSer_agrees w s hs hn
  | toStr w => exact toStringSer_agrees w hs hn

end PC.SerFunction
