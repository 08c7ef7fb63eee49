import Verif.Spec.Arguments
import Verif.Lemmas.Fields

namespace PC.Args
open PC.Lookup PC.Fields
variable {α : Type}

/-! ### Lists of names -/

theorem insertNew_mem (k x : String) (used : List String) :
    x ∈ insertNew k used ↔ x = k ∨ x ∈ used := by
  unfold insertNew
  split
  · rename_i h
    rw [List.contains_iff_mem] at h
    constructor
    · exact Or.inr
    · rintro (rfl | h') <;> assumption
  · rw [List.mem_append, List.mem_singleton]
    exact or_comm

theorem insertNew_nodup (k : String) {used : List String} (h : used.Nodup) :
    (insertNew k used).Nodup := by
  unfold insertNew
  split
  · exact h
  · rename_i h'
    rw [List.contains_iff_mem] at h'
    rw [List.nodup_append]
    refine ⟨h, by simp, ?_⟩
    intro a ha b hb
    rw [List.mem_singleton] at hb
    subst hb
    intro e
    subst e
    exact h' ha

/-- A list without repetitions inside another one of no greater length has all its items. -/
theorem all_of_length {used keys : List String} (hu : used.Nodup) (hs : ∀ x ∈ used, x ∈ keys)
    (hl : keys.length ≤ used.length) : ∀ x ∈ keys, x ∈ used := by
  induction keys generalizing used with
  | nil => intro x hx; cases hx
  | cons k ks ih =>
    by_cases hk : k ∈ used
    · have hu' := hu.erase k
      have hlen : (used.erase k).length = used.length - 1 := List.length_erase_of_mem hk
      have := ih hu' (by
        intro x hx
        rw [hu.mem_erase_iff] at hx
        rcases List.mem_cons.1 (hs x hx.2) with h | h
        · exact absurd h hx.1
        · exact h) (by
        simp only [List.length_cons] at hl
        omega)
      intro x hx
      rcases List.mem_cons.1 hx with h | h
      · rw [h]; exact hk
      · exact List.mem_of_mem_erase (this x h)
    · exfalso
      have h1 : ∀ x ∈ used, x ∈ ks := by
        intro x hx
        rcases List.mem_cons.1 (hs x hx) with h | h
        · subst h; exact absurd hx hk
        · exact h
      have h2 : used.length ≤ ks.length := by
        clear ih hl hk hs
        induction ks generalizing used with
        | nil =>
          cases used with
          | nil => exact Nat.le_refl _
          | cons y ys => cases h1 y (List.mem_cons_self ..)
        | cons z zs ihz =>
          by_cases hz : z ∈ used
          · have := ihz (used := used.erase z) (hu.erase z) (by
              intro x hx
              rw [hu.mem_erase_iff] at hx
              rcases List.mem_cons.1 (h1 x hx.2) with h | h
              · exact absurd h hx.1
              · exact h)
            have hlen : (used.erase z).length = used.length - 1 := List.length_erase_of_mem hz
            simp only [List.length_cons]
            omega
          · have := ihz hu (by
              intro x hx
              rcases List.mem_cons.1 (h1 x hx) with h | h
              · subst h; exact absurd hx hz
              · exact h)
            simp only [List.length_cons]
            omega
      simp only [List.length_cons] at hl
      omega

/-! ### One parameter -/

/-- The keyword value of a parameter without alias. -/
def kwValue (kw : Dict α) (p : Param α) : Option α :=
  if p.mode.keyword then kw.get p.name else none

/-- The positional value of a parameter. -/
def argValue (args : List α) (p : Param α) (i : Nat) : Option α :=
  if p.mode.positional then args[i]? else none

/-- The names used after a parameter. -/
def usedAfter (kw : Dict α) (p : Param α) (used : List String) : List String :=
  match kwValue kw p with
  | some _ => insertNew p.name used
  | none => used

/-- The error for a missing parameter. -/
def missingError (p : Param α) (i : Nat) (input : α) : LineError α :=
  match p.mode with
  | .positionalOnly => .newWithLoc .missingPositionalOnlyArgument input (.i i)
  | .positionalOrKeyword => .newWithLoc .missingArgument input (.s p.name)
  | .keywordOnly => .newWithLoc .missingKeywordOnlyArgument input (.s p.name)

/-- What one iteration of the loop over parameters does, if it does not return. -/
inductive StepR (args : List α) (kw : Dict α) (input : α) (i : Nat) (p : Param α) (acc : Acc α) :
    Acc α → Prop
  | both {x v} : argValue args p i = some x → kwValue kw p = some v →
      StepR args kw input i p acc
        ⟨acc.outArgs, acc.outKwargs, acc.errs ++ [.newWithLoc .multipleArgumentValues v (.s p.name)],
          usedAfter kw p acc.used, acc.st⟩
  | pos {x w st st'} : argValue args p i = some x → kwValue kw p = none →
      st.extra.fieldName = some p.name → (p.run x st).1 = .ok w →
      StepR args kw input i p acc
        ⟨acc.outArgs ++ [w], acc.outKwargs, acc.errs, usedAfter kw p acc.used, st'⟩
  | posErr {x ls st st'} : argValue args p i = some x → kwValue kw p = none →
      st.extra.fieldName = some p.name → (p.run x st).1 = .error (.lineErrors ls) →
      StepR args kw input i p acc
        ⟨acc.outArgs, acc.outKwargs, acc.errs ++ ls.map (·.withOuterLocation (.i i)),
          usedAfter kw p acc.used, st'⟩
  | kw {x w st st'} : argValue args p i = none → kwValue kw p = some x →
      st.extra.fieldName = some p.name → (p.run x st).1 = .ok w →
      StepR args kw input i p acc
        ⟨acc.outArgs, acc.outKwargs.set p.name w, acc.errs, usedAfter kw p acc.used, st'⟩
  | kwErr {x ls st st'} : argValue args p i = none → kwValue kw p = some x →
      st.extra.fieldName = some p.name → (p.run x st).1 = .error (.lineErrors ls) →
      StepR args kw input i p acc
        ⟨acc.outArgs, acc.outKwargs, acc.errs ++ ls.map (·.withOuterLocation (.s p.name)),
          usedAfter kw p acc.used, st'⟩
  | dfltKw {w st st'} : argValue args p i = none → kwValue kw p = none →
      st.extra.fieldName = some p.name → (p.dflt (some (.s p.name)) st).1 = .ok (some w) →
      p.mode.keyword = true →
      StepR args kw input i p acc
        ⟨acc.outArgs, acc.outKwargs.set p.name w, acc.errs, usedAfter kw p acc.used, st'⟩
  | dfltPos {w st st'} : argValue args p i = none → kwValue kw p = none →
      st.extra.fieldName = some p.name → (p.dflt (some (.s p.name)) st).1 = .ok (some w) →
      p.mode.keyword = false →
      StepR args kw input i p acc
        ⟨acc.outArgs ++ [w], acc.outKwargs, acc.errs, usedAfter kw p acc.used, st'⟩
  | missing {st st'} : argValue args p i = none → kwValue kw p = none →
      st.extra.fieldName = some p.name → (p.dflt (some (.s p.name)) st).1 = .ok none →
      StepR args kw input i p acc
        ⟨acc.outArgs, acc.outKwargs, acc.errs ++ [missingError p i input],
          usedAfter kw p acc.used, st'⟩

theorem lookup_eq {a : Arguments α} {view : ArgsView α} {args : List α} {kw : Dict α}
    (hc : a.Call view args kw) {p : Param α}
    (hk : p.keys = ⟨.simple (.ofStr p.name), none, none⟩) {ba bn : Bool}
    (hb : ba = true ∨ bn = true) :
    Arguments.lookup view p ba bn =
      .ok (if p.mode.keyword then some (.simple (.ofStr p.name)) else none,
        (kwValue kw p).map fun v => (.ofStr p.name, v)) := by
  have hs : p.keys.select ba bn = .ok (.simple (.ofStr p.name)) := by
    rw [hk]
    cases ba <;> cases bn <;> simp_all [KeyCollection.select]
  simp only [Arguments.lookup, kwValue]
  by_cases hm : p.mode.keyword = true
  · rw [if_pos hm, if_pos hm, if_pos hm, hs]
    dsimp only
    have := hc.kwargs
    cases hv : view.kwargs with
    | none =>
      rw [hv] at this
      dsimp only at this
      subst this
      rfl
    | some k =>
      rw [hv] at this
      dsimp only at this ⊢
      rw [this.2.1]
  · rw [if_neg hm, if_neg hm, if_neg hm]
    rfl

theorem posValue_eq {a : Arguments α} {view : ArgsView α} {args : List α} {kw : Dict α}
    (hc : a.Call view args kw) (p : Param α) (i : Nat) :
    posValue view p i = argValue args p i := by
  have := hc.args
  unfold posValue argValue
  cases hv : view.args with
  | none =>
    rw [hv] at this
    simp only [Option.getD_none] at this
    subst this
    simp
  | some l =>
    rw [hv] at this
    simp only [Option.getD_some] at this
    subst this
    rfl

/-- What a step does. -/
theorem step_spec (a : Arguments α) {view : ArgsView α} {args : List α} {kw : Dict α}
    (hc : a.Call view args kw) {p : Param α}
    (hk : p.keys = ⟨.simple (.ofStr p.name), none, none⟩) {ba bn : Bool}
    (hb : ba = true ∨ bn = true) (input : α) (i : Nat) (acc : Acc α) :
    ((a.step view input ba bn i p acc).1 = .ok () ∧
      StepR args kw input i p acc (a.step view input ba bn i p acc).2) ∨
    (∃ e st, (a.step view input ba bn i p acc).1 = .error e ∧ st.extra.fieldName = some p.name ∧
      ((∃ x, (argValue args p i).or (kwValue kw p) = some x ∧ (p.run x st).1 = .error e ∧
          ∀ ls, e ≠ .lineErrors ls) ∨
        ((argValue args p i).or (kwValue kw p) = none ∧
          (p.dflt (some (.s p.name)) st).1 = .error e))) := by
  have hst : ∀ st : VState α,
      ({ st with extra := { st.extra with fieldName := some p.name } } : VState α).extra.fieldName
        = some p.name := fun _ => rfl
  simp only [Arguments.step]
  rw [lookup_eq hc hk hb]
  dsimp only
  rw [posValue_eq hc]
  have hu : ∀ r : Option α, kwValue kw p = r →
      usedAfter kw p acc.used = match r with
        | some _ => insertNew p.name acc.used
        | none => acc.used := by
    intro r hr
    rw [← hr]
    rfl
  cases hp : argValue args p i with
  | some x =>
    cases hq : kwValue kw p with
    | some v =>
      refine Or.inl ⟨rfl, ?_⟩
      have := StepR.both (input := input) (acc := acc) hp hq
      rw [hu _ hq] at this
      exact this
    | none =>
      simp only [rebindExtra, Option.map_none]
      generalize hr : p.run x _ = r
      cases hr1 : r.1 with
      | ok w =>
        refine Or.inl ⟨rfl, ?_⟩
        have := StepR.pos (input := input) (acc := acc)
          (st' := { r.2 with extra := acc.st.extra }) hp hq (hst acc.st) (by rw [hr]; exact hr1)
        rw [hu _ hq] at this
        exact this
      | error e =>
        cases e with
        | lineErrors ls =>
          refine Or.inl ⟨rfl, ?_⟩
          have := StepR.posErr (input := input) (acc := acc)
            (st' := { r.2 with extra := acc.st.extra }) hp hq (hst acc.st) (by rw [hr]; exact hr1)
          rw [hu _ hq] at this
          exact this
        | internal e =>
          exact Or.inr ⟨_, _, rfl, hst acc.st,
            Or.inl ⟨x, rfl, by rw [hr]; exact hr1, fun _ h => by cases h⟩⟩
        | omitted =>
          exact Or.inr ⟨_, _, rfl, hst acc.st,
            Or.inl ⟨x, rfl, by rw [hr]; exact hr1, fun _ h => by cases h⟩⟩
        | useDefault =>
          exact Or.inr ⟨_, _, rfl, hst acc.st,
            Or.inl ⟨x, rfl, by rw [hr]; exact hr1, fun _ h => by cases h⟩⟩
  | none =>
    cases hq : kwValue kw p with
    | some x =>
      simp only [rebindExtra, Option.map_some]
      generalize hr : p.run x _ = r
      cases hr1 : r.1 with
      | ok w =>
        refine Or.inl ⟨rfl, ?_⟩
        have := StepR.kw (input := input) (acc := acc)
          (st' := { r.2 with extra := acc.st.extra }) hp hq (hst acc.st) (by rw [hr]; exact hr1)
        rw [hu _ hq] at this
        exact this
      | error e =>
        cases e with
        | lineErrors ls =>
          refine Or.inl ⟨rfl, ?_⟩
          have := StepR.kwErr (input := input) (acc := acc)
            (st' := { r.2 with extra := acc.st.extra }) hp hq (hst acc.st) (by rw [hr]; exact hr1)
          rw [hu _ hq] at this
          have hl : ∀ e : LineError α,
              (LookupPath.ofStr p.name).applyErrorLoc e a.locByAlias p.name
                = e.withOuterLocation (.s p.name) := by
            intro e
            unfold LookupPath.applyErrorLoc
            split <;> rfl
          simp only [hl]
          exact this
        | internal e =>
          exact Or.inr ⟨_, _, rfl, hst acc.st,
            Or.inl ⟨x, rfl, by rw [hr]; exact hr1, fun _ h => by cases h⟩⟩
        | omitted =>
          exact Or.inr ⟨_, _, rfl, hst acc.st,
            Or.inl ⟨x, rfl, by rw [hr]; exact hr1, fun _ h => by cases h⟩⟩
        | useDefault =>
          exact Or.inr ⟨_, _, rfl, hst acc.st,
            Or.inl ⟨x, rfl, by rw [hr]; exact hr1, fun _ h => by cases h⟩⟩
    | none =>
      simp only [rebindExtra, Option.map_none]
      generalize hr : p.dflt (some (.s p.name)) _ = r
      cases hr1 : r.1 with
      | ok w =>
        cases w with
        | some w =>
          dsimp only
          by_cases hm : p.mode.keyword = true
          · rw [if_pos hm]
            refine Or.inl ⟨rfl, ?_⟩
            have := StepR.dfltKw (input := input) (acc := acc)
              (st' := { r.2 with extra := acc.st.extra }) hp hq (hst acc.st)
              (by rw [hr]; exact hr1) hm
            rw [hu _ hq] at this
            exact this
          · rw [if_neg hm]
            refine Or.inl ⟨rfl, ?_⟩
            have := StepR.dfltPos (input := input) (acc := acc)
              (st' := { r.2 with extra := acc.st.extra }) hp hq (hst acc.st)
              (by rw [hr]; exact hr1) (by simpa using hm)
            rw [hu _ hq] at this
            exact this
        | none =>
          have := StepR.missing (input := input) (acc := acc)
            (st' := { r.2 with extra := acc.st.extra }) hp hq (hst acc.st)
            (by rw [hr]; exact hr1)
          rw [hu _ hq] at this
          dsimp only
          cases hm : p.mode with
          | positionalOnly =>
            refine Or.inl ⟨rfl, ?_⟩
            simp only [missingError, hm] at this
            exact this
          | positionalOrKeyword =>
            refine Or.inl ⟨rfl, ?_⟩
            have he : ∀ t : ErrType, ((LookupKey.simple (.ofStr p.name)).error t input a.locByAlias
                p.name).toList = [.newWithLoc t input (.s p.name)] := by
              intro t
              unfold LookupKey.error
              split <;> rfl
            simpa only [missingError, hm, Mode.keyword, Mode.positional, if_true, he] using this
          | keywordOnly =>
            refine Or.inl ⟨rfl, ?_⟩
            have he : ∀ t : ErrType, ((LookupKey.simple (.ofStr p.name)).error t input a.locByAlias
                p.name).toList = [.newWithLoc t input (.s p.name)] := by
              intro t
              unfold LookupKey.error
              split <;> rfl
            simpa only [missingError, hm, Mode.keyword, Mode.positional, if_true, he, if_false,
              Bool.false_eq_true] using this
      | error e =>
        exact Or.inr ⟨_, _, rfl, hst acc.st, Or.inr ⟨rfl, by rw [hr]; exact hr1⟩⟩

/-! ### The loop over parameters -/

/-- The loop over parameters, if it does not return. -/
inductive Chain (args : List α) (kw : Dict α) (input : α) :
    Nat → List (Param α) → Acc α → Acc α → Prop
  | nil {i acc} : Chain args kw input i [] acc acc
  | cons {i p ps acc acc' acc''} : StepR args kw input i p acc acc' →
      Chain args kw input (i + 1) ps acc' acc'' → Chain args kw input i (p :: ps) acc acc''

/-- What the loop over parameters does. -/
theorem loop_spec (a : Arguments α) {view : ArgsView α} {args : List α} {kw : Dict α}
    (hc : a.Call view args kw) {ba bn : Bool} (hb : ba = true ∨ bn = true) (input : α) :
    ∀ (ps : List (Param α)), (∀ p ∈ ps, p.keys = ⟨.simple (.ofStr p.name), none, none⟩) →
      ∀ (i : Nat) (acc : Acc α),
    ((a.loop view input ba bn i ps acc).1 = .ok () ∧
      Chain args kw input i ps acc (a.loop view input ba bn i ps acc).2) ∨
    (∃ e st j p, ps[j]? = some p ∧ (a.loop view input ba bn i ps acc).1 = .error e ∧
      st.extra.fieldName = some p.name ∧
      ((∃ x, (argValue args p (i + j)).or (kwValue kw p) = some x ∧ (p.run x st).1 = .error e ∧
          ∀ ls, e ≠ .lineErrors ls) ∨
        ((argValue args p (i + j)).or (kwValue kw p) = none ∧
          (p.dflt (some (.s p.name)) st).1 = .error e)))
  | [], _, i, acc => Or.inl ⟨rfl, .nil⟩
  | p :: ps, hk, i, acc => by
    simp only [Arguments.loop]
    rcases step_spec a hc (hk p (List.mem_cons_self ..)) hb input i acc with ⟨h1, h2⟩ | ⟨e, st, h1, h2⟩
    · rw [h1]
      dsimp only
      rcases loop_spec a hc hb input ps (fun q hq => hk q (List.mem_cons_of_mem _ hq)) (i + 1)
        (a.step view input ba bn i p acc).2 with ⟨h3, h4⟩ | ⟨e, st, j, q, h3, h4, h5⟩
      · exact Or.inl ⟨h3, .cons h2 h4⟩
      · refine Or.inr ⟨e, st, j + 1, q, by simpa using h3, h4, ?_⟩
        rw [show i + (j + 1) = i + 1 + j by omega]
        exact h5
    · rw [h1]
      exact Or.inr ⟨e, st, 0, p, rfl, rfl, h2⟩

/-- Errors are only ever added. -/
theorem StepR.errs {args : List α} {kw : Dict α} {input : α} {i : Nat} {p : Param α}
    {acc acc' : Acc α} (h : StepR args kw input i p acc acc') :
    ∃ es, acc'.errs = acc.errs ++ es := by
  cases h
  case both => exact ⟨_, rfl⟩
  case posErr => exact ⟨_, rfl⟩
  case kwErr => exact ⟨_, rfl⟩
  case missing => exact ⟨_, rfl⟩
  all_goals exact ⟨[], (List.append_nil _).symm⟩

theorem Chain.errs {args : List α} {kw : Dict α} {input : α} {i : Nat} {ps : List (Param α)}
    {acc acc' : Acc α} (h : Chain args kw input i ps acc acc') :
    ∃ es, acc'.errs = acc.errs ++ es := by
  induction h with
  | nil => exact ⟨[], (List.append_nil _).symm⟩
  | cons h1 _ ih =>
    obtain ⟨es, h⟩ := h1.errs
    obtain ⟨es', h'⟩ := ih
    exact ⟨es ++ es', by rw [h', h, List.append_assoc]⟩

/-! ### The parameters of a signature -/

theorem Sig.params_length (s : Sig) :
    s.params.length = s.posOnly.length + s.posOrKw.length + s.kwOnly.length := by
  simp [Sig.params, Nat.add_assoc]

theorem Sig.positional_length (s : Sig) :
    s.positional.length = s.posOnly.length + s.posOrKw.length := by
  simp [Sig.positional]

/-- The kind of a parameter is told by its place. -/
theorem param_at {a : Arguments α} {s : Sig} (hd : a.Describes s) {i : Nat} {p : Param α}
    (h : a.params[i]? = some p) :
    s.params[i]? = some p.name ∧ (p.mode.positional = true ↔ i < s.positional.length) ∧
      (p.mode.keyword = true ↔ s.posOnly.length ≤ i) := by
  have h1 : (a.params.map fun p => (p.mode, p.name))[i]? = some (p.mode, p.name) := by
    rw [List.getElem?_map, h]
    rfl
  rw [hd.params, List.append_assoc] at h1
  rw [Sig.positional_length]
  unfold Sig.params
  rw [List.append_assoc]
  by_cases c1 : i < s.posOnly.length
  · rw [List.getElem?_append_left (by simpa using c1), List.getElem?_map] at h1
    rw [List.getElem?_append_left c1]
    cases hx : s.posOnly[i]? with
    | none => rw [hx] at h1; simp at h1
    | some x =>
      rw [hx] at h1
      simp only [Option.map_some, Option.some.injEq, Prod.mk.injEq] at h1
      rw [← h1.1, ← h1.2]
      refine ⟨rfl, ⟨fun _ => by omega, fun _ => rfl⟩, ⟨fun h => (by cases h), fun h => (by omega)⟩⟩
  · rw [List.getElem?_append_right (by simpa using c1)] at h1
    rw [List.getElem?_append_right (by omega)]
    simp only [List.length_map] at h1
    by_cases c2 : i - s.posOnly.length < s.posOrKw.length
    · rw [List.getElem?_append_left (by simpa using c2), List.getElem?_map] at h1
      rw [List.getElem?_append_left c2]
      cases hx : s.posOrKw[i - s.posOnly.length]? with
      | none => rw [hx] at h1; simp at h1
      | some x =>
        rw [hx] at h1
        simp only [Option.map_some, Option.some.injEq, Prod.mk.injEq] at h1
        rw [← h1.1, ← h1.2]
        refine ⟨rfl, ⟨fun _ => by omega, fun _ => rfl⟩, ⟨fun _ => by omega, fun _ => rfl⟩⟩
    · rw [List.getElem?_append_right (by simpa using c2)] at h1
      rw [List.getElem?_append_right (by omega)]
      simp only [List.length_map, List.getElem?_map] at h1
      cases hx : s.kwOnly[i - s.posOnly.length - s.posOrKw.length]? with
      | none => rw [hx] at h1; simp at h1
      | some x =>
        rw [hx] at h1
        simp only [Option.map_some, Option.some.injEq, Prod.mk.injEq] at h1
        rw [← h1.1, ← h1.2]
        refine ⟨rfl, ⟨fun h => (by cases h), fun h => (by omega)⟩, ⟨fun _ => by omega, fun _ => rfl⟩⟩

theorem params_length {a : Arguments α} {s : Sig} (hd : a.Describes s) :
    a.params.length = s.params.length := by
  have := congrArg List.length hd.params
  simpa [Sig.params_length, Nat.add_assoc] using this

/-- The argument of a parameter is what the code looks up. -/
theorem bound_eq {a : Arguments α} {s : Sig} (hd : a.Describes s) (args : List α) (kw : Dict α)
    {i : Nat} {p : Param α} (h : a.params[i]? = some p) :
    s.bound args kw i = (argValue args p i).or (kwValue kw p) := by
  obtain ⟨h1, h2, h3⟩ := param_at hd h
  unfold Sig.bound argValue kwValue
  by_cases c : i < s.positional.length ∧ i < args.length
  · rw [if_pos c, if_pos (h2.2 c.1), List.getElem?_eq_getElem c.2]
    rfl
  · rw [if_neg c]
    have hn : (if p.mode.positional = true then args[i]? else none) = none := by
      split
      · rename_i hm
        exact List.getElem?_eq_none (by have := h2.1 hm; omega)
      · rfl
    rw [hn, Option.none_or, h1]
    by_cases c2 : s.posOnly.length ≤ i
    · rw [if_pos c2, if_pos (h3.2 c2)]
      rfl
    · rw [if_neg c2, if_neg (fun h => c2 (h3.1 h))]

theorem posCount_append_ko (ps : List (Param α)) (h : ∀ p ∈ ps, p.mode.positional = false) :
    posCount ps = 0 := by
  induction ps with
  | nil => rfl
  | cons p ps ih =>
    rw [posCount, ih (fun q hq => h q (List.mem_cons_of_mem _ hq)), if_neg]
    rw [h p (List.mem_cons_self ..)]
    simp

theorem posCount_spec (n : Nat) : ∀ (ps : List (Param α)), n ≤ ps.length →
    (∀ i p, ps[i]? = some p → (p.mode.positional = true ↔ i < n)) → posCount ps = n := by
  induction n with
  | zero =>
    intro ps _ h
    apply posCount_append_ko
    intro p hp
    obtain ⟨i, hi⟩ := List.getElem?_of_mem hp
    have := h i p hi
    cases hm : p.mode.positional with
    | false => rfl
    | true => exact absurd (this.1 hm) (by omega)
  | succ n ih =>
    intro ps hl h
    cases ps with
    | nil => simp at hl
    | cons p ps =>
      rw [posCount, if_pos (Or.inl ((h 0 p rfl).2 (by omega))),
        ih ps (by simpa using hl) (fun i q hq => by
          rw [h (i + 1) q (by simpa using hq)]
          omega)]

theorem posCount_eq {a : Arguments α} {s : Sig} (hd : a.Describes s) :
    posCount a.params = s.positional.length := by
  apply posCount_spec
  · rw [params_length hd, Sig.params_length, Sig.positional_length]
    omega
  · intro i p h
    exact (param_at hd h).2.1

/-! ### The loop over parameters without errors -/

/-- The number of positional outputs of the parameters. -/
def outLen (s : Sig) (args : List α) : Nat :=
  min s.positional.length (max args.length s.posOnly.length)

/-- The names used after the first `k` parameters. -/
def UsedIs (s : Sig) (kw : Dict α) (k : Nat) (used : List String) : Prop :=
  ∀ n, n ∈ used ↔
    ∃ j < k, s.posOnly.length ≤ j ∧ s.params[j]? = some n ∧ (kw.get n).isSome = true

theorem usedAfter_spec {a : Arguments α} {s : Sig} (hd : a.Describes s) {kw : Dict α} {k : Nat}
    {p : Param α} (hp : a.params[k]? = some p) {used : List String} (hi : UsedIs s kw k used) :
    UsedIs s kw (k + 1) (usedAfter kw p used) := by
  obtain ⟨hn, hm1, hm2⟩ := param_at hd hp
  intro n
  unfold usedAfter kwValue
  by_cases hkw : p.mode.keyword = true
  · rw [if_pos hkw]
    have hk := hm2.1 hkw
    cases hg : kw.get p.name with
    | none =>
      dsimp only
      rw [hi]
      constructor
      · rintro ⟨j, h1, h2⟩
        exact ⟨j, by omega, h2⟩
      · rintro ⟨j, h1, h2, h3, h4⟩
        by_cases hj : j = k
        · subst hj
          rw [hn] at h3
          cases h3
          rw [hg] at h4
          cases h4
        · exact ⟨j, by omega, h2, h3, h4⟩
    | some v =>
      dsimp only
      rw [insertNew_mem, hi]
      constructor
      · rintro (h1 | ⟨j, h1, h2⟩)
        · subst h1
          exact ⟨k, by omega, hk, hn, by rw [hg]; rfl⟩
        · exact ⟨j, by omega, h2⟩
      · rintro ⟨j, h1, h2, h3, h4⟩
        by_cases hj : j = k
        · subst hj
          rw [hn] at h3
          cases h3
          exact Or.inl rfl
        · exact Or.inr ⟨j, by omega, h2, h3, h4⟩
  · rw [if_neg hkw]
    dsimp only
    rw [hi]
    constructor
    · rintro ⟨j, h1, h2⟩
      exact ⟨j, by omega, h2⟩
    · rintro ⟨j, h1, h2, h3, h4⟩
      by_cases hj : j = k
      · subst hj
        exact absurd (hm2.2 h2) hkw
      · exact ⟨j, by omega, h2, h3, h4⟩

theorem usedAfter_nodup {kw : Dict α} {p : Param α} {used : List String} (h : used.Nodup) :
    (usedAfter kw p used).Nodup := by
  unfold usedAfter
  split
  · exact insertNew_nodup _ h
  · exact h

theorem StepR.used {args : List α} {kw : Dict α} {input : α} {i : Nat} {p : Param α}
    {acc acc' : Acc α} (h : StepR args kw input i p acc acc') :
    acc'.used = usedAfter kw p acc.used := by
  cases h <;> rfl

theorem Chain.used {a : Arguments α} {s : Sig} (hd : a.Describes s) {args : List α} {kw : Dict α}
    {input : α} {i : Nat} {ps : List (Param α)} {acc acc' : Acc α}
    (h : Chain args kw input i ps acc acc') (hp : a.params.drop i = ps)
    (hi : UsedIs s kw i acc.used) (hn : acc.used.Nodup) :
    UsedIs s kw (i + ps.length) acc'.used ∧ acc'.used.Nodup := by
  induction h with
  | nil => exact ⟨hi, hn⟩
  | @cons i p ps acc1 acc2 acc3 h1 h2 ih =>
    have hp' : a.params[i]? = some p := by
      rw [← List.head?_drop, hp]
      rfl
    have hdrop : a.params.drop (i + 1) = ps := by
      rw [← List.tail_drop, hp]
      rfl
    have := ih hdrop (by rw [h1.used]; exact usedAfter_spec hd hp' hi)
      (by rw [h1.used]; exact usedAfter_nodup hn)
    rw [List.length_cons, show i + (ps.length + 1) = i + 1 + ps.length by omega]
    exact this

/-- What holds after the first `k` parameters. -/
structure Inv (a : Arguments α) (s : Sig) (args : List α) (kw : Dict α) (k : Nat) (acc : Acc α) :
    Prop where
  len : acc.outArgs.length = min k (outLen s args)
  out : ∀ j p, j < k → a.params[j]? = some p → ∃ w, ParamOutput p (s.bound args kw j) w ∧
    if j < outLen s args then acc.outArgs[j]? = some w else acc.outKwargs.get p.name = some w
  keys : ∀ n, n ∈ acc.outKwargs.map Prod.fst → ∃ j < k, outLen s args ≤ j ∧ s.params[j]? = some n
  used : UsedIs s kw k acc.used
  nodup : acc.used.Nodup
  once : ∀ j n v, j < k → ¬ s.Twice args kw j n v

/-- One more parameter, without errors. -/
theorem Inv.step {a : Arguments α} {s : Sig} (hd : a.Describes s) (he : a.Explains)
    {args : List α} {kw : Dict α} {input : α} {k : Nat} {p : Param α} {acc acc' : Acc α}
    (hp : a.params[k]? = some p) (hi : Inv a s args kw k acc)
    (h : StepR args kw input k p acc acc') (h0 : acc'.errs = []) : Inv a s args kw (k + 1) acc' := by
  obtain ⟨hn, hm1, hm2⟩ := param_at hd hp
  have hb := bound_eq hd args kw hp
  have hpl := Sig.positional_length s
  have hlen : ∀ (i : Nat) (n : String), s.params[i]? = some n → ∀ (j : Nat), s.params[j]? = some n →
      i = j := by
    intro i n h1 j h2
    have hi' := (List.getElem?_eq_some_iff.1 h1).1
    exact (List.getElem?_inj hi' hd.distinct).1 (by rw [h1, h2])
  -- the position of the parameter
  have hpos : ∀ x, argValue args p k = some x → k < outLen s args ∧ k < args.length ∧
      k < s.positional.length := by
    intro x hx
    unfold argValue at hx
    split at hx
    · rename_i hm
      have h1 := hm1.1 hm
      have h2 := (List.getElem?_eq_some_iff.1 hx).1
      unfold outLen
      omega
    · cases hx
  have hneg : argValue args p k = none → p.mode.keyword = true → ¬ k < outLen s args := by
    intro hx hkw
    have h2 := hm2.1 hkw
    unfold argValue at hx
    unfold outLen
    split at hx
    · have := List.getElem?_eq_none_iff.1 hx
      omega
    · rename_i hm
      have : ¬ k < s.positional.length := fun h => hm (hm1.2 h)
      omega
  have hdp : p.mode.keyword = false → k < outLen s args := by
    intro hkw
    have : ¬ s.posOnly.length ≤ k := by
      intro h
      have := hm2.2 h
      rw [this] at hkw
      cases hkw
    unfold outLen
    omega
  have hused := usedAfter_spec hd hp hi.used
  have hnd : (usedAfter kw p acc.used).Nodup := usedAfter_nodup hi.nodup
  have honce : (∀ x v, argValue args p k = some x → kwValue kw p ≠ some v) →
      ∀ j n v, j < k + 1 → ¬ s.Twice args kw j n v := by
    intro hx j n v hj ht
    by_cases hjk : j = k
    · subst hjk
      obtain ⟨t1, t2, t3, t4, t5⟩ := ht
      rw [hn] at t1
      cases t1
      refine hx (args[j]) v ?_ ?_
      · unfold argValue
        rw [if_pos (hm1.2 t3), List.getElem?_eq_getElem t4]
      · unfold kwValue
        rw [if_pos (hm2.2 t2)]
        exact t5
    · exact hi.once j n v (by omega) ht
  -- a positional output
  have hargs : ∀ w st', k < outLen s args → ParamOutput p (s.bound args kw k) w →
      (∀ x v, argValue args p k = some x → kwValue kw p ≠ some v) →
      Inv a s args kw (k + 1)
        ⟨acc.outArgs ++ [w], acc.outKwargs, acc.errs, usedAfter kw p acc.used, st'⟩ := by
    intro w st' hk hw hx
    have hl : acc.outArgs.length = k := by rw [hi.len]; omega
    refine ⟨?_, ?_, ?_, hused, hnd, honce hx⟩
    · rw [List.length_append, hl, List.length_singleton]
      omega
    · intro j q hj hq
      by_cases hjk : j = k
      · subst hjk
        rw [hp] at hq
        cases hq
        refine ⟨w, hw, ?_⟩
        rw [if_pos hk]
        dsimp only
        rw [List.getElem?_append_right (by omega), hl]
        simp
      · obtain ⟨w', h1, h2⟩ := hi.out j q (by omega) hq
        refine ⟨w', h1, ?_⟩
        by_cases hjl : j < outLen s args
        · rw [if_pos hjl] at h2 ⊢
          dsimp only
          rw [List.getElem?_append_left (by omega)]
          exact h2
        · rw [if_neg hjl] at h2 ⊢
          exact h2
    · intro n hn'
      obtain ⟨j, h1, h2⟩ := hi.keys n hn'
      exact ⟨j, by omega, h2⟩
  -- a keyword output
  have hkws : ∀ w st', ¬ k < outLen s args → ParamOutput p (s.bound args kw k) w →
      (∀ x v, argValue args p k = some x → kwValue kw p ≠ some v) →
      Inv a s args kw (k + 1)
        ⟨acc.outArgs, acc.outKwargs.set p.name w, acc.errs, usedAfter kw p acc.used, st'⟩ := by
    intro w st' hk hw hx
    refine ⟨?_, ?_, ?_, hused, hnd, honce hx⟩
    · dsimp only
      rw [hi.len]
      omega
    · intro j q hj hq
      by_cases hjk : j = k
      · subst hjk
        rw [hp] at hq
        cases hq
        refine ⟨w, hw, ?_⟩
        rw [if_neg hk]
        dsimp only
        rw [Dict.get_set, if_pos rfl]
      · obtain ⟨w', h1, h2⟩ := hi.out j q (by omega) hq
        refine ⟨w', h1, ?_⟩
        by_cases hjl : j < outLen s args
        · rw [if_pos hjl] at h2 ⊢
          exact h2
        · rw [if_neg hjl] at h2 ⊢
          dsimp only
          rw [Dict.get_set, if_neg]
          · exact h2
          · intro e
            have h3 := (param_at hd hq).1
            rw [← e] at h3
            exact hjk (hlen j _ h3 k hn)
    · intro n hn'
      rcases (Dict.keys_set _ _ _ _).1 hn' with h1 | h1
      · subst h1
        exact ⟨k, by omega, by omega, hn⟩
      · obtain ⟨j, h2, h3⟩ := hi.keys n h1
        exact ⟨j, by omega, h3⟩
  have hmem : p ∈ a.params := List.mem_of_getElem? hp
  cases h with
  | both _ _ => simp at h0
  | pos hx hq hf hr =>
    refine hargs _ _ (hpos _ hx).1 ?_ (fun _ _ _ h => by rw [hq] at h; cases h)
    rw [hb, hx]
    exact ⟨_, hf, hr⟩
  | posErr hx hq hf hr =>
    have h1 := (List.append_eq_nil_iff.1 h0).2
    rw [List.map_eq_nil_iff.1 h1] at hr
    exact absurd hr (he.1 p hmem _ _)
  | kw hx hq hf hr =>
    refine hkws _ _ (hneg hx ?_) ?_ (fun _ _ h => by rw [hx] at h; cases h)
    · cases hkw : p.mode.keyword with
      | true => rfl
      | false =>
        unfold kwValue at hq
        rw [hkw] at hq
        simp at hq
    · rw [hb, hx, hq]
      exact ⟨_, hf, hr⟩
  | kwErr hx hq hf hr =>
    have h1 := (List.append_eq_nil_iff.1 h0).2
    rw [List.map_eq_nil_iff.1 h1] at hr
    exact absurd hr (he.1 p hmem _ _)
  | dfltKw hx hq hf hr hkw =>
    refine hkws _ _ (hneg hx hkw) ?_ (fun _ _ h => by rw [hx] at h; cases h)
    rw [hb, hx, hq]
    exact ⟨_, hf, hr⟩
  | dfltPos hx hq hf hr hkw =>
    refine hargs _ _ (hdp hkw) ?_ (fun _ _ h => by rw [hx] at h; cases h)
    rw [hb, hx, hq]
    exact ⟨_, hf, hr⟩
  | missing _ _ _ _ => simp at h0

theorem Inv.chain {a : Arguments α} {s : Sig} (hd : a.Describes s) (he : a.Explains)
    {args : List α} {kw : Dict α} {input : α} {k : Nat} {ps : List (Param α)} {acc acc' : Acc α}
    (h : Chain args kw input k ps acc acc') (hp : a.params.drop k = ps)
    (hi : Inv a s args kw k acc) (h0 : acc'.errs = []) :
    Inv a s args kw (k + ps.length) acc' := by
  induction h with
  | nil => exact hi
  | @cons i p ps acc1 acc2 acc3 h1 h2 ih =>
    have hp' : a.params[i]? = some p := by
      rw [← List.head?_drop, hp]
      rfl
    have hdrop : a.params.drop (i + 1) = ps := by
      rw [← List.tail_drop, hp]
      rfl
    have h2e : acc2.errs = [] := by
      obtain ⟨es, hes⟩ := h2.errs
      rw [h0] at hes
      exact (List.append_eq_nil_iff.1 hes.symm).1
    have := ih hdrop (hi.step hd he hp' h1 h2e) h0
    rw [List.length_cons]
    rw [show i + (ps.length + 1) = i + 1 + ps.length by omega]
    exact this

theorem Inv.start (a : Arguments α) (s : Sig) (args : List α) (kw : Dict α) (st : VState α) :
    Inv a s args kw 0 ⟨[], [], [], [], st⟩ := by
  refine ⟨by simp, fun _ _ h => absurd h (by omega), fun _ h => by simp at h, fun n => ?_,
    List.nodup_nil, fun _ _ _ h => absurd h (by omega)⟩
  constructor
  · intro h; cases h
  · rintro ⟨j, h, _⟩; omega

/-! ### Surplus positional arguments -/

/-- An error of a validator, with its place. -/
def FromValidator (v : Option (Validator α α)) (x : α) (loc : LocItem) (e : LineError α) : Prop :=
  ∃ f st ls e0, v = some f ∧ (f x st).1 = .error (.lineErrors ls) ∧ e0 ∈ ls ∧
    e = e0.withOuterLocation loc

theorem varArgsLoop_spec (v : Validator α α) : ∀ (xs : List α) (i : Nat) (acc : Acc α),
    ((varArgsLoop v i xs acc).1 = .ok () ∧ ∃ ws es st,
      (varArgsLoop v i xs acc).2 = ⟨acc.outArgs ++ ws, acc.outKwargs, acc.errs ++ es, acc.used, st⟩ ∧
      ((∀ x st, (v x st).1 ≠ .error (.lineErrors [])) → es = [] → EachValid (some v) xs ws) ∧
      ∀ e ∈ es, ∃ j x, xs[j]? = some x ∧ FromValidator (some v) x (.i (i + j : Nat)) e) ∨
    ∃ e x st, (varArgsLoop v i xs acc).1 = .error e ∧ x ∈ xs ∧ (v x st).1 = .error e ∧
      ∀ ls, e ≠ .lineErrors ls
  | [], i, acc => by
    refine Or.inl ⟨rfl, [], [], acc.st, ?_, fun _ _ => .nil, fun _ h => by cases h⟩
    simp [varArgsLoop]
  | x :: xs, i, acc => by
    simp only [varArgsLoop]
    generalize hr : v x acc.st = r
    cases hr1 : r.1 with
    | ok w =>
      dsimp only
      rcases varArgsLoop_spec v xs (i + 1)
        { outArgs := acc.outArgs ++ [w], outKwargs := acc.outKwargs, errs := acc.errs
          used := acc.used, st := r.2 } with
        ⟨h1, ws, es, st, h2, h3, h4⟩ | ⟨e, y, st, h1, h2, h3⟩
      · refine Or.inl ⟨h1, w :: ws, es, st, ?_, ?_, ?_⟩
        · rw [h2]; simp
        · intro hn he
          exact .cons (st := acc.st) rfl (by rw [hr]; exact hr1) (h3 hn he)
        · intro e he
          obtain ⟨j, y, h5, h6⟩ := h4 e he
          refine ⟨j + 1, y, by simpa using h5, ?_⟩
          rw [show i + (j + 1) = i + 1 + j by omega]
          exact h6
      · exact Or.inr ⟨e, y, st, h1, List.mem_cons_of_mem _ h2, h3⟩
    | error e =>
      have hother : (∀ ls, e ≠ .lineErrors ls) → ∃ e' y st, (Except.error e : ValResult α Unit)
          = .error e' ∧ y ∈ x :: xs ∧ (v y st).1 = .error e' ∧ ∀ ls, e' ≠ .lineErrors ls :=
        fun hn => ⟨e, x, acc.st, rfl, List.mem_cons_self .., by rw [hr]; exact hr1, hn⟩
      cases e with
      | lineErrors ls =>
        dsimp only
        rcases varArgsLoop_spec v xs (i + 1)
          { outArgs := acc.outArgs, outKwargs := acc.outKwargs
            errs := acc.errs ++ ls.map (·.withOuterLocation (.i i))
            used := acc.used, st := r.2 } with
          ⟨h1, ws, es, st, h2, h3, h4⟩ | ⟨e, y, st, h1, h2, h3⟩
        · refine Or.inl ⟨h1, ws, ls.map (·.withOuterLocation (.i i)) ++ es, st, ?_, ?_, ?_⟩
          · rw [h2]; simp
          · intro hn he
            have h5 := List.map_eq_nil_iff.1 (List.append_eq_nil_iff.1 he).1
            rw [h5] at hr1
            exact absurd (by rw [hr]; exact hr1) (hn x acc.st)
          · intro e he
            rcases List.mem_append.1 he with he | he
            · obtain ⟨e0, h5, h6⟩ := List.mem_map.1 he
              exact ⟨0, x, rfl, v, acc.st, ls, e0, rfl, by rw [hr]; exact hr1, h5, h6.symm⟩
            · obtain ⟨j, y, h5, h6⟩ := h4 e he
              refine ⟨j + 1, y, by simpa using h5, ?_⟩
              rw [show i + (j + 1) = i + 1 + j by omega]
              exact h6
        · exact Or.inr ⟨e, y, st, h1, List.mem_cons_of_mem _ h2, h3⟩
      | internal e => exact Or.inr (hother (fun _ h => by cases h))
      | omitted => exact Or.inr (hother (fun _ h => by cases h))
      | useDefault => exact Or.inr (hother (fun _ h => by cases h))

theorem mem_unexpectedArgs (e : LineError α) : ∀ (xs : List α) (i : Nat),
    e ∈ unexpectedArgs i xs ↔ ∃ j x, xs[j]? = some x ∧
      e = .newWithLoc .unexpectedPositionalArgument x (.i (i + j : Nat))
  | [], i => by simp [unexpectedArgs]
  | x :: xs, i => by
    rw [unexpectedArgs, List.mem_cons, mem_unexpectedArgs e xs (i + 1)]
    constructor
    · rintro (h | ⟨j, y, h1, h2⟩)
      · exact ⟨0, x, rfl, h⟩
      · refine ⟨j + 1, y, by simpa using h1, ?_⟩
        rw [show i + (j + 1) = i + 1 + j by omega]
        exact h2
    · rintro ⟨j, y, h1, h2⟩
      cases j with
      | zero =>
        cases h1
        exact Or.inl h2
      | succ j =>
        refine Or.inr ⟨j, y, by simpa using h1, ?_⟩
        rw [show i + 1 + j = i + (j + 1) by omega]
        exact h2

/-- What the part for surplus positional arguments does. -/
theorem varArgsPart_spec {a : Arguments α} {s : Sig} (hd : a.Describes s) {view : ArgsView α}
    {args : List α} {kw : Dict α} (hc : a.Call view args kw) (acc : Acc α) :
    ((a.varArgsPart view acc).1 = .ok () ∧ ∃ ws es st,
      (a.varArgsPart view acc).2 = ⟨acc.outArgs ++ ws, acc.outKwargs, acc.errs ++ es, acc.used, st⟩ ∧
      (a.Explains → es = [] → EachValid a.varArgs (s.surplus args) ws) ∧
      (∀ e ∈ es, ∃ j x, (s.surplus args)[j]? = some x ∧
        ((s.star = false ∧ e = .newWithLoc .unexpectedPositionalArgument x
            (.i (s.positional.length + j : Nat))) ∨
          FromValidator a.varArgs x (.i (s.positional.length + j : Nat)) e)) ∧
      (s.star = false → ∀ j x, (s.surplus args)[j]? = some x →
        .newWithLoc .unexpectedPositionalArgument x (.i (s.positional.length + j : Nat)) ∈ es)) ∨
    ∃ e f x st, (a.varArgsPart view acc).1 = .error e ∧ a.varArgs = some f ∧
      x ∈ s.surplus args ∧ (f x st).1 = .error e ∧ ∀ ls, e ≠ .lineErrors ls := by
  have hargs := hc.args
  have hstar := hd.star
  simp only [Arguments.varArgsPart, posCount_eq hd]
  have hsame : s.surplus args = [] →
      ∃ ws es st, acc = ⟨acc.outArgs ++ ws, acc.outKwargs, acc.errs ++ es, acc.used, st⟩ ∧
      (a.Explains → es = [] → EachValid a.varArgs (s.surplus args) ws) ∧
      (∀ e ∈ es, ∃ j x, (s.surplus args)[j]? = some x ∧
        ((s.star = false ∧ e = .newWithLoc .unexpectedPositionalArgument x
            (.i (s.positional.length + j : Nat))) ∨
          FromValidator a.varArgs x (.i (s.positional.length + j : Nat)) e)) ∧
      (s.star = false → ∀ j x, (s.surplus args)[j]? = some x →
        .newWithLoc .unexpectedPositionalArgument x (.i (s.positional.length + j : Nat)) ∈ es) := by
    intro hs
    rw [hs]
    exact ⟨[], [], acc.st, by simp, fun _ _ => .nil, fun _ h => (by cases h),
      fun _ j x h => (by simp at h)⟩
  cases hv : view.args with
  | none =>
    rw [hv] at hargs
    dsimp only [Option.getD] at hargs
    refine Or.inl ⟨rfl, hsame ?_⟩
    rw [← hargs]
    simp [Sig.surplus]
  | some l =>
    rw [hv] at hargs
    dsimp only [Option.getD] at hargs
    subst hargs
    dsimp only
    by_cases hl : l.length > s.positional.length
    · rw [if_pos hl]
      cases hva : a.varArgs with
      | none =>
        refine Or.inl ⟨rfl, [], unexpectedArgs s.positional.length (s.surplus l), acc.st, ?_, ?_, ?_, ?_⟩
        · simp [Sig.surplus]
        · intro _ h
          have h1 : ∀ (i : Nat) (xs : List α), unexpectedArgs i xs = [] → xs = [] := by
            intro i xs h
            cases xs with
            | nil => rfl
            | cons x xs => cases h
          rw [h1 _ _ h]
          exact .nil
        · intro e he
          obtain ⟨j, x, h1, h2⟩ := (mem_unexpectedArgs e _ _).1 he
          refine ⟨j, x, h1, Or.inl ⟨?_, h2⟩⟩
          rw [← hstar, hva]
          rfl
        · intro _ j x h1
          exact (mem_unexpectedArgs _ _ _).2 ⟨j, x, h1, rfl⟩
      | some f =>
        rcases varArgsLoop_spec f (s.surplus l) s.positional.length acc with
          ⟨h1, ws, es, st, h2, h3, h4⟩ | ⟨e, x, st, h1, h2, h3, h4⟩
        · refine Or.inl ⟨h1, ws, es, st, h2, ?_, ?_, ?_⟩
          · intro he h0
            exact h3 (he.2.1 f hva) h0
          · intro e he
            obtain ⟨j, x, h5, h6⟩ := h4 e he
            exact ⟨j, x, h5, Or.inr h6⟩
          · intro hs
            rw [← hstar, hva] at hs
            cases hs
        · exact Or.inr ⟨e, f, x, st, h1, rfl, h2, h3, h4⟩
    · rw [if_neg hl]
      refine Or.inl ⟨rfl, hsame ?_⟩
      unfold Sig.surplus
      exact List.drop_eq_nil_of_le (by omega)

/-! ### Surplus keyword arguments -/

theorem EachKwValid.keys {v : VarKw α} {xs ws : Dict α} (h : EachKwValid v xs ws) :
    ws.map Prod.fst = xs.map Prod.fst := by
  induction h with
  | nil => rfl
  | cons _ _ _ ih => simp [ih]

/-- The validator of `**kwargs`. -/
def VarKw.validator : VarKw α → Option (Validator α α)
  | .uniform v => v
  | .unpacked _ => none

theorem kwLoop_spec {a : Arguments α} {s : Sig} (hd : a.Describes s) (mk : String → α)
    (hmk : ∀ n, a.keyOps.str (mk n) = .ok n ∧ a.keyOps.loc (mk n) = .s n) :
    ∀ (kw : Dict α) (acc : Acc α),
    ((a.kwLoop (kw.map fun kv => .ok (mk kv.1, kv.2)) [] acc).1 = .ok [] ∧ ∃ d es st,
      (a.kwLoop (kw.map fun kv => .ok (mk kv.1, kv.2)) [] acc).2 =
        ⟨acc.outArgs, d, acc.errs ++ es, acc.used, st⟩ ∧
      (a.Explains → es = [] → (kw.map Prod.fst).Nodup →
        (∀ k ∈ kw.map Prod.fst, k ∉ acc.used → k ∉ acc.outKwargs.map Prod.fst) →
        ∃ zs, d = acc.outKwargs ++ zs ∧
          EachKwValid a.varKw (kw.filter fun kv => decide (kv.1 ∉ acc.used)) zs) ∧
      (∀ e ∈ es, ∃ k x, (k, x) ∈ kw ∧ k ∉ acc.used ∧
        ((s.starStar = false ∧ e = .newWithLoc .unexpectedKeywordArgument x (.s k)) ∨
          FromValidator a.varKw.validator x (.s k) e)) ∧
      (s.starStar = false → ∀ k x, (k, x) ∈ kw → k ∉ acc.used →
        .newWithLoc .unexpectedKeywordArgument x (.s k) ∈ es)) ∨
    ∃ e f k x st, (a.kwLoop (kw.map fun kv => .ok (mk kv.1, kv.2)) [] acc).1 = .error e ∧
      a.varKw = .uniform (some f) ∧ (k, x) ∈ kw ∧ k ∉ acc.used ∧ (f x st).1 = .error e ∧
      ∀ ls, e ≠ .lineErrors ls
  | [], acc => by
    refine Or.inl ⟨rfl, acc.outKwargs, [], acc.st, by simp [Arguments.kwLoop], ?_,
      fun _ h => (by cases h), fun _ _ _ h => (by cases h)⟩
    intro _ _ _ _
    exact ⟨[], by simp, .nil⟩
  | (k, x) :: kw, acc => by
    obtain ⟨vo, hv, hs⟩ := hd.starStar
    simp only [List.map_cons, Arguments.kwLoop, Arguments.kwStep, (hmk k).1]
    by_cases hu : k ∈ acc.used
    · have hu' : acc.used.contains k = true := List.contains_iff_mem.2 hu
      rw [if_pos hu']
      dsimp only
      rcases kwLoop_spec hd mk hmk kw acc with
        ⟨h1, d, es, st, h2, h3, h4, h5⟩ | ⟨e, f, k', y, st, h1, h2, h3, h4, h5, h6⟩
      · refine Or.inl ⟨h1, d, es, st, h2, ?_, ?_, ?_⟩
        · intro he h0 hn hdis
          rw [List.nodup_cons] at hn
          obtain ⟨zs, h6, h7⟩ := h3 he h0 hn.2
            (fun k' hk' => hdis k' (List.mem_cons_of_mem _ hk'))
          refine ⟨zs, h6, ?_⟩
          rw [List.filter_cons_of_neg (by simpa using hu)]
          exact h7
        · intro e he
          obtain ⟨k', y, h6, h7⟩ := h4 e he
          exact ⟨k', y, List.mem_cons_of_mem _ h6, h7⟩
        · intro hss k' y hky hku
          rcases List.mem_cons.1 hky with h | h
          · cases h; exact absurd hu hku
          · exact h5 hss k' y h hku
      · exact Or.inr ⟨e, f, k', y, st, h1, h2, List.mem_cons_of_mem _ h3, h4, h5, h6⟩
    · have hu' : ¬ acc.used.contains k = true := fun h => hu (List.contains_iff_mem.1 h)
      rw [if_neg hu', hv]
      cases vo with
      | none =>
        dsimp only
        rw [if_pos hd.forbid, (hmk k).2]
        dsimp only
        rcases kwLoop_spec hd mk hmk kw
          { outArgs := acc.outArgs, outKwargs := acc.outKwargs
            errs := acc.errs ++ [.newWithLoc .unexpectedKeywordArgument x (.s k)]
            used := acc.used, st := acc.st } with
          ⟨h1, d, es, st, h2, h3, h4, h5⟩ | ⟨e, f, k', y, st, h1, h2, h3, h4, h5, h6⟩
        · refine Or.inl ⟨h1, d, .newWithLoc .unexpectedKeywordArgument x (.s k) :: es, st, ?_, ?_, ?_, ?_⟩
          · rw [h2]; simp
          · intro _ h0
            cases h0
          · intro e he
            rcases List.mem_cons.1 he with h | h
            · exact ⟨k, x, List.mem_cons_self .., hu, Or.inl ⟨hs.symm, h⟩⟩
            · obtain ⟨k', y, h6, h7, h8⟩ := h4 e h
              rw [hv] at h8
              exact ⟨k', y, List.mem_cons_of_mem _ h6, h7, h8⟩
          · intro hss k' y hky hku
            rcases List.mem_cons.1 hky with h | h
            · cases h; exact List.mem_cons_self ..
            · exact List.mem_cons_of_mem _ (h5 hss k' y h hku)
        · rw [hv] at h2
          cases h2
      | some f =>
        dsimp only
        have hss : s.starStar = true := hs.symm
        generalize hr : f x acc.st = r
        cases hr1 : r.1 with
        | ok w =>
          dsimp only
          rcases kwLoop_spec hd mk hmk kw
            { outArgs := acc.outArgs, outKwargs := acc.outKwargs.set k w
              errs := acc.errs, used := acc.used, st := r.2 } with
            ⟨h1, d, es, st, h2, h3, h4, h5⟩ | ⟨e, f, k', y, st, h1, h2, h3, h4, h5, h6⟩
          · refine Or.inl ⟨h1, d, es, st, h2, ?_, ?_, ?_⟩
            · intro he h0 hn hdis
              rw [List.nodup_cons] at hn
              have hkn := hdis k (by simp) hu
              obtain ⟨zs, h6, h7⟩ := h3 he h0 hn.2 (by
                intro k' hk' hku hmem
                rcases (Dict.keys_set _ _ _ _).1 hmem with h | h
                · subst h; exact hn.1 hk'
                · exact hdis k' (List.mem_cons_of_mem _ hk') hku h)
              refine ⟨(k, w) :: zs, ?_, ?_⟩
              · rw [h6, Dict.set_new _ _ _ hkn]; simp
              · rw [List.filter_cons_of_pos (by simpa using hu)]
                rw [hv] at h7
                exact .cons (st := acc.st) rfl (by rw [hr]; exact hr1) h7
            · intro e he
              obtain ⟨k', y, h6, h7, h8⟩ := h4 e he
              rw [hv] at h8
              exact ⟨k', y, List.mem_cons_of_mem _ h6, h7, h8⟩
            · intro h; rw [hss] at h; cases h
          · rw [hv] at h2
            exact Or.inr ⟨e, f, k', y, st, h1, h2, List.mem_cons_of_mem _ h3, h4, h5, h6⟩
        | error e =>
          cases e with
          | lineErrors ls =>
            dsimp only
            rw [(hmk k).2]
            rcases kwLoop_spec hd mk hmk kw
              { outArgs := acc.outArgs, outKwargs := acc.outKwargs
                errs := acc.errs ++ ls.map (·.withOuterLocation (.s k))
                used := acc.used, st := r.2 } with
              ⟨h1, d, es, st, h2, h3, h4, h5⟩ | ⟨e, f, k', y, st, h1, h2, h3, h4, h5, h6⟩
            · refine Or.inl ⟨h1, d, ls.map (·.withOuterLocation (.s k)) ++ es, st, ?_, ?_, ?_, ?_⟩
              · rw [h2]; simp
              · intro he h0
                have h6 := List.map_eq_nil_iff.1 (List.append_eq_nil_iff.1 h0).1
                rw [h6] at hr1
                exact absurd (by rw [hr]; exact hr1) (he.2.2 f hv x acc.st)
              · intro e he
                rcases List.mem_append.1 he with he | he
                · obtain ⟨e0, h6, h7⟩ := List.mem_map.1 he
                  exact ⟨k, x, List.mem_cons_self .., hu, Or.inr
                    ⟨f, acc.st, ls, e0, rfl, by rw [hr]; exact hr1, h6, h7.symm⟩⟩
                · obtain ⟨k', y, h6, h7, h8⟩ := h4 e he
                  rw [hv] at h8
                  exact ⟨k', y, List.mem_cons_of_mem _ h6, h7, h8⟩
              · intro h; rw [hss] at h; cases h
            · rw [hv] at h2
              exact Or.inr ⟨e, f, k', y, st, h1, h2, List.mem_cons_of_mem _ h3, h4, h5, h6⟩
          | internal e =>
            exact Or.inr ⟨_, f, k, x, acc.st, rfl, rfl, List.mem_cons_self .., hu,
              by rw [hr]; exact hr1, fun _ h => by cases h⟩
          | omitted =>
            exact Or.inr ⟨_, f, k, x, acc.st, rfl, rfl, List.mem_cons_self .., hu,
              by rw [hr]; exact hr1, fun _ h => by cases h⟩
          | useDefault =>
            exact Or.inr ⟨_, f, k, x, acc.st, rfl, rfl, List.mem_cons_self .., hu,
              by rw [hr]; exact hr1, fun _ h => by cases h⟩

theorem mem_keyword {s : Sig} (n : String) :
    n ∈ s.keyword ↔ ∃ j, s.posOnly.length ≤ j ∧ s.params[j]? = some n := by
  unfold Sig.keyword Sig.params
  rw [List.append_assoc]
  constructor
  · intro h
    obtain ⟨i, hi⟩ := List.getElem?_of_mem h
    refine ⟨s.posOnly.length + i, by omega, ?_⟩
    rw [List.getElem?_append_right (by omega)]
    rw [show s.posOnly.length + i - s.posOnly.length = i by omega]
    exact hi
  · rintro ⟨j, h1, h2⟩
    rw [List.getElem?_append_right h1] at h2
    exact List.mem_of_getElem? h2

theorem get_isSome {kw : Dict α} {k : String} (h : k ∈ kw.map Prod.fst) :
    (kw.get k).isSome = true := by
  cases hg : kw.get k with
  | some v => rfl
  | none => exact absurd h ((Dict.get_eq_none k kw).1 hg)

theorem mem_of_isSome {kw : Dict α} {k : String} (h : (kw.get k).isSome = true) :
    k ∈ kw.map Prod.fst := by
  by_cases hm : k ∈ kw.map Prod.fst
  · exact hm
  · rw [(Dict.get_eq_none k kw).2 hm] at h
    cases h

theorem get_of_mem {kw : Dict α} (hn : (kw.map Prod.fst).Nodup) {k : String} {v : α}
    (h : (k, v) ∈ kw) : kw.get k = some v := by
  induction kw with
  | nil => cases h
  | cons kv kw ih =>
    obtain ⟨k0, v0⟩ := kv
    simp only [List.map_cons, List.nodup_cons] at hn
    rw [Dict.get]
    rcases List.mem_cons.1 h with h | h
    · cases h; rw [if_pos rfl]
    · rw [if_neg, ih hn.2 h]
      rintro rfl
      exact hn.1 (List.mem_map.2 ⟨_, h, rfl⟩)

theorem mem_of_get {kw : Dict α} {k : String} {v : α} (h : kw.get k = some v) : (k, v) ∈ kw := by
  induction kw with
  | nil => cases h
  | cons kv kw ih =>
    obtain ⟨k0, v0⟩ := kv
    rw [Dict.get] at h
    split at h
    · rename_i hk
      cases h
      subst hk
      exact List.mem_cons_self ..
    · exact List.mem_cons_of_mem _ (ih h)

/-- A name of the call was used iff it names a parameter. -/
theorem used_iff {a : Arguments α} {s : Sig} (hd : a.Describes s) {kw : Dict α}
    {used : List String} (hu : UsedIs s kw a.params.length used) {k : String}
    (hk : k ∈ kw.map Prod.fst) : k ∈ used ↔ k ∈ s.keyword := by
  rw [hu, mem_keyword]
  constructor
  · rintro ⟨j, _, h2, h3, _⟩
    exact ⟨j, h2, h3⟩
  · rintro ⟨j, h2, h3⟩
    refine ⟨j, ?_, h2, h3, get_isSome hk⟩
    rw [params_length hd]
    exact (List.getElem?_eq_some_iff.1 h3).1

/-- What the part for surplus keyword arguments does. -/
theorem kwPart_spec {a : Arguments α} {s : Sig} (hd : a.Describes s) {view : ArgsView α}
    {args : List α} {kw : Dict α} (hc : a.Call view args kw) (acc : Acc α)
    (hu : UsedIs s kw a.params.length acc.used) (hnd : acc.used.Nodup) :
    ((a.kwPart view acc).1 = .ok [] ∧ ∃ d es st,
      (a.kwPart view acc).2 = ⟨acc.outArgs, d, acc.errs ++ es, acc.used, st⟩ ∧
      (a.Explains → es = [] →
        (∀ k ∈ kw.map Prod.fst, k ∉ s.keyword → k ∉ acc.outKwargs.map Prod.fst) →
        ∃ zs, d = acc.outKwargs ++ zs ∧ EachKwValid a.varKw (s.surplusKw kw) zs) ∧
      (∀ e ∈ es, ∃ k x, (k, x) ∈ s.surplusKw kw ∧
        ((s.starStar = false ∧ e = .newWithLoc .unexpectedKeywordArgument x (.s k)) ∨
          FromValidator a.varKw.validator x (.s k) e)) ∧
      (s.starStar = false → ∀ k x, (k, x) ∈ s.surplusKw kw →
        .newWithLoc .unexpectedKeywordArgument x (.s k) ∈ es)) ∨
    ∃ e f k x st, (a.kwPart view acc).1 = .error e ∧
      a.varKw = .uniform (some f) ∧ (k, x) ∈ s.surplusKw kw ∧ (f x st).1 = .error e ∧
      ∀ ls, e ≠ .lineErrors ls := by
  have hf : (kw.filter fun kv => decide (kv.1 ∉ acc.used)) = s.surplusKw kw := by
    unfold Sig.surplusKw
    apply List.filter_congr
    intro kv hkv
    have := used_iff hd hu (List.mem_map.2 ⟨kv, hkv, rfl⟩)
    simp [this]
  have hmem : ∀ k x, (k, x) ∈ s.surplusKw kw ↔ (k, x) ∈ kw ∧ k ∉ acc.used := by
    intro k x
    rw [← hf, List.mem_filter]
    simp
  have hsame : s.surplusKw kw = [] → ∃ d es st,
      acc = ⟨acc.outArgs, d, acc.errs ++ es, acc.used, st⟩ ∧
      (a.Explains → es = [] →
        (∀ k ∈ kw.map Prod.fst, k ∉ s.keyword → k ∉ acc.outKwargs.map Prod.fst) →
        ∃ zs, d = acc.outKwargs ++ zs ∧ EachKwValid a.varKw (s.surplusKw kw) zs) ∧
      (∀ e ∈ es, ∃ k x, (k, x) ∈ s.surplusKw kw ∧
        ((s.starStar = false ∧ e = .newWithLoc .unexpectedKeywordArgument x (.s k)) ∨
          FromValidator a.varKw.validator x (.s k) e)) ∧
      (s.starStar = false → ∀ k x, (k, x) ∈ s.surplusKw kw →
        .newWithLoc .unexpectedKeywordArgument x (.s k) ∈ es) := by
    intro h
    rw [h]
    exact ⟨acc.outKwargs, [], acc.st, by simp, fun _ _ _ => ⟨[], by simp, .nil⟩,
      fun _ h => (by cases h), fun _ _ _ h => (by cases h)⟩
  have hkw := hc.kwargs
  simp only [Arguments.kwPart]
  cases hv : view.kwargs with
  | none =>
    rw [hv] at hkw
    dsimp only at hkw
    refine Or.inl ⟨rfl, hsame ?_⟩
    rw [hkw]
    rfl
  | some kv =>
    rw [hv] at hkw
    dsimp only at hkw ⊢
    obtain ⟨hlen, hget, mk, hent, hmk⟩ := hkw
    by_cases hl : kv.len > acc.used.length
    · rw [if_pos hl, hent]
      rcases kwLoop_spec hd mk hmk kw acc with
        ⟨h1, d, es, st, h2, h3, h4, h5⟩ | ⟨e, f, k, x, st, h1, h2, h3, h4, h5, h6⟩
      · refine Or.inl ⟨h1, d, es, st, h2, ?_, ?_, ?_⟩
        · intro he h0 hdis
          rw [← hf]
          refine h3 he h0 hc.distinct ?_
          intro k hk hku
          exact hdis k hk (fun h => hku ((used_iff hd hu hk).2 h))
        · intro e he
          obtain ⟨k, x, h6, h7, h8⟩ := h4 e he
          exact ⟨k, x, (hmem k x).2 ⟨h6, h7⟩, h8⟩
        · intro hss k x hx
          exact h5 hss k x ((hmem k x).1 hx).1 ((hmem k x).1 hx).2
      · exact Or.inr ⟨e, f, k, x, st, h1, h2, (hmem k x).2 ⟨h3, h4⟩, h5, h6⟩
    · rw [if_neg hl]
      refine Or.inl ⟨rfl, hsame ?_⟩
      have hall := all_of_length (keys := kw.map Prod.fst) hnd (by
        intro x hx
        obtain ⟨_, _, _, _, h⟩ := (hu x).1 hx
        exact mem_of_isSome h) (by rw [List.length_map, ← hlen]; omega)
      rw [← hf, List.filter_eq_nil_iff]
      intro kv' hkv'
      have := hall kv'.1 (List.mem_map.2 ⟨kv', hkv', rfl⟩)
      simpa using this

/-! ### The whole -/

/-- Something ends validation at once: a validator raises, or a default cannot be had. -/
def Aborts (a : Arguments α) (s : Sig) (args : List α) (kw : Dict α) (e : ValError α) : Prop :=
  (∃ i p st, a.params[i]? = some p ∧ st.extra.fieldName = some p.name ∧
    ((∃ x, s.bound args kw i = some x ∧ (p.run x st).1 = .error e ∧ ∀ ls, e ≠ .lineErrors ls) ∨
      (s.bound args kw i = none ∧ (p.dflt (some (.s p.name)) st).1 = .error e))) ∨
  (∃ f x st, a.varArgs = some f ∧ x ∈ s.surplus args ∧ (f x st).1 = .error e ∧
    ∀ ls, e ≠ .lineErrors ls) ∨
  (∃ f k x st, a.varKw = .uniform (some f) ∧ (k, x) ∈ s.surplusKw kw ∧ (f x st).1 = .error e ∧
    ∀ ls, e ≠ .lineErrors ls)

theorem run_spec {a : Arguments α} {s : Sig} (hd : a.Describes s) {view : ArgsView α}
    {args : List α} {kw : Dict α} (hc : a.Call view args kw) (input : α) (st : VState α)
    (hb : st.validateByAliasOr a.byAlias = true ∨ st.validateByNameOr a.byName = true) :
    (∃ acc ws es2 d es3, Chain args kw input 0 a.params ⟨[], [], [], [], st⟩ acc ∧
      (a.run view input st).1 = outcomeOf (acc.errs ++ es2 ++ es3) (acc.outArgs ++ ws, d) ∧
      (a.Explains → es2 = [] → EachValid a.varArgs (s.surplus args) ws) ∧
      (∀ e ∈ es2, ∃ j x, (s.surplus args)[j]? = some x ∧
        ((s.star = false ∧ e = .newWithLoc .unexpectedPositionalArgument x
            (.i (s.positional.length + j : Nat))) ∨
          FromValidator a.varArgs x (.i (s.positional.length + j : Nat)) e)) ∧
      (s.star = false → ∀ j x, (s.surplus args)[j]? = some x →
        .newWithLoc .unexpectedPositionalArgument x (.i (s.positional.length + j : Nat)) ∈ es2) ∧
      (a.Explains → es3 = [] →
        (∀ k ∈ kw.map Prod.fst, k ∉ s.keyword → k ∉ acc.outKwargs.map Prod.fst) →
        ∃ zs, d = acc.outKwargs ++ zs ∧ EachKwValid a.varKw (s.surplusKw kw) zs) ∧
      (∀ e ∈ es3, ∃ k x, (k, x) ∈ s.surplusKw kw ∧
        ((s.starStar = false ∧ e = .newWithLoc .unexpectedKeywordArgument x (.s k)) ∨
          FromValidator a.varKw.validator x (.s k) e)) ∧
      (s.starStar = false → ∀ k x, (k, x) ∈ s.surplusKw kw →
        .newWithLoc .unexpectedKeywordArgument x (.s k) ∈ es3)) ∨
    ∃ e, (a.run view input st).1 = .error e ∧ Aborts a s args kw e := by
  simp only [Arguments.run]
  rcases loop_spec a hc hb input a.params hd.keys 0 ⟨[], [], [], [], st⟩ with
    ⟨h1, hch⟩ | ⟨e, st', j, p, h1, h2, h3⟩
  · rw [h1]
    dsimp only
    generalize (a.loop view input (st.validateByAliasOr a.byAlias) (st.validateByNameOr a.byName) 0
      a.params ⟨[], [], [], [], st⟩).2 = acc at hch
    have hused := hch.used hd List.drop_zero (fun n => ⟨fun h => (by cases h),
      fun ⟨j, h, _⟩ => absurd h (by omega)⟩) List.nodup_nil
    rw [Nat.zero_add] at hused
    rcases varArgsPart_spec hd hc acc with ⟨h2, ws, es2, st2, h3, h4⟩ | ⟨e, f, x, st2, h2, h3⟩
    · rw [h2]
      dsimp only
      rw [h3]
      rcases kwPart_spec hd hc ⟨acc.outArgs ++ ws, acc.outKwargs, acc.errs ++ es2, acc.used, st2⟩
        hused.1 hused.2 with ⟨h5, d, es3, st3, h6, h7⟩ | ⟨e, f, k, x, st3, h5, h6⟩
      · rw [h5]
        dsimp only
        rw [h6]
        obtain ⟨vo, hv, _⟩ := hd.starStar
        have hun : ∀ acc4 : Acc α, a.unpackedPart [] acc4 = (.ok (), acc4) := by
          intro acc4
          unfold Arguments.unpackedPart
          rw [hv]
        rw [hun]
        refine Or.inl ⟨acc, ws, es2, d, es3, hch, ?_, h4.1, h4.2.1, h4.2.2, h7⟩
        dsimp only
        unfold outcomeOf
        by_cases hnil : acc.errs ++ es2 ++ es3 = []
        · rw [if_pos hnil, hnil]
          rfl
        · rw [if_neg hnil, if_neg]
          rw [List.isEmpty_iff]
          exact hnil
      · rw [h5]
        exact Or.inr ⟨e, rfl, Or.inr (Or.inr ⟨f, k, x, st3, h6⟩)⟩
    · rw [h2]
      exact Or.inr ⟨e, rfl, Or.inr (Or.inl ⟨f, x, st2, h3⟩)⟩
  · rw [h2]
    refine Or.inr ⟨e, rfl, Or.inl ⟨j, p, st', h1, h3.1, ?_⟩⟩
    rw [bound_eq hd args kw h1]
    simpa using h3.2

end PC.Args
