import Verif.Lemmas.EngineSound
import Verif.Spec.StrictLax

/-
Two runs of a validator, the first one strict: what the first accepts, the second accepts with the same value.
-/

namespace PC.Engine
open PC.Comb PC.Coll PC.Union PC.Fields PC.Lookup
variable {α : Type}

/-- States of the two runs: the first is strict; they differ in strictness, exactness and the number of fields only. -/
structure R (st1 st2 : VState α) : Prop where
  strict : st1.extra.strict = some true
  extra : st2.extra = { st1.extra with strict := st2.extra.strict }
  off1 : st1.allowPartial = .off
  off2 : st2.allowPartial = .off
  guard : st1.guard = st2.guard

/-- In strict runs the validator gives a value, at least one error, or an exception. -/
abbrev Ends (v : Validator α α) : Prop := Post (some true) (fun _ => True) (fun _ _ _ => True) v

/-- What the first validator accepts in a strict run, the second accepts. -/
structure Sim (v1 v2 : Validator α α) : Prop where
  ends : Ends v1
  ok : ∀ a st1 st2, R st1 st2 → ∀ y, (v1 a st1).1 = .ok y → (v2 a st2).1 = .ok y ∧ R (v1 a st1).2 (v2 a st2).2

variable {st1 st2 : VState α} {v1 v2 : Validator α α}

theorem R.keeps (h : R st1 st2) : Keeps (some true) st1 := ⟨h.strict, h.off1⟩

theorem Sim.at (h : Sim v1 v2) (a : α) (hr : R st1 st2) :
    (∃ es st1', es ≠ [] ∧ v1 a st1 = (.error (.lineErrors es), st1')) ∨
    (∃ e st1', v1 a st1 = (.error (.internal e), st1')) ∨
    ∃ y st1' st2', v1 a st1 = (.ok y, st1') ∧ v2 a st2 = (.ok y, st2') ∧ R st1' st2' := by
  have h1 := (h.ends a st1 hr.keeps).2
  have h2 := h.ok a st1 st2 hr
  generalize v1 a st1 = r1 at h1 h2
  obtain ⟨r1, st1'⟩ := r1
  match r1, h1 with
  | .ok y, _ =>
    obtain ⟨h3, h4⟩ := h2 y rfl
    exact .inr (.inr ⟨y, st1', (v2 a st2).2, rfl, Prod.ext h3 rfl, h4⟩)
  | .error (.lineErrors es), h1 => exact .inl ⟨es, st1', h1.1, rfl⟩
  | .error (.internal e), _ => exact .inr (.inl ⟨e, st1', rfl⟩)

theorem floor_keeps (st : VState α) (e : Exactness) : (st.floorExactness e).extra = st.extra ∧
    (st.floorExactness e).allowPartial = st.allowPartial ∧ (st.floorExactness e).guard = st.guard := by
  simp only [VState.floorExactness]
  split
  · exact ⟨rfl, rfl, rfl⟩
  · exact ⟨rfl, rfl, rfl⟩
  · split <;> exact ⟨rfl, rfl, rfl⟩
  · exact ⟨rfl, rfl, rfl⟩

theorem R.floor (h : R st1 st2) (e e' : Exactness) : R (st1.floorExactness e) (st2.floorExactness e') := by
  obtain ⟨a1, a2, a3⟩ := floor_keeps st1 e
  obtain ⟨b1, b2, b3⟩ := floor_keeps st2 e'
  exact ⟨a1 ▸ h.strict, by rw [a1, b1]; exact h.extra, a2 ▸ h.off1, b2 ▸ h.off2, by rw [a3, b3]; exact h.guard⟩

theorem R.setPartial (h : R st1 st2) (b : Bool) : R (setPartial .off b st1) (setPartial .off b st2) :=
  ⟨h.strict, h.extra, by cases b <;> rfl, by cases b <;> rfl, h.guard⟩

theorem R.addFieldsSet (h : R st1 st2) (n m : Nat) : R (st1.addFieldsSet n) (st2.addFieldsSet m) :=
  ⟨h.strict, h.extra, h.off1, h.off2, h.guard⟩

theorem R.off (h : R st1 st2) : R ({ st1 with allowPartial := .off } : VState α) { st2 with allowPartial := .off } :=
  ⟨h.strict, h.extra, rfl, rfl, h.guard⟩

theorem R.strictOr (h : R st1 st2) (b : Bool) : st1.strictOr b = true := by rw [VState.strictOr, h.strict]; rfl

theorem R.byAlias (h : R st1 st2) (b : Option Bool) : st2.validateByAliasOr b = st1.validateByAliasOr b := by
  simp only [VState.validateByAliasOr]; rw [h.extra]

theorem R.byName (h : R st1 st2) (b : Option Bool) : st2.validateByNameOr b = st1.validateByNameOr b := by
  simp only [VState.validateByNameOr]; rw [h.extra]

theorem R.fromAttributes (h : R st1 st2) : st2.extra.fromAttributes = st1.extra.fromAttributes := by rw [h.extra]

theorem R.restore {st1' st2' : VState α} (h : R st1 st2) (h' : R st1' st2') :
    R ({ st1' with extra := st1.extra } : VState α) { st2' with extra := st2.extra } :=
  ⟨h.strict, h.extra, h'.off1, h'.off2, h'.guard⟩

theorem Sim.nullable (h : Sim v1 v2) (isNone : α → Bool) (noneV : α) :
    ∀ a st1 st2, R st1 st2 → ∀ y, (Comb.nullable isNone noneV v1 a st1).1 = .ok y →
      (Comb.nullable isNone noneV v2 a st2).1 = .ok y ∧
      R (Comb.nullable isNone noneV v1 a st1).2 (Comb.nullable isNone noneV v2 a st2).2 := by
  intro a st1 st2 hr y hy
  simp only [Comb.nullable] at hy ⊢
  by_cases hn : isNone a = true
  · rw [if_pos hn] at hy ⊢; rw [if_pos hn]; exact ⟨hy, hr⟩
  · rw [if_neg hn] at hy ⊢; rw [if_neg hn]; exact h.ok a _ _ hr y hy

/-! ### Lists and sets -/

theorem vecLoop_errs {v : Validator α α} (saved : PartialMode) (ff : Bool) :
    ∀ (items : List (Nat × Bool × Except PyErr α)) (mlc : MaxLengthCheck α) (out : List α) (errs : List (LineError α))
      (st : VState α) (ys : List α), errs ≠ [] → (vecLoop v saved ff items mlc out errs st).result ≠ .ok ys
  | [], mlc, out, errs, st, ys, he, h => by
    simp only [vecLoop] at h
    rw [if_neg (by simpa using he)] at h
    cases h
  | (i, isLast, itemR) :: rest, mlc, out, errs, st, ys, he, h => by
    simp only [vecLoop] at h
    have he2 : ∀ ls : List (LineError α), errs ++ ls ≠ [] := fun ls => by simp [he]
    cases itemR with
    | error e => cases h
    | ok item =>
      dsimp only at h
      cases hr : (v item (setPartial saved isLast st)).1 with
      | ok o =>
        rw [hr] at h
        dsimp only at h
        cases hm : mlc.incr with
        | error e => rw [hm] at h; cases h
        | ok m => rw [hm] at h; exact vecLoop_errs saved ff rest _ _ errs _ ys he h
      | error e =>
        rw [hr] at h
        cases e with
        | lineErrors ls =>
          dsimp only at h
          cases hm : mlc.incr with
          | error e => rw [hm] at h; cases h
          | ok m =>
            rw [hm] at h
            dsimp only at h
            cases isLast with
            | true => exact vecLoop_errs saved ff rest _ _ errs _ ys he h
            | false =>
              rw [if_neg Bool.false_ne_true] at h
              cases ff with
              | true => rw [if_pos rfl] at h; cases h
              | false => rw [if_neg Bool.false_ne_true] at h; exact vecLoop_errs saved false rest _ _ _ _ ys (he2 _) h
        | internal e => cases h
        | omitted => exact vecLoop_errs saved ff rest _ _ errs _ ys he h
        | useDefault => cases h

theorem sim_vecLoop (h : Sim v1 v2) (ff : Bool) : ∀ (items : List (Except PyErr α)) (i : Nat) (mlc : MaxLengthCheck α)
    (out : List α) (st1 st2 : VState α), R st1 st2 → ∀ ys,
    (vecLoop v1 .off ff (enumerateLastPartial .off i items) mlc out [] st1).result = .ok ys →
    (vecLoop v2 .off ff (enumerateLastPartial .off i items) mlc out [] st2).result = .ok ys ∧
    R (vecLoop v1 .off ff (enumerateLastPartial .off i items) mlc out [] st1).state
      (vecLoop v2 .off ff (enumerateLastPartial .off i items) mlc out [] st2).state
  | [], i, mlc, out, st1, st2, hr, ys, hok => ⟨hok, hr⟩
  | .error e :: rest, i, mlc, out, st1, st2, hr, ys, hok => by cases hok
  | .ok item :: rest, i, mlc, out, st1, st2, hr, ys, hok => by
    simp only [enumerateLastPartial, vecLoop] at hok ⊢
    have hb : (PartialMode.off.isActive && rest.isEmpty) = false := rfl
    rw [hb] at hok ⊢
    rcases h.at item (hr.setPartial false) with ⟨es, st1', hne, e1⟩ | ⟨e, st1', e1⟩ | ⟨y, st1', st2', e1, e2, hr'⟩
    · rw [e1] at hok
      dsimp only at hok
      cases hm : mlc.incr with
      | error e => rw [hm] at hok; cases hok
      | ok m =>
        rw [hm] at hok
        dsimp only at hok
        rw [if_neg Bool.false_ne_true] at hok
        cases ff with
        | true => rw [if_pos rfl] at hok; cases hok
        | false =>
          rw [if_neg Bool.false_ne_true] at hok
          exact absurd hok (vecLoop_errs _ _ _ _ _ _ _ ys (ne_nil_append_map hne))
    · rw [e1] at hok; cases hok
    · rw [e1] at hok ⊢; rw [e2]
      dsimp only at hok ⊢
      cases hm : mlc.incr with
      | error e => rw [hm] at hok; cases hok
      | ok m =>
        rw [hm] at hok
        dsimp only at hok ⊢
        exact sim_vecLoop h ff rest (i + 1) m _ _ _ hr' ys hok

theorem sim_list (h : Sim v1 v2) (l : ListV α)
    (hl : ∀ strict a seq ex, l.asList true a = .ok (seq, ex) → ∃ ex', l.asList strict a = .ok (seq, ex')) :
    ∀ a st1 st2, R st1 st2 → ∀ y, (ListV.validate { l with item := some v1 } a st1).1 = .ok y →
      (ListV.validate { l with item := some v2 } a st2).1 = .ok y ∧
      R (ListV.validate { l with item := some v1 } a st1).2 (ListV.validate { l with item := some v2 } a st2).2 := by
  intro a st1 st2 hr y hy
  simp only [ListV.validate, validateIterToVec] at hy ⊢
  rw [hr.strictOr] at hy ⊢
  cases hs : l.asList true a with
  | error e => rw [hs] at hy; cases hy
  | ok q =>
    obtain ⟨seq, ex⟩ := q
    obtain ⟨ex', hs2⟩ := hl (st2.strictOr l.strict) a seq ex hs
    rw [hs] at hy; rw [hs2]
    dsimp only at hy ⊢
    have hr2 := hr.floor ex ex'
    rw [hr2.off1] at hy ⊢; rw [hr2.off2]
    have key := sim_vecLoop h l.failFast seq.items 0 (.new l.maxLength "List" a seq.len) [] _ _ hr2
    generalize vecLoop v1 _ _ _ _ _ _ _ = r1 at hy key ⊢
    cases h1 : r1.result with
    | error e => rw [h1] at hy; cases hy
    | ok ys =>
      obtain ⟨k1, k2⟩ := key ys h1
      rw [h1] at hy; rw [k1]
      dsimp only at hy ⊢
      cases hm : minLengthCheck a "List" l.minLength ys.length with
      | error e => rw [hm] at hy; cases hy
      | ok u => rw [hm] at hy; exact ⟨hy, k2⟩

theorem setLoop_errs (hs : Hashing α) {v : Validator α α} (input : α) (ft : String) (mx : Option Nat)
    (saved : PartialMode) (ff : Bool) :
    ∀ (items : List (Nat × Bool × Except PyErr α)) (set : List α) (errs : List (LineError α))
      (st : VState α) (ys : List α), errs ≠ [] → (setLoop hs v input ft mx saved ff items set errs st).result ≠ .ok ys
  | [], set, errs, st, ys, he, h => by
    simp only [setLoop] at h
    rw [if_neg (by simpa using he)] at h
    cases h
  | (i, isLast, itemR) :: rest, set, errs, st, ys, he, h => by
    simp only [setLoop] at h
    have he2 : ∀ ls : List (LineError α), errs ++ ls ≠ [] := fun ls => by simp [he]
    cases itemR with
    | error e => cases h
    | ok item =>
      dsimp only at h
      cases hr : (validateAdd hs v set item (setPartial saved isLast st)).1 with
      | ok o =>
        rw [hr] at h
        dsimp only at h
        cases hm : mx.filter (· < o.length) with
        | some e => rw [hm] at h; cases h
        | none =>
          rw [hm] at h
          dsimp only at h
          split at h
          · cases h
          · exact setLoop_errs hs input ft mx saved ff rest _ errs _ ys he h
      | error e =>
        rw [hr] at h
        cases e with
        | lineErrors ls =>
          dsimp only at h
          cases isLast with
          | true =>
            rw [if_pos rfl] at h
            split at h
            · cases h
            · exact setLoop_errs hs input ft mx saved ff rest _ _ _ ys he h
          | false =>
            rw [if_neg Bool.false_ne_true] at h
            split at h
            · cases h
            · exact setLoop_errs hs input ft mx saved ff rest _ _ _ ys (he2 _) h
        | internal e => cases h
        | omitted =>
          dsimp only at h
          split at h
          · cases h
          · exact setLoop_errs hs input ft mx saved ff rest _ errs _ ys he h
        | useDefault => cases h

theorem add_at (h : Sim v1 v2) (hs : Hashing α) (set : List α) (item : α) (hr : R st1 st2) :
    (∃ es st1', es ≠ [] ∧ validateAdd hs v1 set item st1 = (.error (.lineErrors es), st1')) ∨
    (∃ e st1', validateAdd hs v1 set item st1 = (.error (.internal e), st1')) ∨
    ∃ s st1' st2', validateAdd hs v1 set item st1 = (.ok s, st1') ∧ validateAdd hs v2 set item st2 = (.ok s, st2') ∧
      R st1' st2' := by
  simp only [validateAdd]
  rcases h.at item hr with ⟨es, st1', hne, e1⟩ | ⟨e, st1', e1⟩ | ⟨y, st1', st2', e1, e2, hr'⟩
  · rw [e1]; exact .inl ⟨es, st1', hne, rfl⟩
  · rw [e1]; exact .inr (.inl ⟨e, st1', rfl⟩)
  · rw [e1, e2]
    dsimp only
    cases ha : hs.add set y with
    | error e =>
      obtain ⟨te, e⟩ := e
      cases te with
      | true => exact .inl ⟨_, st1', List.cons_ne_nil _ _, rfl⟩
      | false => exact .inr (.inl ⟨e, st1', rfl⟩)
    | ok set' => exact .inr (.inr ⟨set', st1', st2', rfl, rfl, hr'⟩)

theorem sim_setLoop (h : Sim v1 v2) (hs : Hashing α) (input : α) (ft : String) (mx : Option Nat) (ff : Bool) :
    ∀ (items : List (Except PyErr α)) (i : Nat) (set : List α) (st1 st2 : VState α), R st1 st2 → ∀ ys,
    (setLoop hs v1 input ft mx .off ff (enumerateLastPartial .off i items) set [] st1).result = .ok ys →
    (setLoop hs v2 input ft mx .off ff (enumerateLastPartial .off i items) set [] st2).result = .ok ys ∧
    R (setLoop hs v1 input ft mx .off ff (enumerateLastPartial .off i items) set [] st1).state
      (setLoop hs v2 input ft mx .off ff (enumerateLastPartial .off i items) set [] st2).state
  | [], i, set, st1, st2, hr, ys, hok => ⟨hok, hr⟩
  | .error e :: rest, i, set, st1, st2, hr, ys, hok => by cases hok
  | .ok item :: rest, i, set, st1, st2, hr, ys, hok => by
    simp only [enumerateLastPartial, setLoop] at hok ⊢
    have hb : (PartialMode.off.isActive && rest.isEmpty) = false := rfl
    rw [hb] at hok ⊢
    rcases add_at h hs set item (hr.setPartial false) with ⟨es, st1', hne, e1⟩ | ⟨e, st1', e1⟩ |
      ⟨set', st1', st2', e1, e2, hr'⟩
    · rw [e1] at hok
      dsimp only at hok
      rw [if_neg Bool.false_ne_true] at hok
      split at hok
      · cases hok
      · exact absurd hok (setLoop_errs _ _ _ _ _ _ _ _ _ _ ys (ne_nil_append_map hne))
    · rw [e1] at hok; cases hok
    · rw [e1] at hok ⊢; rw [e2]
      dsimp only at hok ⊢
      cases hm : mx.filter (· < set'.length) with
      | some e => rw [hm] at hok; cases hok
      | none =>
        rw [hm] at hok
        dsimp only at hok ⊢
        have : (ff && !([] : List (LineError α)).isEmpty) = false := by simp
        rw [this, if_neg Bool.false_ne_true] at hok ⊢
        exact sim_setLoop h hs input ft mx ff rest (i + 1) set' _ _ hr' ys hok

theorem sim_set (h : Sim v1 v2) (s : SetV α)
    (hl : ∀ strict a seq ex, s.asSet true a = .ok (seq, ex) → ∃ ex', s.asSet strict a = .ok (seq, ex')) :
    ∀ a st1 st2, R st1 st2 → ∀ y, (SetV.validate { s with item := v1 } a st1).1 = .ok y →
      (SetV.validate { s with item := v2 } a st2).1 = .ok y ∧
      R (SetV.validate { s with item := v1 } a st1).2 (SetV.validate { s with item := v2 } a st2).2 := by
  intro a st1 st2 hr y hy
  simp only [SetV.validate, validateIterToSet] at hy ⊢
  rw [hr.strictOr] at hy ⊢
  cases hs : s.asSet true a with
  | error e => rw [hs] at hy; cases hy
  | ok q =>
    obtain ⟨seq, ex⟩ := q
    obtain ⟨ex', hs2⟩ := hl (st2.strictOr s.strict) a seq ex hs
    rw [hs] at hy; rw [hs2]
    dsimp only at hy ⊢
    have hr2 := hr.floor ex ex'
    rw [hr2.off1] at hy ⊢; rw [hr2.off2]
    have key := sim_setLoop h s.hashing a s.fieldType s.maxLength s.failFast seq.items 0 [] _ _ hr2
    generalize setLoop s.hashing v1 _ _ _ _ _ _ _ _ _ = r1 at hy key ⊢
    cases h1 : r1.result with
    | error e => rw [h1] at hy; cases hy
    | ok ys =>
      obtain ⟨k1, k2⟩ := key ys h1
      rw [h1] at hy; rw [k1]
      dsimp only at hy ⊢
      cases hm : minLengthCheck a s.fieldType s.minLength ys.length with
      | error e => rw [hm] at hy; cases hy
      | ok u => rw [hm] at hy; exact ⟨hy, k2⟩

/-! ### Dicts -/

theorem dictLoop_errs (d : DictV α) (input : α) (saved : PartialMode) :
    ∀ (items : List (Nat × Bool × ValResult α (α × α))) (out : List (α × α)) (errs : List (LineError α))
      (st : VState α) (y : α), errs ≠ [] → (dictLoop d input saved items out errs st).1 ≠ .ok y
  | [], out, errs, st, y, he, h => by
    simp only [dictLoop] at h
    rw [if_neg (by simpa using he)] at h
    cases h
  | (i, isLast, itemR) :: rest, out, errs, st, y, he, h => by
    simp only [dictLoop] at h
    have he2 : ∀ es ls : List (LineError α), es ≠ [] → es ++ ls ≠ [] := fun es ls h => by simp [h]
    have hloop : ∀ (out : List (α × α)) (errs : List (LineError α)) (st : VState α), errs ≠ [] →
        (dictLoop d input saved rest out errs st).1 ≠ .ok y := fun out errs st he =>
      dictLoop_errs d input saved rest out errs st y he
    cases itemR with
    | error e => cases h
    | ok kw =>
      obtain ⟨k, w⟩ := kw
      dsimp only at h
      repeat' split at h
      all_goals first
        | cases h
        | exact hloop _ _ _ he h
        | exact hloop _ _ _ (he2 _ _ he) h
        | exact hloop _ _ _ (he2 _ _ (he2 _ _ he)) h

theorem sim_dictLoop (d : DictV α) {k1 k2 w1 w2 : Validator α α} (hk : Sim k1 k2) (hw : Sim w1 w2) (input : α) :
    ∀ (items : List (ValResult α (α × α))) (i : Nat) (out : List (α × α)) (st1 st2 : VState α), R st1 st2 → ∀ y,
    (dictLoop { d with key := k1, value := w1 } input .off (enumerateLastPartial .off i items) out [] st1).1 = .ok y →
    (dictLoop { d with key := k2, value := w2 } input .off (enumerateLastPartial .off i items) out [] st2).1 = .ok y ∧
    R (dictLoop { d with key := k1, value := w1 } input .off (enumerateLastPartial .off i items) out [] st1).2
      (dictLoop { d with key := k2, value := w2 } input .off (enumerateLastPartial .off i items) out [] st2).2
  | [], i, out, st1, st2, hr, y, hok => by
    simp only [enumerateLastPartial, dictLoop, List.isEmpty_nil, if_true] at hok ⊢
    cases hl : lengthCheck input "Dictionary" d.minLength d.maxLength out.length with
    | error e => rw [hl] at hok; cases hok
    | ok u => rw [hl] at hok; exact ⟨hok, hr⟩
  | .error e :: rest, i, out, st1, st2, hr, y, hok => by cases hok
  | .ok (k, w) :: rest, i, out, st1, st2, hr, y, hok => by
    simp only [enumerateLastPartial, dictLoop] at hok ⊢
    have hb : (PartialMode.off.isActive && rest.isEmpty) = false := rfl
    rw [hb] at hok ⊢
    rcases hk.at k hr.off with ⟨es, st1', hne, e1⟩ | ⟨e, st1', e1⟩ | ⟨x, st1', st2', e1, e2, hr'⟩
    · rw [e1] at hok
      have hne2 : ∀ (f : LineError α → LineError α), ([] : List (LineError α)) ++ es.map f ≠ [] :=
        fun f => ne_nil_append_map hne
      have hne3 : ∀ (f : LineError α → LineError α) ls, ([] : List (LineError α)) ++ es.map f ++ ls ≠ [] :=
        fun f ls h => hne2 f (List.append_eq_nil_iff.mp h).1
      dsimp only at hok
      repeat' split at hok
      all_goals first
        | cases hok
        | exact absurd hok (dictLoop_errs _ _ _ _ _ _ _ y (hne2 _))
        | exact absurd hok (dictLoop_errs _ _ _ _ _ _ _ y (hne3 _ _))
    · rw [e1] at hok; cases hok
    · rw [e1] at hok ⊢; rw [e2]
      dsimp only at hok ⊢
      rcases hw.at w (hr'.setPartial false) with ⟨es, st1'', hne, e3⟩ | ⟨e, st1'', e3⟩ | ⟨z, st1'', st2'', e3, e4, hr''⟩
      · rw [e3] at hok
        dsimp only at hok
        rw [if_neg Bool.false_ne_true] at hok
        exact absurd hok (dictLoop_errs _ _ _ _ _ _ _ y (ne_nil_append_map hne))
      · rw [e3] at hok; cases hok
      · rw [e3] at hok ⊢; rw [e4]
        dsimp only at hok ⊢
        cases hh : d.hashing.hashErr x with
        | some e => rw [hh] at hok; cases hok
        | none =>
          rw [hh] at hok
          dsimp only at hok ⊢
          exact sim_dictLoop d hk hw input rest (i + 1) _ _ _ hr'' y hok

theorem sim_dict (d : DictV α) {k1 k2 w1 w2 : Validator α α} (hk : Sim k1 k2) (hw : Sim w1 w2)
    (hl : ∀ strict a entries, d.asDict true a = .ok entries → d.asDict strict a = .ok entries) :
    ∀ a st1 st2, R st1 st2 → ∀ y, (DictV.validate { d with key := k1, value := w1 } a st1).1 = .ok y →
      (DictV.validate { d with key := k2, value := w2 } a st2).1 = .ok y ∧
      R (DictV.validate { d with key := k1, value := w1 } a st1).2 (DictV.validate { d with key := k2, value := w2 } a st2).2 := by
  intro a st1 st2 hr y hy
  simp only [DictV.validate] at hy ⊢
  rw [hr.strictOr] at hy ⊢
  cases hs : d.asDict true a with
  | error e => rw [hs] at hy; cases hy
  | ok entries =>
    rw [hs] at hy
    rw [hl (st2.strictOr d.strict) a entries hs]
    dsimp only at hy ⊢
    rw [hr.off1] at hy ⊢; rw [hr.off2]
    exact sim_dictLoop d hk hw a entries 0 [] _ _ hr y hy

/-! ### Tuples -/

/-- The mutable variables of two tuple validators while no error is met. -/
structure TRel (acc1 acc2 : Coll.TAcc α) : Prop where
  out : acc2.out = acc1.out
  errs1 : acc1.errs = []
  errs2 : acc2.errs = []
  st : R acc1.st acc2.st

/-- Two tuple validators with the same settings. -/
structure TSame (t1 t2 : TupleV α) : Prop where
  maxLength : t2.maxLength = t1.maxLength
  minLength : t2.minLength = t1.minLength
  failFast : t2.failFast = t1.failFast
  strict : t2.strict = t1.strict
  asTuple : t2.asTuple = t1.asTuple
  build : t2.build = t1.build

theorem tupleItem_errs (t : TupleV α) (a : α) (len : Option Nat) (v : Validator α α) (i : Nat) (x : α)
    (acc : Coll.TAcc α) (h : (tupleItem t a len v i x acc).1.errs = []) : acc.errs = [] := by
  simp only [tupleItem, pushOutputItem] at h
  repeat' split at h
  all_goals first
    | exact h
    | exact (List.append_eq_nil_iff.mp h).1

theorem sim_tupleItem {t1 t2 : TupleV α} (ht : TSame t1 t2) (h : Sim v1 v2) (a : α) (len : Option Nat) (i : Nat) (x : α)
    {acc1 acc2 : Coll.TAcc α} (hr : TRel acc1 acc2) (h1 : (tupleItem t1 a len v1 i x acc1).2 = none)
    (h2 : (tupleItem t1 a len v1 i x acc1).1.errs = []) :
    (tupleItem t2 a len v2 i x acc2).2 = none ∧
      TRel (tupleItem t1 a len v1 i x acc1).1 (tupleItem t2 a len v2 i x acc2).1 := by
  obtain ⟨o1, e1, s1⟩ := acc1
  obtain ⟨o2, e2, s2⟩ := acc2
  obtain ⟨r1, r2, r3, r4⟩ := hr
  dsimp only at r1 r2 r3 r4
  subst r1 r2 r3
  simp only [tupleItem, pushOutputItem, ht.maxLength] at h1 h2 ⊢
  rcases h.at x r4 with ⟨es, st1', hne, e1⟩ | ⟨e, st1', e1⟩ | ⟨y, st1', st2', e1, e2, hr'⟩
  · rw [e1] at h2
    exact absurd h2 (ne_nil_append_map hne)
  · rw [e1] at h1; cases h1
  · rw [e1] at h1 h2 ⊢; rw [e2]
    dsimp only at h1 h2 ⊢
    cases hm : t1.maxLength.filter (· < (o2 ++ [y]).length) with
    | some m => rw [hm] at h1; cases h1
    | none => exact ⟨rfl, rfl, rfl, rfl, hr'⟩

/-- Item validators without defaults. -/
structure ItemSim (v w : TItem α) : Prop where
  sim : Sim v.validate w.validate
  default : v.default = fun _ st => (.ok none, st)

theorem tupleItems_errs (t : TupleV α) (a : α) (len : Option Nat) : ∀ (vs : List (TItem α)) (it : TIter α)
    (acc : Coll.TAcc α), (tupleItems t a len vs it acc).1.1.errs = [] → acc.errs = [] := by
  intro vs
  induction vs with
  | nil => intro it acc h; exact h
  | cons v vs ih =>
    intro it acc h
    rw [tupleItems_cons] at h
    have hacc : (tupleStep t a len v it.next acc).1.errs = [] → acc.errs = [] := by
      intro hr1
      simp only [tupleStep] at hr1
      cases hn : it.next.1 with
      | some ix => rw [hn] at hr1; exact tupleItem_errs t a len _ _ _ _ hr1
      | none =>
        rw [hn] at hr1
        dsimp only at hr1
        repeat' split at hr1
        all_goals first
          | exact hr1
          | exact (List.append_eq_nil_iff.mp hr1).1
    generalize tupleStep t a len v it.next acc = r at h hacc
    obtain ⟨r1, r2⟩ := r
    cases r2 with
    | some e => exact hacc h
    | none =>
      dsimp only at h hacc
      split at h
      · exact hacc h
      · exact hacc (ih _ _ h)

theorem sim_tupleItems {t1 t2 : TupleV α} (ht : TSame t1 t2) (a : α) (len : Option Nat) :
    ∀ (vs ws : List (TItem α)) (it : TIter α) (acc1 acc2 : Coll.TAcc α), All2 ItemSim vs ws → TRel acc1 acc2 →
    (tupleItems t1 a len vs it acc1).1.2 = none → (tupleItems t1 a len vs it acc1).1.1.errs = [] →
    (tupleItems t2 a len ws it acc2).1.2 = none ∧
      TRel (tupleItems t1 a len vs it acc1).1.1 (tupleItems t2 a len ws it acc2).1.1 ∧
      (tupleItems t2 a len ws it acc2).2 = (tupleItems t1 a len vs it acc1).2 := by
  intro vs
  induction vs with
  | nil => intro ws it acc1 acc2 h hr _ _; cases h; exact ⟨rfl, hr, rfl⟩
  | cons v vs ih =>
    intro ws it acc1 acc2 h hr h1 h2
    cases h with
    | @cons _ w _ ws hvw h =>
      rw [tupleItems_cons] at h1 h2
      rw [tupleItems_cons, tupleItems_cons]
      have key : (tupleStep t1 a len v it.next acc1).2 = none → (tupleStep t1 a len v it.next acc1).1.errs = [] →
          (tupleStep t2 a len w it.next acc2).2 = none ∧
          TRel (tupleStep t1 a len v it.next acc1).1 (tupleStep t2 a len w it.next acc2).1 := by
        intro g1 g2
        simp only [tupleStep] at g1 g2 ⊢
        cases hn : it.next.1 with
        | none =>
          rw [hn] at g2
          rw [hvw.default] at g2
          dsimp only at g2
          exact absurd (List.append_eq_nil_iff.mp g2).2 (List.cons_ne_nil _ _)
        | some ix =>
          rw [hn] at g1 g2
          exact sim_tupleItem ht hvw.sim a len _ _ hr g1 g2
      generalize tupleStep t1 a len v it.next acc1 = r1 at h1 h2 key ⊢
      obtain ⟨r1, q1⟩ := r1
      cases q1 with
      | some e => cases h1
      | none =>
        dsimp only at h1 h2 key ⊢
        have hr1 : r1.errs = [] := by
          split at h2
          · exact h2
          · exact tupleItems_errs _ _ _ _ _ _ h2
        obtain ⟨k1, k2⟩ := key rfl hr1
        rw [k1]
        dsimp only
        have hb1 : (t1.failFast && !r1.errs.isEmpty) = false := by rw [hr1]; simp
        have hb2 : ∀ b, (b && !(tupleStep t2 a len w it.next acc2).1.errs.isEmpty) = false := by
          intro b; rw [k2.errs2]; simp
        rw [hb1] at h1 h2 ⊢
        rw [hb2]
        rw [if_neg Bool.false_ne_true] at h1 h2 ⊢
        exact ih ws _ _ _ h k2 h1 h2

theorem variadicLoop_errs (t : TupleV α) (a : α) (len : Option Nat) (v : Validator α α) :
    ∀ (src : List (Except PyErr α)) (it : TIter α) (acc : Coll.TAcc α),
    (variadicLoop t a len v src it acc).1.1.errs = [] → acc.errs = [] := by
  intro src
  induction src with
  | nil => intro it acc h; exact h
  | cons x xs ih =>
    intro it acc h
    cases x with
    | error e => exact h
    | ok x =>
      simp only [variadicLoop] at h
      have hacc := tupleItem_errs t a len v it.count x acc
      generalize tupleItem t a len v it.count x acc = r at h hacc
      obtain ⟨r1, r2⟩ := r
      cases r2 with
      | some e => exact hacc h
      | none =>
        dsimp only at h hacc
        split at h
        · exact hacc h
        · exact hacc (ih _ _ h)

theorem sim_variadicLoop {t1 t2 : TupleV α} (ht : TSame t1 t2) (hs : Sim v1 v2) (a : α) (len : Option Nat) :
    ∀ (src : List (Except PyErr α)) (it : TIter α) (acc1 acc2 : Coll.TAcc α), TRel acc1 acc2 →
    (variadicLoop t1 a len v1 src it acc1).1.2 = none → (variadicLoop t1 a len v1 src it acc1).1.1.errs = [] →
    (variadicLoop t2 a len v2 src it acc2).1.2 = none ∧
      TRel (variadicLoop t1 a len v1 src it acc1).1.1 (variadicLoop t2 a len v2 src it acc2).1.1 ∧
      (variadicLoop t2 a len v2 src it acc2).2 = (variadicLoop t1 a len v1 src it acc1).2 := by
  intro src
  induction src with
  | nil => intro it acc1 acc2 hr h1 h2; exact ⟨rfl, hr, rfl⟩
  | cons x xs ih =>
    intro it acc1 acc2 hr h1 h2
    cases x with
    | error e => exact ⟨rfl, hr, rfl⟩
    | ok x =>
      simp only [variadicLoop] at h1 h2 ⊢
      have key := sim_tupleItem ht hs a len it.count x hr
      generalize tupleItem t1 a len v1 it.count x acc1 = r1 at h1 h2 key ⊢
      obtain ⟨r1, q1⟩ := r1
      cases q1 with
      | some e => cases h1
      | none =>
        dsimp only at h1 h2 key ⊢
        have hr1 : r1.errs = [] := by
          split at h2
          · exact h2
          · exact variadicLoop_errs _ _ _ _ _ _ _ h2
        obtain ⟨k1, k2⟩ := key rfl hr1
        rw [k1]
        dsimp only
        have hb1 : (t1.failFast && !r1.errs.isEmpty) = false := by rw [hr1]; simp
        have hb2 : ∀ b, (b && !(tupleItem t2 a len v2 it.count x acc2).1.errs.isEmpty) = false := by
          intro b; rw [k2.errs2]; simp
        rw [hb1] at h1 h2 ⊢
        rw [hb2]
        rw [if_neg Bool.false_ne_true] at h1 h2 ⊢
        rw [if_neg Bool.false_ne_true]
        exact ih _ _ _ k2 h1 h2

theorem bufferLoop_errs (t : TupleV α) (a : α) (len : Option Nat) (v : Validator α α) :
    ∀ (src : List (Except PyErr α)) (it : TIter α) (n : Nat) (buf : List α) (acc : Coll.TAcc α),
    (bufferLoop t a len v src it n buf acc).1.1.errs = [] → acc.errs = [] := by
  intro src
  induction src with
  | nil => intro it n buf acc h; exact h
  | cons x xs ih =>
    intro it n buf acc h
    cases x with
    | error e => exact h
    | ok x =>
      simp only [bufferLoop] at h
      cases buf with
      | nil => exact h
      | cons b buf =>
        dsimp only at h
        have hacc := tupleItem_errs t a len v it.count b acc
        generalize tupleItem t a len v it.count b acc = r at h hacc
        obtain ⟨r1, r2⟩ := r
        cases r2 with
        | some e => exact hacc h
        | none =>
          dsimp only at h hacc
          split at h
          · exact hacc h
          · exact hacc (ih _ _ _ _ h)

theorem sim_bufferLoop {t1 t2 : TupleV α} (ht : TSame t1 t2) (hs : Sim v1 v2) (a : α) (len : Option Nat) :
    ∀ (src : List (Except PyErr α)) (it : TIter α) (n : Nat) (buf : List α) (acc1 acc2 : Coll.TAcc α), TRel acc1 acc2 →
    (bufferLoop t1 a len v1 src it n buf acc1).1.2 = none → (bufferLoop t1 a len v1 src it n buf acc1).1.1.errs = [] →
    (bufferLoop t2 a len v2 src it n buf acc2).1.2 = none ∧
      TRel (bufferLoop t1 a len v1 src it n buf acc1).1.1 (bufferLoop t2 a len v2 src it n buf acc2).1.1 ∧
      (bufferLoop t2 a len v2 src it n buf acc2).2 = (bufferLoop t1 a len v1 src it n buf acc1).2 := by
  intro src
  induction src with
  | nil => intro it n buf acc1 acc2 hr h1 h2; exact ⟨rfl, hr, rfl⟩
  | cons x xs ih =>
    intro it n buf acc1 acc2 hr h1 h2
    cases x with
    | error e => exact ⟨rfl, hr, rfl⟩
    | ok x =>
      simp only [bufferLoop] at h1 h2 ⊢
      cases buf with
      | nil => exact ⟨rfl, hr, rfl⟩
      | cons b buf =>
        dsimp only at h1 h2 ⊢
        have key := sim_tupleItem ht hs a len it.count b hr
        generalize tupleItem t1 a len v1 it.count b acc1 = r1 at h1 h2 key ⊢
        obtain ⟨r1, q1⟩ := r1
        cases q1 with
        | some e => cases h1
        | none =>
          dsimp only at h1 h2 key ⊢
          have hr1 : r1.errs = [] := by
            split at h2
            · exact h2
            · exact bufferLoop_errs _ _ _ _ _ _ _ _ _ h2
          obtain ⟨k1, k2⟩ := key rfl hr1
          rw [k1]
          dsimp only
          have hb1 : (t1.failFast && !r1.errs.isEmpty) = false := by rw [hr1]; simp
          have hb2 : ∀ c, (c && !(tupleItem t2 a len v2 it.count b acc2).1.errs.isEmpty) = false := by
            intro c; rw [k2.errs2]; simp
          rw [hb1] at h1 h2 ⊢
          rw [hb2]
          rw [if_neg Bool.false_ne_true] at h1 h2 ⊢
          rw [if_neg Bool.false_ne_true]
          exact ih _ _ _ _ _ k2 h1 h2

theorem sim_tupleVariable {t1 t2 : TupleV α} (ht : TSame t1 t2) (a : α) (len : Option Nat) (it : TIter α)
    (hh : All2 ItemSim t1.head t2.head)
    (hv : match t1.variadic, t2.variadic with
      | some (v, tl), some (v', tl') => ItemSim v v' ∧ All2 ItemSim tl tl'
      | none, none => True
      | _, _ => False)
    {acc1 acc2 : Coll.TAcc α} (hr : TRel acc1 acc2) {r1 : TRes α} {it1 : TIter α}
    (h : tupleVariable t1 a len it acc1 = some (r1, it1)) (h1 : r1.2 = none) (h2 : r1.1.errs = []) :
    ∃ r2, tupleVariable t2 a len it acc2 = some (r2, it1) ∧ r2.2 = none ∧ TRel r1.1 r2.1 := by
  have hhead := sim_tupleItems ht a len t1.head t2.head it acc1 acc2 hh hr
  have hlen : t2.head.length = t1.head.length := (all2_length hh).symm
  simp only [tupleVariable] at h ⊢
  have good : ∀ {q : TRes α × TIter α}, q.1.2 = none → q.1.1.errs = [] → ∀ b, (q.1.2.isSome || (b && !q.1.1.errs.isEmpty)) = false := by
    intro q e1 e2 b; rw [e1, e2]; simp
  cases hv1 : t1.variadic with
  | none =>
    cases hv2 : t2.variadic with
    | some x => rw [hv1, hv2] at hv; exact hv.elim
    | none =>
      rw [hv1] at h
      dsimp only at h ⊢
      generalize tupleItems t1 a len t1.head it acc1 = q1 at h hhead
      have hq : q1.1.2 = none ∧ q1.1.1.errs = [] := by
        split at h
        · cases h; exact ⟨h1, h2⟩
        · split at h
          · cases h; cases h1
          · cases h; exact ⟨h1, h2⟩
      obtain ⟨k1, k2, k3⟩ := hhead hq.1 hq.2
      rw [good hq.1 hq.2, if_neg Bool.false_ne_true] at h
      rw [good k1 k2.errs2, if_neg Bool.false_ne_true, k3]
      cases hn : q1.2.next.1 with
      | some x => rw [hn] at h; cases h; cases h1
      | none => rw [hn] at h; cases h; exact ⟨_, rfl, k1, k2⟩
  | some x =>
    obtain ⟨v, tl⟩ := x
    cases hv2 : t2.variadic with
    | none => rw [hv1, hv2] at hv; exact hv.elim
    | some x' =>
      obtain ⟨v', tl'⟩ := x'
      rw [hv1, hv2] at hv
      obtain ⟨⟨hs, hdef⟩, htl⟩ := hv
      rw [hv1] at h
      dsimp only at h ⊢
      generalize tupleItems t1 a len t1.head it acc1 = q1 at h hhead
      have htn : tl'.isEmpty = tl.isEmpty := by cases htl <;> rfl
      have htl2 : tl'.length = tl.length := (all2_length htl).symm
      have hq : q1.1.2 = none ∧ q1.1.1.errs = [] := by
        split at h
        · cases h; exact ⟨h1, h2⟩
        · rename_i hnb
          have hq2 : q1.1.2 = none := by
            cases hq : q1.1.2 with
            | none => rfl
            | some e => rw [hq] at hnb; simp at hnb
          refine ⟨hq2, ?_⟩
          split at h
          · cases h
            exact variadicLoop_errs _ _ _ _ _ _ _ h2
          · have hmono := bufferLoop_errs t1 a len v.validate
              (if (q1.2.takeInner tl.length).2.err.isSome then [] else (q1.2.takeInner tl.length).2.rest)
              (q1.2.takeInner tl.length).2 (q1.2.takeInner tl.length).2.count (q1.2.takeInner tl.length).1 q1.1.1
            generalize bufferLoop t1 a len v.validate _ _ _ _ _ = b1 at h hmono
            obtain ⟨⟨bacc, be⟩, bo⟩ := b1
            cases bo with
            | none => cases h
            | some o =>
              obtain ⟨ret, idx, buf, it'⟩ := o
              dsimp only at h hmono
              split at h
              · cases h
                exact hmono h2
              · cases h
                exact hmono (tupleItems_errs _ _ _ _ _ _ h2)
      obtain ⟨k1, k2, k3⟩ := hhead hq.1 hq.2
      rw [good hq.1 hq.2, if_neg Bool.false_ne_true] at h
      rw [good k1 k2.errs2, if_neg Bool.false_ne_true, k3, htn, htl2]
      by_cases hte : tl.isEmpty = true
      · rw [if_pos hte] at h ⊢
        cases h
        obtain ⟨j1, j2, j3⟩ := sim_variadicLoop ht hs a len _ q1.2 _ _ k2 h1 h2
        exact ⟨_, congrArg some (Prod.ext rfl (congrArg (fun x : Bool × TIter α => x.2) j3)), j1, j2⟩
      · rw [if_neg hte] at h ⊢
        have key := sim_bufferLoop ht hs a len (if (q1.2.takeInner tl.length).2.err.isSome then [] else (q1.2.takeInner tl.length).2.rest)
          (q1.2.takeInner tl.length).2 (q1.2.takeInner tl.length).2.count (q1.2.takeInner tl.length).1 _ _ k2
        generalize bufferLoop t1 a len v.validate _ _ _ _ _ = b1 at h key
        obtain ⟨⟨bacc, be⟩, bo⟩ := b1
        cases bo with
        | none => cases h
        | some o =>
          obtain ⟨ret, idx, buf, it'⟩ := o
          dsimp only at h key
          have hb : be = none ∧ bacc.errs = [] := by
            split at h
            · cases h; exact ⟨h1, h2⟩
            · rename_i hnb
              cases h
              refine ⟨?_, tupleItems_errs _ _ _ _ _ _ h2⟩
              cases be with
              | none => rfl
              | some e => simp at hnb
          obtain ⟨j1, j2, j3⟩ := key hb.1 hb.2
          rw [j3]
          dsimp only
          rw [j1]
          obtain ⟨rfl, hb2⟩ := hb
          cases ret with
          | true =>
            rw [if_pos (by simp)] at h ⊢
            cases h
            exact ⟨_, rfl, j1, j2⟩
          | false =>
            rw [if_neg (by simp)] at h ⊢
            cases h
            obtain ⟨i1, i2, i3⟩ := sim_tupleItems ht a len tl tl' _ _ _ htl j2 h1 h2
            exact ⟨_, rfl, i1, i2⟩

theorem sim_tuple {t1 t2 : TupleV α} (p1 p2 : ValResult α α) (ht : TSame t1 t2)
    (hh : All2 ItemSim t1.head t2.head)
    (hv : match t1.variadic, t2.variadic with
      | some (v, tl), some (v', tl') => ItemSim v v' ∧ All2 ItemSim tl tl'
      | none, none => True
      | _, _ => False)
    (hl : ∀ strict a seq ex, t1.asTuple true a = .ok (seq, ex) → ∃ ex', t1.asTuple strict a = .ok (seq, ex')) :
    ∀ a st1 st2, R st1 st2 → ∀ y, (tupleRun p1 t1 a st1).1 = .ok y →
      (tupleRun p2 t2 a st2).1 = .ok y ∧ R (tupleRun p1 t1 a st1).2 (tupleRun p2 t2 a st2).2 := by
  intro a st1 st2 hr y hy
  obtain ⟨q, hq⟩ := Coll.tuple_never_panics t1 a st1
  simp only [tupleRun, hq, Option.getD_some] at hy ⊢
  have hr0 := hr.off
  simp only [TupleV.validate] at hq ⊢
  rw [hr0.strictOr] at hq
  rw [ht.asTuple]
  cases hs : t1.asTuple true a with
  | error e => rw [hs] at hq; cases hq; cases hy
  | ok sq =>
    obtain ⟨seq, ex⟩ := sq
    obtain ⟨ex', hs2⟩ := hl (({ st2 with allowPartial := .off } : VState α).strictOr t2.strict) a seq ex hs
    rw [hs] at hq; rw [hs2]
    dsimp only at hq ⊢
    cases htv : tupleVariable t1 a seq.len ⟨seq.items, 0, none, 0⟩ ⟨[], [], ({ st1 with allowPartial := .off } : VState α).floorExactness ex⟩ with
    | none => rw [htv] at hq; cases hq
    | some r =>
      obtain ⟨⟨acc1, e1⟩, it1⟩ := r
      rw [htv] at hq
      dsimp only at hq
      cases e1 with
      | some e => cases hq; cases hy
      | none =>
        cases hie : it1.err with
        | some e => obtain ⟨k, e⟩ := e; rw [hie] at hq; cases hq; cases hy
        | none =>
          rw [hie] at hq
          dsimp only at hq
          cases hem : acc1.errs ++ tupleMinLengthError t1 a acc1.out.length with
          | cons e es => rw [hem, if_neg (by simp)] at hq; cases hq; cases hy
          | nil =>
            rw [hem] at hq
            simp only [List.isEmpty_nil, if_true] at hq
            cases hq
            cases hy
            obtain ⟨he1, he2⟩ := List.append_eq_nil_iff.mp hem
            obtain ⟨r2, g1, g2, g3⟩ := sim_tupleVariable ht a seq.len ⟨seq.items, 0, none, 0⟩ hh hv
              (acc1 := ⟨[], [], ({ st1 with allowPartial := .off } : VState α).floorExactness ex⟩)
              (acc2 := ⟨[], [], ({ st2 with allowPartial := .off } : VState α).floorExactness ex'⟩)
              ⟨rfl, rfl, rfl, hr0.floor ex ex'⟩ htv rfl he1
            rw [g1]
            dsimp only
            rw [g2, hie]
            dsimp only
            have : tupleMinLengthError t2 a r2.1.out.length = [] := by
              rw [g3.out]
              simp only [tupleMinLengthError, ht.minLength] at he2 ⊢
              exact he2
            rw [g3.errs2, this, ht.build, g3.out]
            exact ⟨rfl, g3.st⟩

end PC.Engine
