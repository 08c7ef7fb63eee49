import Verif.Model.Engine

/-
Two validators that agree where they are called, on states whose recursion guard satisfies an invariant, give
combined validators that agree; and the invariant is kept.
-/

namespace PC.Engine
open PC.Comb PC.Coll PC.Union PC.Fields PC.Lookup
variable {α : Type}

/-- `v` and `v'` agree on the input `a`, from every state whose guard satisfies `P`, and keep `P`. -/
def At {β : Type} (P : Guard.State → Prop) (v v' : Validator α β) (a : α) : Prop :=
  ∀ st, P st.guard → v a st = v' a st ∧ P (v a st).2.guard

variable {P : Guard.State → Prop}

theorem floor_guard (st : VState α) (e : Exactness) : (st.floorExactness e).guard = st.guard := by
  simp only [VState.floorExactness]
  split <;> first | rfl | (split <;> rfl)

theorem at_leaf (l : Leaf α) (a : α) : At P l.validate l.validate a := by
  intro st h
  refine ⟨rfl, ?_⟩
  simp only [Leaf.validate]
  split
  · exact h
  · rw [floor_guard]; exact h

theorem at_nullable {isNone : α → Bool} {noneV : α} {v v' : Validator α α} {a : α} (h : At P v v' a) :
    At P (nullable isNone noneV v) (nullable isNone noneV v') a := by
  intro st hp
  simp only [nullable]
  split
  · exact ⟨rfl, hp⟩
  · exact h st hp

/-- The items an enumeration holds. -/
def okItem {ι : Type} (items : List (Nat × Bool × Except PyErr ι)) (a : ι) : Prop := ∃ i b, (i, b, .ok a) ∈ items

theorem okItem_enumerate {ι : Type} (mode : PartialMode) (items : List (Except PyErr ι)) (a : ι) :
    ∀ i, okItem (enumerateLastPartial mode i items) a → (.ok a) ∈ items := by
  induction items with
  | nil => intro i h; obtain ⟨_, _, h⟩ := h; simp [enumerateLastPartial] at h
  | cons x xs ih =>
    intro i h
    obtain ⟨j, b, h⟩ := h
    simp only [enumerateLastPartial, List.mem_cons, Prod.mk.injEq] at h
    rcases h with ⟨_, _, h⟩ | h
    · simp [h]
    · exact List.mem_cons_of_mem _ (ih _ ⟨j, b, h⟩)

theorem at_vecLoop {v v' : Validator α α} (saved : PartialMode) (ff : Bool) :
    ∀ (items : List (Nat × Bool × Except PyErr α)) (mlc : MaxLengthCheck α) (out : List α)
      (errs : List (LineError α)) (st : VState α), (∀ a, okItem items a → At P v v' a) → P st.guard →
      vecLoop v saved ff items mlc out errs st = vecLoop v' saved ff items mlc out errs st ∧
        P (vecLoop v saved ff items mlc out errs st).state.guard := by
  intro items
  induction items with
  | nil => intro mlc out errs st _ hp; exact ⟨rfl, hp⟩
  | cons x xs ih =>
    intro mlc out errs st hi hp
    obtain ⟨i, b, x⟩ := x
    have hi' : ∀ a, okItem xs a → At P v v' a :=
      fun a ⟨j, c, h⟩ => hi a ⟨j, c, List.mem_cons_of_mem _ h⟩
    cases x with
    | error e => exact ⟨rfl, hp⟩
    | ok a =>
      obtain ⟨h1, h2⟩ := hi a ⟨i, b, by simp⟩ (setPartial saved b st) hp
      simp only [vecLoop]
      rw [← h1]
      generalize v a (setPartial saved b st) = r at h2
      obtain ⟨r, st1⟩ := r
      dsimp only at h2 ⊢
      cases r with
      | ok o =>
        dsimp only
        cases mlc.incr with
        | error e => exact ⟨rfl, h2⟩
        | ok m => exact ih m _ _ _ hi' h2
      | error e =>
        cases e with
        | lineErrors ls =>
          dsimp only
          cases mlc.incr with
          | error e => exact ⟨rfl, h2⟩
          | ok m =>
            dsimp only
            split
            · exact ih m _ _ _ hi' h2
            · split
              · exact ⟨rfl, h2⟩
              · exact ih m _ _ _ hi' h2
        | omitted => exact ih mlc _ _ _ hi' h2
        | internal e => exact ⟨rfl, h2⟩
        | useDefault => exact ⟨rfl, h2⟩

theorem at_list (l : ListV α) (v v' : Validator α α) (a : α)
    (h : ∀ strict seq ex, l.asList strict a = .ok (seq, ex) → ∀ b, (.ok b) ∈ seq.items → At P v v' b) :
    At P (ListV.validate { l with item := some v }) (ListV.validate { l with item := some v' }) a := by
  intro st hp
  have hp0 : P st.guard := hp
  simp only [ListV.validate]
  cases hl : l.asList (st.strictOr l.strict) a with
  | error e => exact ⟨rfl, hp⟩
  | ok q =>
    obtain ⟨seq, ex⟩ := q
    dsimp only [validateIterToVec]
    rw [← floor_guard st ex] at hp0
    obtain ⟨e1, e2⟩ := at_vecLoop (v := v) (v' := v') (P := P) (st.floorExactness ex).allowPartial l.failFast
      (enumerateLastPartial (st.floorExactness ex).allowPartial 0 seq.items)
      (MaxLengthCheck.new l.maxLength "List" a seq.len) [] [] (st.floorExactness ex)
      (fun b hb => h _ _ _ hl b (okItem_enumerate _ _ _ _ hb)) hp0
    rw [← e1]
    generalize vecLoop v _ _ _ _ _ _ _ = r at e2
    obtain ⟨r, st1, u⟩ := r
    dsimp only at e2 ⊢
    cases r with
    | error e => exact ⟨rfl, e2⟩
    | ok o =>
      dsimp only
      cases minLengthCheck a "List" l.minLength o.length with
      | error e => exact ⟨rfl, e2⟩
      | ok u => exact ⟨rfl, e2⟩

theorem at_setLoop (hs : Hashing α) {v v' : Validator α α} (input : α) (ft : String) (mx : Option Nat)
    (saved : PartialMode) (ff : Bool) :
    ∀ (items : List (Nat × Bool × Except PyErr α)) (set : List α)
      (errs : List (LineError α)) (st : VState α), (∀ a, okItem items a → At P v v' a) → P st.guard →
      setLoop hs v input ft mx saved ff items set errs st = setLoop hs v' input ft mx saved ff items set errs st ∧
        P (setLoop hs v input ft mx saved ff items set errs st).state.guard := by
  intro items
  induction items with
  | nil => intro set errs st _ hp; exact ⟨rfl, hp⟩
  | cons x xs ih =>
    intro set errs st hi hp
    obtain ⟨i, b, x⟩ := x
    have hi' : ∀ a, okItem xs a → At P v v' a :=
      fun a ⟨j, c, h⟩ => hi a ⟨j, c, List.mem_cons_of_mem _ h⟩
    cases x with
    | error e => exact ⟨rfl, hp⟩
    | ok a =>
      have hadd : validateAdd hs v set a (setPartial saved b st) = validateAdd hs v' set a (setPartial saved b st) ∧
          P (validateAdd hs v set a (setPartial saved b st)).2.guard := by
        obtain ⟨h1, h2⟩ := hi a ⟨i, b, by simp⟩ (setPartial saved b st) hp
        simp only [validateAdd]
        rw [← h1]
        refine ⟨rfl, ?_⟩
        generalize v a (setPartial saved b st) = r at h2
        obtain ⟨r, st1⟩ := r
        cases r with
        | error e => exact h2
        | ok o =>
          dsimp only
          cases hs.add set o with
          | ok s => exact h2
          | error e => obtain ⟨c, e⟩ := e; dsimp only; split <;> exact h2
      obtain ⟨h1, h2⟩ := hadd
      simp only [setLoop]
      rw [← h1]
      generalize validateAdd hs v set a (setPartial saved b st) = r at h2
      obtain ⟨r, st1⟩ := r
      dsimp only at h2 ⊢
      cases r with
      | ok s =>
        dsimp only
        split
        · exact ⟨rfl, h2⟩
        · split
          · exact ⟨rfl, h2⟩
          · exact ih _ _ _ hi' h2
      | error e =>
        cases e with
        | lineErrors ls =>
          dsimp only
          generalize (if b = true then errs else errs ++ ls.map (·.withOuterLocation (.i i))) = errs1
          split
          · exact ⟨rfl, h2⟩
          · exact ih _ _ _ hi' h2
        | omitted =>
          dsimp only
          split
          · exact ⟨rfl, h2⟩
          · exact ih _ _ _ hi' h2
        | internal e => exact ⟨rfl, h2⟩
        | useDefault => exact ⟨rfl, h2⟩

theorem at_set (s : SetV α) (v v' : Validator α α) (a : α)
    (h : ∀ strict seq ex, s.asSet strict a = .ok (seq, ex) → ∀ b, (.ok b) ∈ seq.items → At P v v' b) :
    At P (SetV.validate { s with item := v }) (SetV.validate { s with item := v' }) a := by
  intro st hp
  have hp0 : P st.guard := hp
  simp only [SetV.validate]
  cases hl : s.asSet (st.strictOr s.strict) a with
  | error e => exact ⟨rfl, hp⟩
  | ok q =>
    obtain ⟨seq, ex⟩ := q
    dsimp only [validateIterToSet]
    rw [← floor_guard st ex] at hp0
    obtain ⟨e1, e2⟩ := at_setLoop (v := v) (v' := v') (P := P) s.hashing a s.fieldType s.maxLength
      (st.floorExactness ex).allowPartial s.failFast
      (enumerateLastPartial (st.floorExactness ex).allowPartial 0 seq.items) [] [] (st.floorExactness ex)
      (fun b hb => h _ _ _ hl b (okItem_enumerate _ _ _ _ hb)) hp0
    rw [← e1]
    generalize setLoop _ v _ _ _ _ _ _ _ _ _ = r at e2
    obtain ⟨r, st1, u⟩ := r
    dsimp only at e2 ⊢
    cases r with
    | error e => exact ⟨rfl, e2⟩
    | ok o =>
      dsimp only
      cases minLengthCheck a s.fieldType s.minLength o.length with
      | error e => exact ⟨rfl, e2⟩
      | ok u => exact ⟨rfl, e2⟩

/-- The entries an enumeration holds. -/
def okEntry (items : List (Nat × Bool × ValResult α (α × α))) (k v : α) : Prop := ∃ i b, (i, b, .ok (k, v)) ∈ items

theorem okEntry_enumerate (mode : PartialMode) (items : List (ValResult α (α × α))) (k v : α) :
    ∀ i, okEntry (enumerateLastPartial mode i items) k v → (.ok (k, v)) ∈ items := by
  induction items with
  | nil => intro i h; obtain ⟨_, _, h⟩ := h; simp [enumerateLastPartial] at h
  | cons x xs ih =>
    intro i h
    obtain ⟨j, b, h⟩ := h
    simp only [enumerateLastPartial, List.mem_cons, Prod.mk.injEq] at h
    rcases h with ⟨_, _, h⟩ | h
    · simp [h]
    · exact List.mem_cons_of_mem _ (ih _ ⟨j, b, h⟩)

theorem at_dictLoop (d : DictV α) (kv kv' vv vv' : Validator α α) (input : α) (saved : PartialMode) :
    ∀ (items : List (Nat × Bool × ValResult α (α × α))) (out : List (α × α))
      (errs : List (LineError α)) (st : VState α),
      (∀ k w, okEntry items k w → At P kv kv' k ∧ At P vv vv' w) → P st.guard →
      dictLoop { d with key := kv, value := vv } input saved items out errs st =
        dictLoop { d with key := kv', value := vv' } input saved items out errs st ∧
      P (dictLoop { d with key := kv, value := vv } input saved items out errs st).2.guard := by
  intro items
  induction items with
  | nil =>
    intro out errs st _ hp
    refine ⟨rfl, ?_⟩
    simp only [dictLoop]
    split
    · split <;> exact hp
    · exact hp
  | cons x xs ih =>
    intro out errs st hi hp
    obtain ⟨i, b, x⟩ := x
    have hi' : ∀ k w, okEntry xs k w → At P kv kv' k ∧ At P vv vv' w :=
      fun k w ⟨j, c, h⟩ => hi k w ⟨j, c, List.mem_cons_of_mem _ h⟩
    cases x with
    | error e => exact ⟨rfl, hp⟩
    | ok kw =>
      obtain ⟨k, w⟩ := kw
      obtain ⟨hk, hv⟩ := hi k w ⟨i, b, by simp⟩
      obtain ⟨h1, h2⟩ := hk { st with allowPartial := .off } hp
      simp only [dictLoop]
      rw [← h1]
      generalize kv k { st with allowPartial := .off } = r at h2
      obtain ⟨r, st1⟩ := r
      dsimp only at h2 ⊢
      obtain ⟨h3, h4⟩ := hv (setPartial saved b st1) h2
      rw [← h3]
      generalize vv w (setPartial saved b st1) = r2 at h4
      obtain ⟨r2, st2⟩ := r2
      dsimp only at h4 ⊢
      cases r with
      | ok ko =>
        dsimp only
        cases r2 with
        | ok wo =>
          dsimp only
          split
          · exact ⟨rfl, h4⟩
          · exact ih _ _ _ hi' h4
        | error e =>
          cases e with
          | lineErrors ls => exact ih _ _ _ hi' h4
          | omitted => exact ih _ _ _ hi' h4
          | internal e => exact ⟨rfl, h4⟩
          | useDefault => exact ⟨rfl, h4⟩
      | error e =>
        cases e with
        | lineErrors ls =>
          dsimp only
          cases r2 with
          | ok wo => exact ih _ _ _ hi' h4
          | error e =>
            cases e with
            | lineErrors ls => exact ih _ _ _ hi' h4
            | omitted => exact ih _ _ _ hi' h4
            | internal e => exact ⟨rfl, h4⟩
            | useDefault => exact ⟨rfl, h4⟩
        | omitted => exact ih _ _ _ hi' h2
        | internal e => exact ⟨rfl, h2⟩
        | useDefault => exact ⟨rfl, h2⟩

theorem at_dict (d : DictV α) (kv kv' vv vv' : Validator α α) (a : α)
    (h : ∀ strict entries, d.asDict strict a = .ok entries → ∀ k w, (.ok (k, w)) ∈ entries →
      At P kv kv' k ∧ At P vv vv' w) :
    At P (DictV.validate { d with key := kv, value := vv }) (DictV.validate { d with key := kv', value := vv' }) a := by
  intro st hp
  simp only [DictV.validate]
  cases hl : d.asDict (st.strictOr d.strict) a with
  | error e => exact ⟨rfl, hp⟩
  | ok entries =>
    exact at_dictLoop d kv kv' vv vv' a _ _ _ _ _ (fun k w hkw => h _ _ hl k w (okEntry_enumerate _ _ _ _ _ hkw)) hp

/-- Two lists related item by item. -/
inductive All2 {β γ : Type} (R : β → γ → Prop) : List β → List γ → Prop where
  | nil : All2 R [] []
  | cons {a b as bs} : R a b → All2 R as bs → All2 R (a :: as) (b :: bs)

/-- Union members with the same names that agree on the input. -/
def ChoiceAt (P : Guard.State → Prop) (a : α) (c c' : Choice α) : Prop :=
  c.name = c'.name ∧ c.label = c'.label ∧ At P c.run c'.run a

theorem at_smartLoop (oldE : Option Exactness) (oldF : Option Nat) (input : α) :
    ∀ (cs cs' : List (Choice α)) (best : Option (Best α)) (errs : MaybeErrors α) (st : VState α),
      All2 (ChoiceAt P input) cs cs' → P st.guard →
      smartLoop oldE oldF input cs best errs st = smartLoop oldE oldF input cs' best errs st ∧
      (match smartLoop oldE oldF input cs best errs st with
        | .returned _ st1 => P st1.guard
        | .finished _ _ st1 => P st1.guard) := by
  intro cs
  induction cs with
  | nil =>
    intro cs' best errs st hi hp
    cases hi
    exact ⟨rfl, hp⟩
  | cons c cs ih =>
    intro cs' best errs st hi hp
    cases hi with
    | cons hc hi' =>
      rename_i c' cs'
      obtain ⟨hn1, hn2, hat⟩ := hc
      obtain ⟨h1, h2⟩ := hat { st with exactness := some .exact, fieldsSetCount := none } hp
      simp only [smartLoop]
      rw [← h1]
      generalize c.run input { st with exactness := some .exact, fieldsSetCount := none } = r at h2
      obtain ⟨r, st1⟩ := r
      dsimp only at h2 ⊢
      cases r with
      | ok v =>
        dsimp only
        split
        · exact ⟨rfl, h2⟩
        · split
          · exact ih _ _ _ _ hi' h2
          · exact ih _ _ _ _ hi' h2
      | error e =>
        cases e with
        | lineErrors ls =>
          have hpush : errs.push c ls = errs.push c' ls := by simp [MaybeErrors.push, hn1, hn2]
          dsimp only
          rw [← hpush]
          exact ih _ _ _ _ hi' h2
        | omitted => exact ⟨rfl, h2⟩
        | internal e => exact ⟨rfl, h2⟩
        | useDefault => exact ⟨rfl, h2⟩

theorem at_smart (cs cs' : List (Choice α)) (ce : Option ErrType) (a : α)
    (hi : All2 (ChoiceAt P a) cs cs') :
    At P (validateSmart cs ce) (validateSmart cs' ce) a := by
  intro st hp
  obtain ⟨h1, h2⟩ := at_smartLoop st.exactness st.fieldsSetCount a cs cs' none (.new ce) st hi hp
  simp only [validateSmart]
  rw [← h1]
  cases h : smartLoop st.exactness st.fieldsSetCount a cs none (.new ce) st with
  | returned r st1 => rw [h] at h2; exact ⟨rfl, h2⟩
  | finished best errs st1 =>
    rw [h] at h2
    dsimp only at h2 ⊢
    cases best with
    | none => exact ⟨rfl, h2⟩
    | some b =>
      refine ⟨rfl, ?_⟩
      dsimp only
      cases b.fieldsSet with
      | none => dsimp only; rw [floor_guard]; exact h2
      | some n =>
        dsimp only
        simp only [VState.addFieldsSet]
        rw [floor_guard]; exact h2

theorem at_ltrLoop (input : α) :
    ∀ (cs cs' : List (Choice α)) (errs : MaybeErrors α) (st : VState α),
      All2 (ChoiceAt P input) cs cs' → P st.guard →
      leftToRightLoop input cs errs st = leftToRightLoop input cs' errs st ∧
      P (leftToRightLoop input cs errs st).2.guard := by
  intro cs
  induction cs with
  | nil =>
    intro cs' errs st hi hp
    cases hi
    exact ⟨rfl, hp⟩
  | cons c cs ih =>
    intro cs' errs st hi hp
    cases hi with
    | cons hc hi' =>
      rename_i c' cs'
      obtain ⟨hn1, hn2, hat⟩ := hc
      obtain ⟨h1, h2⟩ := hat st hp
      simp only [leftToRightLoop]
      rw [← h1]
      generalize c.run input st = r at h2
      obtain ⟨r, st1⟩ := r
      dsimp only at h2 ⊢
      cases r with
      | ok v => exact ⟨rfl, h2⟩
      | error e =>
        cases e with
        | lineErrors ls =>
          have hpush : errs.push c ls = errs.push c' ls := by simp [MaybeErrors.push, hn1, hn2]
          dsimp only
          rw [← hpush]
          exact ih _ _ _ hi' h2
        | omitted => exact ⟨rfl, h2⟩
        | internal e => exact ⟨rfl, h2⟩
        | useDefault => exact ⟨rfl, h2⟩

theorem at_ltr (cs cs' : List (Choice α)) (ce : Option ErrType) (a : α)
    (hi : All2 (ChoiceAt P a) cs cs') :
    At P (validateLeftToRight cs ce) (validateLeftToRight cs' ce) a :=
  fun st hp => at_ltrLoop a cs cs' _ st hi hp

theorem at_before (f : PyFunc α) (v v' : Validator α α) (a : α)
    (h : ∀ x b, f x a = .ok b → At P v v' b) : At P (functionBefore f v) (functionBefore f v') a := by
  intro st hp
  simp only [functionBefore]
  cases hf : f st.extra a with
  | error e => exact ⟨rfl, hp⟩
  | ok b => exact h _ _ hf st hp

theorem at_after (f : PyFunc α) (v v' : Validator α α) (a : α) (h : At P v v' a) :
    At P (functionAfter f v) (functionAfter f v') a := by
  intro st hp
  obtain ⟨h1, h2⟩ := h st hp
  simp only [functionAfter]
  rw [← h1]
  generalize v a st = r at h2
  obtain ⟨r, st1⟩ := r
  dsimp only at h2 ⊢
  cases r with
  | error e => exact ⟨rfl, h2⟩
  | ok w =>
    dsimp only
    cases f st1.extra w with
    | ok u => exact ⟨rfl, h2⟩
    | error e => exact ⟨rfl, h2⟩

theorem at_runWrap (v v' : Validator α α) (h : ∀ b, At P v v' b) :
    ∀ (prog : WrapProg α) (hd : Internal α), P hd.guard →
      runWrap v prog hd = runWrap v' prog hd := by
  intro prog
  induction prog with
  | done r => intro hd _; rfl
  | call x outer k ih =>
    intro hd hp
    obtain ⟨h1, h2⟩ := h x hd.state (by simpa [Internal.state, VState.new] using hp)
    simp only [runWrap, Internal.validate]
    rw [← h1]
    generalize v x hd.state = r at h2
    obtain ⟨r, st1⟩ := r
    dsimp only at h2 ⊢
    cases r with
    | ok w => exact ih _ _ h2
    | error e => exact ih _ _ h2

theorem at_wrap (prog : Extra α → α → WrapProg α) (v v' : Validator α α) (a : α) (h : ∀ b, At P v v' b) :
    At P (functionWrap prog v) (functionWrap prog v') a := by
  intro st hp
  simp only [functionWrap]
  rw [← at_runWrap v v' h (prog st.extra a) (Internal.new st) hp]
  refine ⟨rfl, ?_⟩
  generalize runWrap v (prog st.extra a) (Internal.new st) = r
  obtain ⟨r, hd⟩ := r
  cases r <;> exact hp

theorem at_customError (t : ErrType) (v v' : Validator α α) (a : α) (h : At P v v' a) :
    At P (customError t v) (customError t v') a := by
  intro st hp
  obtain ⟨h1, h2⟩ := h st hp
  simp only [customError]
  rw [← h1]
  generalize v a st = r at h2
  obtain ⟨r, st1⟩ := r
  cases r <;> exact ⟨rfl, h2⟩

theorem at_laxOrStrict (strict : Bool) (v v' w w' : Validator α α) (a : α) (h : At P v v' a) (h' : At P w w' a) :
    At P (laxOrStrict strict v w) (laxOrStrict strict v' w') a := by
  intro st hp
  simp only [laxOrStrict]
  split
  · exact h' st hp
  · split
    · obtain ⟨h1, h2⟩ := h' st hp
      rw [← h1]
      generalize w a st = r at h2
      obtain ⟨r, st1⟩ := r
      cases r with
      | ok o => exact ⟨rfl, h2⟩
      | error e => exact h _ (by rw [floor_guard]; exact h2)
    · exact h st hp

theorem at_withDefault (d : Option α) (v v' : Validator α α) (a : α) (h : At P v v' a) :
    At P (withDefault d v) (withDefault d v') a := by
  intro st hp
  obtain ⟨h1, h2⟩ := h st hp
  simp only [withDefault]
  rw [← h1]
  refine ⟨rfl, ?_⟩
  split <;> exact h2

/-! ### Tuples -/

/-- Every item the iterator may still yield satisfies `Q`. -/
def ItQ (Q : α → Prop) (it : TIter α) : Prop := ∀ a, (.ok a) ∈ it.rest → Q a

theorem itQ_pull {Q : α → Prop} {it : TIter α} (h : ItQ Q it) :
    ItQ Q it.pull.2 ∧ ∀ a, it.pull.1 = some a → Q a := by
  simp only [TIter.pull]
  split
  · exact ⟨h, fun a ha => (by cases ha)⟩
  · split
    · exact ⟨h, fun a ha => (by cases ha)⟩
    · rename_i b rest hr
      refine ⟨fun a ha => h a (by rw [hr]; exact List.mem_cons_of_mem _ ha), fun a ha => ?_⟩
      cases ha
      exact h b (by rw [hr]; simp)
    · rename_i e rest hr
      exact ⟨fun a ha => h a (by rw [hr]; exact List.mem_cons_of_mem _ ha), fun a ha => (by cases ha)⟩

theorem itQ_next {Q : α → Prop} {it : TIter α} (h : ItQ Q it) :
    ItQ Q it.next.2 ∧ ∀ i a, it.next.1 = some (i, a) → Q a := by
  obtain ⟨h1, h2⟩ := itQ_pull h
  refine ⟨h1, fun i a ha => ?_⟩
  simp only [TIter.next, Option.map_eq_some_iff, Prod.mk.injEq] at ha
  obtain ⟨b, hb, _, rfl⟩ := ha
  exact h2 b hb

theorem itQ_take {Q : α → Prop} (n : Nat) : ∀ {it : TIter α}, ItQ Q it →
    ItQ Q (it.takeInner n).2 ∧ ∀ a ∈ (it.takeInner n).1, Q a := by
  induction n with
  | zero => intro it h; exact ⟨h, fun a ha => (by simp [TIter.takeInner] at ha)⟩
  | succ n ih =>
    intro it h
    obtain ⟨h1, h2⟩ := itQ_pull h
    simp only [TIter.takeInner]
    generalize it.pull = r at h1 h2
    obtain ⟨o, it1⟩ := r
    cases o with
    | none => exact ⟨h1, fun a ha => (by simp at ha)⟩
    | some b =>
      obtain ⟨h3, h4⟩ := ih h1
      refine ⟨h3, fun a ha => ?_⟩
      simp only [List.mem_cons] at ha
      rcases ha with rfl | ha
      · exact h2 _ rfl
      · exact h4 a ha

/-- The settings of a tuple validator without its items. -/
def TupleV.withItems (t : TupleV α) (head : List (TItem α)) (variadic : Option (TItem α × List (TItem α))) : TupleV α :=
  { t with head := head, variadic := variadic }

theorem at_tupleItem (t : TupleV α) (hd hd' vr vr') (input : α) (len : Option Nat) (v v' : Validator α α) (index : Nat)
    (item : α) (acc : Coll.TAcc α) (h : At P v v' item) (hp : P acc.st.guard) :
    tupleItem (TupleV.withItems t hd vr) input len v index item acc =
      tupleItem (TupleV.withItems t hd' vr') input len v' index item acc ∧
    P (tupleItem (TupleV.withItems t hd vr) input len v index item acc).1.st.guard := by
  obtain ⟨h1, h2⟩ := h acc.st hp
  simp only [tupleItem]
  rw [← h1]
  generalize v item acc.st = r at h2
  obtain ⟨r, st1⟩ := r
  dsimp only at h2 ⊢
  cases r with
  | ok o =>
    refine ⟨rfl, ?_⟩
    simp only [pushOutputItem]
    split <;> exact h2
  | error e => cases e <;> exact ⟨rfl, h2⟩

/-- Tuple items without defaults that agree on inputs satisfying `Q`. -/
def ItemAt (P : Guard.State → Prop) (Q : α → Prop) (x y : TItem α) : Prop :=
  (∀ a, Q a → At P x.validate y.validate a) ∧ x.default = (fun _ st => (.ok none, st)) ∧
    y.default = (fun _ st => (.ok none, st))

/-- One position of `tupleItems`. -/
def tupleStep (t : TupleV α) (input : α) (len : Option Nat) (v : TItem α) (n : Option (Nat × α) × TIter α)
    (acc : Coll.TAcc α) : TRes α :=
  match n.1 with
  | some (index, item) => tupleItem t input len v.validate index item acc
  | none =>
    let index := n.2.count - 1
    let d := v.default index acc.st
    let acc := { acc with st := d.2 }
    match d.1 with
    | .error e => (acc, some e)
    | .ok (some value) => ({ acc with out := acc.out ++ [value] }, none)
    | .ok none => ({ acc with errs := acc.errs ++ [.newWithLoc .missing input (.i index)] }, none)

theorem tupleItems_cons (t : TupleV α) (input : α) (len : Option Nat) (v : TItem α) (vs : List (TItem α))
    (it : TIter α) (acc : Coll.TAcc α) :
    tupleItems t input len (v :: vs) it acc =
      match (tupleStep t input len v it.next acc).2 with
      | some e => (((tupleStep t input len v it.next acc).1, some e), it.next.2)
      | none =>
        if t.failFast && !(tupleStep t input len v it.next acc).1.errs.isEmpty then
          (((tupleStep t input len v it.next acc).1, none), it.next.2)
        else tupleItems t input len vs it.next.2 (tupleStep t input len v it.next acc).1 := rfl

theorem at_tupleItems {Q : α → Prop} (t : TupleV α) (hd hd' vr vr') (input : α) (len : Option Nat) :
    ∀ (vs vs' : List (TItem α)) (it : TIter α) (acc : Coll.TAcc α), All2 (ItemAt P Q) vs vs' → ItQ Q it →
      P acc.st.guard →
      tupleItems (TupleV.withItems t hd vr) input len vs it acc =
        tupleItems (TupleV.withItems t hd' vr') input len vs' it acc ∧
      P (tupleItems (TupleV.withItems t hd vr) input len vs it acc).1.1.st.guard ∧
      ItQ Q (tupleItems (TupleV.withItems t hd vr) input len vs it acc).2 := by
  intro vs
  induction vs with
  | nil => intro vs' it acc hi hq hp; cases hi; exact ⟨rfl, hp, hq⟩
  | cons v vs ih =>
    intro vs' it acc hi hq hp
    cases hi with
    | cons hv hi =>
      rename_i v' vs'
      obtain ⟨hv, hd1, hd2⟩ := hv
      obtain ⟨hq1, hq2⟩ := itQ_next hq
      have hst : tupleStep (TupleV.withItems t hd vr) input len v it.next acc =
            tupleStep (TupleV.withItems t hd' vr') input len v' it.next acc ∧
          P (tupleStep (TupleV.withItems t hd vr) input len v it.next acc).1.st.guard := by
        generalize it.next = n at hq1 hq2
        obtain ⟨o, it1⟩ := n
        cases o with
        | none => simp only [tupleStep, hd1, hd2]; exact ⟨trivial, hp⟩
        | some p =>
          obtain ⟨i, a⟩ := p
          exact at_tupleItem t hd hd' vr vr' input len v.validate v'.validate i a acc (hv a (hq2 i a rfl)) hp
      obtain ⟨e1, e2⟩ := hst
      rw [tupleItems_cons, tupleItems_cons, ← e1]
      generalize tupleStep _ _ _ _ _ _ = r at e2
      obtain ⟨acc1, e⟩ := r
      dsimp only at e2 ⊢
      cases e with
      | some e => exact ⟨rfl, e2, hq1⟩
      | none =>
        dsimp only
        have hff : ∀ a b, (TupleV.withItems t a b).failFast = t.failFast := fun _ _ => rfl
        rw [hff, hff]
        split
        · exact ⟨rfl, e2, hq1⟩
        · exact ih _ _ _ hi hq1 e2

theorem at_variadicLoop {Q : α → Prop} (t : TupleV α) (hd hd' vr vr') (input : α) (len : Option Nat)
    (v v' : Validator α α) (hv : ∀ a, Q a → At P v v' a) :
    ∀ (src : List (Except PyErr α)) (it : TIter α) (acc : Coll.TAcc α), (∀ a, (.ok a) ∈ src → Q a) →
      P acc.st.guard →
      variadicLoop (TupleV.withItems t hd vr) input len v src it acc =
        variadicLoop (TupleV.withItems t hd' vr') input len v' src it acc ∧
      P (variadicLoop (TupleV.withItems t hd vr) input len v src it acc).1.1.st.guard := by
  intro src
  induction src with
  | nil => intro it acc _ hp; exact ⟨rfl, hp⟩
  | cons x xs ih =>
    intro it acc hq hp
    cases x with
    | error e => exact ⟨rfl, hp⟩
    | ok a =>
      simp only [variadicLoop]
      obtain ⟨e1, e2⟩ := at_tupleItem t hd hd' vr vr' input len v v' it.count a acc (hv a (hq a (by simp))) hp
      rw [← e1]
      generalize tupleItem _ _ _ _ _ _ _ = r at e2
      obtain ⟨acc1, e⟩ := r
      dsimp only at e2 ⊢
      cases e with
      | some e => exact ⟨rfl, e2⟩
      | none =>
        dsimp only
        have hff : ∀ a b, (TupleV.withItems t a b).failFast = t.failFast := fun _ _ => rfl
        rw [hff, hff]
        split
        · exact ⟨rfl, e2⟩
        · exact ih _ _ (fun b hb => hq b (List.mem_cons_of_mem _ hb)) e2

theorem at_bufferLoop {Q : α → Prop} (t : TupleV α) (hd hd' vr vr') (input : α) (len : Option Nat)
    (v v' : Validator α α) (hv : ∀ a, Q a → At P v v' a) :
    ∀ (src : List (Except PyErr α)) (it : TIter α) (index : Nat) (buffer : List α) (acc : Coll.TAcc α),
      (∀ a, (.ok a) ∈ src → Q a) → (∀ a ∈ buffer, Q a) → P acc.st.guard →
      bufferLoop (TupleV.withItems t hd vr) input len v src it index buffer acc =
        bufferLoop (TupleV.withItems t hd' vr') input len v' src it index buffer acc ∧
      P (bufferLoop (TupleV.withItems t hd vr) input len v src it index buffer acc).1.1.st.guard ∧
      ∀ b i buf it', (bufferLoop (TupleV.withItems t hd vr) input len v src it index buffer acc).2 =
        some (b, i, buf, it') → ∀ a ∈ buf, Q a := by
  intro src
  induction src with
  | nil =>
    intro it index buffer acc _ hb hp
    refine ⟨rfl, hp, fun b i buf it' h => ?_⟩
    simp only [bufferLoop, Option.some.injEq, Prod.mk.injEq] at h
    obtain ⟨_, _, rfl, _⟩ := h
    exact hb
  | cons x xs ih =>
    intro it index buffer acc hq hb hp
    cases x with
    | error e =>
      refine ⟨rfl, hp, fun b i buf it' h => ?_⟩
      simp only [bufferLoop, Option.some.injEq, Prod.mk.injEq] at h
      obtain ⟨_, _, rfl, _⟩ := h
      exact hb
    | ok a =>
      cases buffer with
      | nil => exact ⟨rfl, hp, fun b i buf it' h => (by simp [bufferLoop] at h)⟩
      | cons c buffer =>
        simp only [bufferLoop]
        obtain ⟨e1, e2⟩ := at_tupleItem t hd hd' vr vr' input len v v' it.count c acc (hv c (hb c (by simp))) hp
        have hb' : ∀ x ∈ buffer ++ [a], Q x := by
          intro x hx
          simp only [List.mem_append, List.mem_singleton] at hx
          rcases hx with hx | rfl
          · exact hb x (List.mem_cons_of_mem _ hx)
          · exact hq x (by simp)
        rw [← e1]
        generalize tupleItem _ _ _ _ _ _ _ = r at e2
        obtain ⟨acc1, e⟩ := r
        dsimp only at e2 ⊢
        cases e with
        | some e =>
          refine ⟨rfl, e2, fun b i buf it' h => ?_⟩
          simp only [Option.some.injEq, Prod.mk.injEq] at h
          obtain ⟨_, _, rfl, _⟩ := h
          exact hb'
        | none =>
          dsimp only
          have hff : ∀ a b, (TupleV.withItems t a b).failFast = t.failFast := fun _ _ => rfl
          rw [hff, hff]
          split
          · refine ⟨rfl, e2, fun b i buf it' h => ?_⟩
            simp only [Option.some.injEq, Prod.mk.injEq] at h
            obtain ⟨_, _, rfl, _⟩ := h
            exact hb'
          · exact ih _ _ _ _ (fun b hb => hq b (List.mem_cons_of_mem _ hb)) hb' e2

/-- The variadic parts of two tuple validators agree. -/
def VarAt (P : Guard.State → Prop) (Q : α → Prop) :
    Option (TItem α × List (TItem α)) → Option (TItem α × List (TItem α)) → Prop
  | none, none => True
  | some (v, tl), some (v', tl') => ItemAt P Q v v' ∧ All2 (ItemAt P Q) tl tl'
  | _, _ => False

theorem all2_length {β γ : Type} {R : β → γ → Prop} {as : List β} {bs : List γ} (h : All2 R as bs) :
    as.length = bs.length := by
  induction h with
  | nil => rfl
  | cons _ _ ih => simp [ih]

theorem at_tupleVariable {Q : α → Prop} (t : TupleV α) (hd hd' vr vr') (input : α) (len : Option Nat) (it : TIter α)
    (acc : Coll.TAcc α) (hh : All2 (ItemAt P Q) hd hd') (hvr : VarAt P Q vr vr') (hq : ItQ Q it) (hp : P acc.st.guard) :
    tupleVariable (TupleV.withItems t hd vr) input len it acc =
      tupleVariable (TupleV.withItems t hd' vr') input len it acc ∧
    ∀ r it', tupleVariable (TupleV.withItems t hd vr) input len it acc = some (r, it') → P r.1.st.guard := by
  have hff : ∀ a b, (TupleV.withItems t a b).failFast = t.failFast := fun _ _ => rfl
  have hhd : ∀ a b, (TupleV.withItems t a b).head = a := fun _ _ => rfl
  have hvv : ∀ a b, (TupleV.withItems t a b).variadic = b := fun _ _ => rfl
  obtain ⟨e1, e2, e3⟩ := at_tupleItems t hd hd' vr vr' input len hd hd' it acc hh hq hp
  cases vr with
  | none =>
    cases vr' with
    | some p => exact hvr.elim
    | none =>
      simp only [tupleVariable, hvv, hhd, hff]
      rw [← e1, ← all2_length hh]
      refine ⟨rfl, fun r it' h => ?_⟩
      generalize tupleItems _ _ _ _ _ _ = q at e2 e3 h
      obtain ⟨q1, q2⟩ := q
      dsimp only at e2 h
      split at h
      · cases h; exact e2
      · split at h
        · cases h; exact e2
        · cases h; exact e2
  | some p =>
    cases vr' with
    | none => obtain ⟨_, _⟩ := p; exact hvr.elim
    | some p' =>
      obtain ⟨v, tl⟩ := p
      obtain ⟨v', tl'⟩ := p'
      obtain ⟨hv, htl⟩ := hvr
      simp only [tupleVariable, hvv, hhd, hff]
      rw [← e1]
      have hlen := all2_length htl
      have hemp : tl'.isEmpty = tl.isEmpty := by
        cases htl <;> rfl
      rw [hemp, ← hlen]
      generalize tupleItems _ _ _ _ _ _ = q at e2 e3
      obtain ⟨q1, q2⟩ := q
      dsimp only at e2 e3 ⊢
      split
      · refine ⟨rfl, fun r it' h => ?_⟩
        cases h; exact e2
      · split
        · have hsrc : ∀ a, (.ok a) ∈ (if q2.err.isSome = true then [] else q2.rest) → Q a := by
            intro a ha
            split at ha
            · simp at ha
            · exact e3 a ha
          obtain ⟨f1, f2⟩ := at_variadicLoop t hd hd' (some (v, tl)) (some (v', tl')) input len v.validate v'.validate
            hv.1 (if q2.err.isSome = true then [] else q2.rest) q2 q1.1 hsrc e2
          rw [← f1]
          refine ⟨rfl, fun r it' h => ?_⟩
          cases h; exact f2
        · obtain ⟨g1, g2⟩ := itQ_take tl.length e3
          generalize q2.takeInner tl.length = b at g1 g2
          obtain ⟨buf, it2⟩ := b
          dsimp only at g1 g2 ⊢
          have hsrc : ∀ a, (.ok a) ∈ (if it2.err.isSome = true then [] else it2.rest) → Q a := by
            intro a ha
            split at ha
            · simp at ha
            · exact g1 a ha
          obtain ⟨f1, f2, f3⟩ := at_bufferLoop t hd hd' (some (v, tl)) (some (v', tl')) input len v.validate v'.validate
            hv.1 (if it2.err.isSome = true then [] else it2.rest) it2 it2.count buf q1.1 hsrc g2 e2
          rw [← f1]
          generalize bufferLoop _ _ _ _ _ _ _ _ _ = r at f2 f3
          obtain ⟨r1, r2⟩ := r
          dsimp only at f2 f3 ⊢
          cases r2 with
          | none => exact ⟨rfl, fun r it' h => (by cases h)⟩
          | some x =>
            obtain ⟨ret, idx, buf2, it3⟩ := x
            dsimp only
            split
            · refine ⟨rfl, fun r it' h => ?_⟩
              cases h; exact f2
            · have hbq : ItQ Q (⟨buf2.map .ok, 0, none, idx⟩ : TIter α) := by
                intro a ha
                simp only [List.mem_map] at ha
                obtain ⟨b, hb, he⟩ := ha
                cases he
                exact f3 _ _ _ _ rfl _ hb
              obtain ⟨k1, k2, _⟩ := at_tupleItems t hd hd' (some (v, tl)) (some (v', tl')) input len tl tl' _ r1.1 htl
                hbq f2
              rw [← k1]
              refine ⟨rfl, fun r it' h => ?_⟩
              cases h; exact k2

theorem at_tuple {Q : α → Prop} (t : TupleV α) (panic : ValResult α α) (hd hd' vr vr') (a : α)
    (hq : ∀ strict seq ex, t.asTuple strict a = .ok (seq, ex) → ∀ b, (.ok b) ∈ seq.items → Q b)
    (hh : All2 (ItemAt P Q) hd hd') (hvr : VarAt P Q vr vr') :
    At P (tupleRun panic (TupleV.withItems t hd vr)) (tupleRun panic (TupleV.withItems t hd' vr')) a := by
  intro st hp
  simp only [tupleRun]
  have key : (TupleV.withItems t hd vr).validate a st = (TupleV.withItems t hd' vr').validate a st ∧
      ∀ r, (TupleV.withItems t hd vr).validate a st = some r → P r.2.guard := by
    simp only [TupleV.validate]
    have h1 : ∀ a b, (TupleV.withItems t a b).asTuple = t.asTuple := fun _ _ => rfl
    have h2 : ∀ a b, (TupleV.withItems t a b).strict = t.strict := fun _ _ => rfl
    simp only [h1, h2]
    cases hs : t.asTuple _ a with
    | error e => exact ⟨rfl, fun r h => (by cases h; exact hp)⟩
    | ok q =>
      obtain ⟨seq, ex⟩ := q
      dsimp only
      obtain ⟨e1, e2⟩ := at_tupleVariable (Q := Q) t hd hd' vr vr' a seq.len ⟨seq.items, 0, none, 0⟩
        ⟨[], [], VState.floorExactness { st with allowPartial := .off } ex⟩ hh hvr (fun b hb => hq _ _ _ hs b hb)
        (by dsimp only; rw [floor_guard]; exact hp)
      rw [← e1]
      generalize tupleVariable _ _ _ _ _ = o at e2
      cases o with
      | none => exact ⟨rfl, fun r h => (by cases h)⟩
      | some p =>
        obtain ⟨r, it⟩ := p
        have hr := e2 _ _ rfl
        dsimp only
        refine ⟨rfl, fun w h => ?_⟩
        split at h
        · cases h; exact hr
        · cases h; exact hr
        · split at h
          · cases h; exact hr
          · cases h; exact hr
  obtain ⟨k1, k2⟩ := key
  rw [← k1]
  refine ⟨rfl, ?_⟩
  cases h : (TupleV.withItems t hd vr).validate a st with
  | none => exact hp
  | some r => exact k2 r h

/-! ### Typed dicts -/

/-- A typed dict validator with other fields and another validator of extra items. -/
def TypedDict.withParts (t : TypedDict α) (fs : List (Field α)) (ex : Option (Validator α α)) : TypedDict α :=
  { t with fields := fs, extrasV := ex }

/-- Two fields that look up the same keys, have the same default, and agree on inputs satisfying `Q`. -/
structure FieldAt (P : Guard.State → Prop) (Q : α → Prop) (f g : Field α) : Prop where
  name : f.name = g.name
  keys : f.keys = g.keys
  required : f.required = g.required
  dflt : ∃ d : Option α, f.dflt = (fun _ st => (.ok d, st)) ∧ g.dflt = (fun _ st => (.ok d, st))
  run : ∀ a, Q a → At P f.run g.run a

theorem at_rebind {v v' : Validator α α} {a : α} (f : Extra α → Extra α) (st : VState α) (h : At P v v' a)
    (hp : P st.guard) : rebindExtra f (v a) st = rebindExtra f (v' a) st ∧ P (rebindExtra f (v a) st).2.guard := by
  obtain ⟨h1, h2⟩ := h { st with extra := f st.extra } hp
  simp only [rebindExtra]
  rw [← h1]
  exact ⟨rfl, h2⟩

theorem at_fieldStep {Q : α → Prop} (t : TypedDict α) (fs fs' ex ex') (view : DictView α) (input : α)
    (byAlias byName : Bool) (lastKey : Option LocItem) (saved : PartialMode) (f g : Field α) (acc : FAcc α)
    (hfg : FieldAt P Q f g) (hv : ∀ key path a, view.get key = .ok (some (path, a)) → Q a) (hp : P acc.st.guard) :
    TypedDict.fieldStep (TypedDict.withParts t fs ex) view input byAlias byName lastKey saved f acc =
      TypedDict.fieldStep (TypedDict.withParts t fs' ex') view input byAlias byName lastKey saved g acc ∧
    P (TypedDict.fieldStep (TypedDict.withParts t fs ex) view input byAlias byName lastKey saved f acc).2.st.guard := by
  obtain ⟨fn, fk, fr, fd, ff, fq⟩ := f
  obtain ⟨gn, gk, gr, gd, gf, gq⟩ := g
  obtain ⟨h1, h2, h3, ⟨d, h4, h5⟩, h6⟩ := hfg
  dsimp only at h1 h2 h3 h4 h5 h6
  subst h1 h2 h3 h4 h5
  simp only [TypedDict.fieldStep, TypedDict.withParts]
  cases fk.select byAlias byName with
  | error e => exact ⟨rfl, hp⟩
  | ok key =>
    dsimp only
    cases hg : view.get key with
    | error e =>
      cases e with
      | lineErrors ls => dsimp only; split <;> exact ⟨rfl, hp⟩
      | internal e => exact ⟨rfl, hp⟩
      | omitted => exact ⟨rfl, hp⟩
      | useDefault => exact ⟨rfl, hp⟩
    | ok o =>
      cases o with
      | some pv =>
        obtain ⟨path, a⟩ := pv
        dsimp only
        obtain ⟨e1, e2⟩ := at_rebind (fun x => { x with data := some acc.dict, fieldName := some fn })
          { acc.st with allowPartial := if decide (lastKey = some (.s path.first)) = true then saved else .off }
          (h6 a (hv _ _ _ hg)) hp
        rw [← e1]
        generalize rebindExtra _ _ _ = r at e2
        obtain ⟨r, st1⟩ := r
        dsimp only at e2 ⊢
        cases r with
        | ok w => exact ⟨rfl, e2⟩
        | error e =>
          cases e with
          | lineErrors ls => dsimp only; split <;> exact ⟨rfl, e2⟩
          | internal e => exact ⟨rfl, e2⟩
          | omitted => exact ⟨rfl, e2⟩
          | useDefault => exact ⟨rfl, e2⟩
      | none =>
        dsimp only [rebindExtra]
        cases d with
        | some w => exact ⟨rfl, hp⟩
        | none => dsimp only; split <;> exact ⟨rfl, hp⟩

theorem at_fieldLoop {Q : α → Prop} (t : TypedDict α) (fs fs' ex ex') (view : DictView α) (input : α)
    (byAlias byName : Bool) (lastKey : Option LocItem) (saved : PartialMode)
    (hv : ∀ key path a, view.get key = .ok (some (path, a)) → Q a) :
    ∀ (xs ys : List (Field α)) (acc : FAcc α), All2 (FieldAt P Q) xs ys → P acc.st.guard →
    TypedDict.fieldLoop (TypedDict.withParts t fs ex) view input byAlias byName lastKey saved xs acc =
      TypedDict.fieldLoop (TypedDict.withParts t fs' ex') view input byAlias byName lastKey saved ys acc ∧
    P (TypedDict.fieldLoop (TypedDict.withParts t fs ex) view input byAlias byName lastKey saved xs acc).2.st.guard := by
  intro xs
  induction xs with
  | nil => intro ys acc h hp; cases h; exact ⟨rfl, hp⟩
  | cons x xs ih =>
    intro ys acc h hp
    cases h with
    | cons hxy h =>
      obtain ⟨e1, e2⟩ := at_fieldStep t fs fs' ex ex' view input byAlias byName lastKey saved _ _ acc hxy hv hp
      simp only [TypedDict.fieldLoop]
      rw [← e1]
      generalize TypedDict.fieldStep _ _ _ _ _ _ _ _ _ = r at e2
      obtain ⟨r, acc1⟩ := r
      dsimp only at e2 ⊢
      cases r with
      | ok u => exact ih _ _ h e2
      | error e => exact ⟨rfl, e2⟩

/-- Two validators of extra items that agree on inputs satisfying `Q`. -/
def ExtrasAt (P : Guard.State → Prop) (Q : α → Prop) : Option (Validator α α) → Option (Validator α α) → Prop
  | none, none => True
  | some v, some v' => ∀ a, Q a → At P v v' a
  | _, _ => False

theorem at_extraStep {Q : α → Prop} (t : TypedDict α) (fs fs' ex ex') (hex : ExtrasAt P Q ex ex') (used : List String)
    (lastKey : Option LocItem) (saved : PartialMode) (k w : α) (acc : Fields.TAcc α) (hw : Q w) (hp : P acc.st.guard) :
    TypedDict.extraStep (TypedDict.withParts t fs ex) used lastKey saved k w acc =
      TypedDict.extraStep (TypedDict.withParts t fs' ex') used lastKey saved k w acc ∧
    P (TypedDict.extraStep (TypedDict.withParts t fs ex) used lastKey saved k w acc).2.st.guard := by
  simp only [TypedDict.extraStep]
  rw [show (TypedDict.withParts t fs ex).keyOps = t.keyOps from rfl,
    show (TypedDict.withParts t fs' ex').keyOps = t.keyOps from rfl,
    show (TypedDict.withParts t fs ex).extra = t.extra from rfl,
    show (TypedDict.withParts t fs' ex').extra = t.extra from rfl,
    show (TypedDict.withParts t fs ex).extrasV = ex from rfl,
    show (TypedDict.withParts t fs' ex').extrasV = ex' from rfl]
  cases t.keyOps.str k with
  | error e => cases e <;> exact ⟨rfl, hp⟩
  | ok key =>
    dsimp only
    split
    · exact ⟨rfl, hp⟩
    · cases t.extra with
      | forbid => exact ⟨rfl, hp⟩
      | ignore => exact ⟨rfl, hp⟩
      | allow =>
        cases ex with
        | none =>
          cases ex' with
          | none => exact ⟨rfl, hp⟩
          | some v => exact hex.elim
        | some v =>
          cases ex' with
          | none => exact hex.elim
          | some v' =>
            dsimp only
            generalize hst : ({ acc.st with allowPartial := if decide (lastKey = some (t.keyOps.loc k)) = true then saved else .off } : VState α) = st0
            have hp0 : P st0.guard := by rw [← hst]; exact hp
            obtain ⟨e1, e2⟩ := hex w hw st0 hp0
            rw [← e1]
            generalize v w st0 = r at e2
            obtain ⟨r, st1⟩ := r
            dsimp only at e2 ⊢
            cases r with
            | ok o => exact ⟨rfl, e2⟩
            | error e =>
              cases e with
              | lineErrors ls => dsimp only; split <;> exact ⟨rfl, e2⟩
              | internal e => exact ⟨rfl, e2⟩
              | omitted => exact ⟨rfl, e2⟩
              | useDefault => exact ⟨rfl, e2⟩

theorem at_extraLoop {Q : α → Prop} (t : TypedDict α) (fs fs' ex ex') (hex : ExtrasAt P Q ex ex') (used : List String)
    (lastKey : Option LocItem) (saved : PartialMode) :
    ∀ (entries : List (ValResult α (α × α))) (acc : Fields.TAcc α), (∀ k w, (.ok (k, w)) ∈ entries → Q w) →
      P acc.st.guard →
      TypedDict.extraLoop (TypedDict.withParts t fs ex) used lastKey saved entries acc =
        TypedDict.extraLoop (TypedDict.withParts t fs' ex') used lastKey saved entries acc ∧
      P (TypedDict.extraLoop (TypedDict.withParts t fs ex) used lastKey saved entries acc).2.st.guard := by
  intro entries
  induction entries with
  | nil => intro acc _ hp; exact ⟨rfl, hp⟩
  | cons x xs ih =>
    intro acc hq hp
    cases x with
    | error e => exact ⟨rfl, hp⟩
    | ok kw =>
      obtain ⟨k, w⟩ := kw
      obtain ⟨e1, e2⟩ := at_extraStep t fs fs' ex ex' hex used lastKey saved k w acc (hq k w (by simp)) hp
      simp only [TypedDict.extraLoop]
      rw [← e1]
      generalize TypedDict.extraStep _ _ _ _ _ _ _ = r at e2
      obtain ⟨r, acc1⟩ := r
      dsimp only at e2 ⊢
      cases r with
      | ok u => exact ih _ (fun k w h => hq k w (List.mem_cons_of_mem _ h)) e2
      | error e => exact ⟨rfl, e2⟩

/-- The values a typed dict may hand to its fields and extras validator satisfy `Q`. -/
def ViewQ (Q : α → Prop) (view : DictView α) : Prop :=
  (∀ key path a, view.get key = .ok (some (path, a)) → Q a) ∧
    ∀ entries, view.entries = .ok entries → ∀ k w, (.ok (k, w)) ∈ entries → Q w

theorem at_typedDict {Q : α → Prop} (t : TypedDict α) (fs fs' ex ex') (a : α)
    (hq : ∀ strict view, t.asDict strict a = .ok view → ViewQ Q view)
    (hf : All2 (FieldAt P Q) fs fs') (hex : ExtrasAt P Q ex ex') :
    At P (TypedDict.validate (TypedDict.withParts t fs ex)) (TypedDict.validate (TypedDict.withParts t fs' ex')) a := by
  intro st hp
  simp only [TypedDict.validate]
  have h1 : ∀ a b, (TypedDict.withParts t a b).asDict = t.asDict := fun _ _ => rfl
  have h2 : ∀ a b, (TypedDict.withParts t a b).strict = t.strict := fun _ _ => rfl
  have h3 : ∀ a b, (TypedDict.withParts t a b).byAlias = t.byAlias := fun _ _ => rfl
  have h4 : ∀ a b, (TypedDict.withParts t a b).byName = t.byName := fun _ _ => rfl
  have h5 : ∀ a b, (TypedDict.withParts t a b).fields = a := fun _ _ => rfl
  simp only [h1, h2, h3, h4, h5]
  cases hs : t.asDict (st.strictOr t.strict) a with
  | error e => exact ⟨rfl, hp⟩
  | ok view =>
    obtain ⟨q1, q2⟩ := hq _ _ hs
    dsimp only
    obtain ⟨e1, e2⟩ := at_fieldLoop (Q := Q) t fs fs' ex ex' view a (st.validateByAliasOr t.byAlias)
      (st.validateByNameOr t.byName) (if st.allowPartial.isActive = true then view.lastKey else none) st.allowPartial
      q1 fs fs' ⟨[], [], [], 0, [], st⟩ hf hp
    rw [← e1]
    generalize TypedDict.fieldLoop _ _ _ _ _ _ _ _ _ = r at e2
    obtain ⟨r, acc⟩ := r
    simp only [TypedDict.afterFields]
    dsimp only at e2
    cases r with
    | error e => exact ⟨rfl, e2⟩
    | ok u =>
      dsimp only
      have hx : ∀ a b, (TypedDict.withParts t a b).extra = t.extra := fun _ _ => rfl
      simp only [hx]
      have hfin : ∀ d es (st1 : VState α), P st1.guard →
          TypedDict.finish (TypedDict.withParts t fs ex) d es st1 =
            TypedDict.finish (TypedDict.withParts t fs' ex') d es st1 ∧
          P (TypedDict.finish (TypedDict.withParts t fs ex) d es st1).2.guard := by
        intro d es st1 h
        simp only [TypedDict.finish, TypedDict.withParts]
        split <;> exact ⟨trivial, h⟩
      split
      · exact hfin _ _ _ e2
      · cases hen : view.entries with
        | error e => exact ⟨rfl, e2⟩
        | ok entries =>
          dsimp only
          obtain ⟨g1, g2⟩ := at_extraLoop (Q := Q) t fs fs' ex ex' hex acc.used
            (if st.allowPartial.isActive = true then view.lastKey else none) st.allowPartial entries
            ⟨acc.dict, acc.errs, acc.st.addFieldsSet acc.count⟩ (q2 _ hen) e2
          rw [← g1]
          generalize TypedDict.extraLoop _ _ _ _ _ _ = x at g2
          obtain ⟨x, acc2⟩ := x
          dsimp only at g2 ⊢
          cases x with
          | error e => exact ⟨rfl, g2⟩
          | ok u => exact hfin _ _ _ g2

end PC.Engine
