/-
What single items emit, in terms of the specification.
-/
import Verif.Lemmas.SerFields

namespace PC.SerFields

open PC.Filter (Key FVal Says given kset)

theorem says_unique (k : Key) (f r r' : Option FVal) (h : Says k f r) (h' : Says k f r') : r = r' := by
  cases h with
  | absent => cases h'; rfl
  | null => cases h'; rfl
  | set ks => cases h'; rfl
  | dict d _ h => cases h' with
    | dict _ _ h2 => rw [h] at h2; cases h2; rfl

theorem fieldFilter_eq {α β ε : Type} (env : Env α β ε) (k : Key) (incl excl ri re : Option FVal)
    (hi : Says k incl ri) (he : Says k excl re) :
    fieldFilter env k incl excl
      = .ok (if re.any FVal.isEll then Option.none
             else if given (incl.getD .none) && ri.isNone then Option.none
             else some (ri.filter (fun f => !f.isEll), re)) := by
  unfold fieldFilter
  rw [PC.Filter.keyFilter_says env.hash _ k incl excl ri re hi he (Or.inr rfl)]
  have : ri.bind (fun v => if v.isEll then Option.none else some v) = ri.filter (fun f => !f.isEll) := by
    cases ri with
    | none => rfl
    | some v => cases v <;> rfl
  rw [this]

theorem fieldFilter_kept {α β ε : Type} (env : Env α β ε) (k : Key) (incl excl : Option FVal)
    (hi : Readable k incl) (he : Readable k excl) (ni ne : Option FVal) :
    fieldFilter env k incl excl = .ok (some (ni, ne)) ↔ Kept k incl excl ni ne := by
  obtain ⟨ri, hi⟩ := hi
  obtain ⟨re, he⟩ := he
  rw [fieldFilter_eq env k incl excl ri re hi he]
  constructor
  · intro h
    by_cases h1 : re.any FVal.isEll = true
    · simp only [h1, if_true] at h; cases h
    · simp only [h1, Bool.false_eq_true, if_false] at h
      by_cases h2 : (given (incl.getD .none) && ri.isNone) = true
      · simp only [h2, if_true] at h; cases h
      · simp only [h2, Bool.false_eq_true, if_false] at h
        cases h
        refine ⟨ri, _, hi, he, by simpa using h1, ?_, rfl, rfl⟩
        intro hg
        cases ri with
        | none => simp [hg] at h2
        | some _ => rfl
  · rintro ⟨ri', re', hi', he', h1, h2, hni, hne⟩
    rw [says_unique k incl _ _ hi hi', says_unique k excl _ _ he he']
    clear hi he
    rw [hni, hne]
    simp only [h1, Bool.false_eq_true, if_false]
    have : (given (incl.getD .none) && ri'.isNone) = false := by
      cases hg : given (incl.getD .none) with
      | false => rfl
      | true =>
        have := h2 hg
        cases ri' with
        | none => cases this
        | some _ => rfl
    simp only [this, Bool.false_eq_true, if_false]

theorem fieldFilter_ok {α β ε : Type} (env : Env α β ε) (k : Key) (incl excl : Option FVal)
    (hi : Readable k incl) (he : Readable k excl) : ∃ r, fieldFilter env k incl excl = .ok r := by
  obtain ⟨ri, hi⟩ := hi
  obtain ⟨re, he⟩ := he
  exact ⟨_, fieldFilter_eq env k incl excl ri re hi he⟩

theorem key_shownAs {α β ε : Type} (o : Opts) (name : String) (f : SerField α β ε) :
    f.key name o = shownAs o name f := by
  obtain ⟨ba, _, _, _, _, _⟩ := o
  obtain ⟨al, _, _, fb⟩ := f
  cases ba with
  | none =>
    cases fb with
    | none => rfl
    | some b => cases b <;> cases al <;> rfl
  | some b => cases b <;> cases al <;> rfl

theorem key_computedAs {α β ε : Type} (o : Opts) (c : Computed α β ε) : c.key o = computedAs o c := by
  obtain ⟨ba, _, _, _, _, _⟩ := o
  obtain ⟨_, _, _, cb⟩ := c
  cases ba with
  | none =>
    cases cb with
    | none => rfl
    | some b => cases b <;> rfl
  | some b => cases b <;> rfl

theorem get_lookup {α β ε : Type} (s : FieldsSer α β ε) (name : String) :
    s.get name = s.fields.lookup name := by
  unfold FieldsSer.get
  induction s.fields with
  | nil => rfl
  | cons f rest ih =>
    obtain ⟨n, f⟩ := f
    simp only [List.find?_cons, List.lookup_cons]
    by_cases h : n = name
    · subst h; simp
    · have h1 : (n == name) = false := by simpa using h
      have h2 : (name == n) = false := by simpa using fun hh => h (Eq.symm hh)
      simp only [h1, h2, ih]

theorem get_mem {α β ε : Type} (s : FieldsSer α β ε) (name : String) (f : SerField α β ε)
    (hn : (s.fields.map (·.1)).Nodup) : s.get name = some f ↔ (name, f) ∈ s.fields := by
  unfold FieldsSer.get
  generalize s.fields = l at hn
  induction l with
  | nil => simp
  | cons g rest ih =>
    obtain ⟨n, g⟩ := g
    simp only [List.map_cons, List.nodup_cons] at hn
    simp only [List.find?_cons, List.mem_cons, Prod.mk.injEq]
    by_cases h : n = name
    · subst h
      simp only [beq_self_eq_true, Option.map_some, Option.some.injEq, true_and]
      constructor
      · intro h; exact Or.inl h.symm
      · rintro (h | h)
        · exact h.symm
        · exact absurd (List.mem_map_of_mem (f := (·.1)) h) hn.1
    · have h1 : (n == name) = false := by simpa using h
      simp only [h1, ih hn.2]
      constructor
      · intro h; exact Or.inr h
      · rintro (⟨h', _⟩ | h')
        · exact absurd h'.symm h
        · exact h'

theorem get_none {α β ε : Type} (s : FieldsSer α β ε) (name : String) :
    s.get name = Option.none ↔ ∀ f, (name, f) ∉ s.fields := by
  unfold FieldsSer.get
  simp only [Option.map_eq_none_iff, List.find?_eq_none, beq_iff_eq]
  constructor
  · intro h f hf; exact h _ hf rfl
  · rintro h ⟨n, f⟩ hf hn
    dsimp only at hn; subst hn
    exact h f hf

theorem excludeDefault_false {α β ε : Type} (env : Env α β ε) (o : Opts) (ser : FSer α β ε) (v : α)
    (b : Bool) (hok : excludeDefault env o ser v = .ok b) :
    b = false ↔ (o.excludeDefaults = true → ¬ IsDefault env ser v) := by
  unfold excludeDefault at hok
  unfold IsDefault
  by_cases ho : o.excludeDefaults = true
  · simp only [ho, if_true] at hok
    cases hd : ser.getDefault with
    | error e => rw [hd] at hok; cases hok
    | ok d =>
      rw [hd] at hok
      cases d with
      | none => dsimp only at hok; cases hok; simp
      | some d =>
        dsimp only at hok
        cases he : env.eq v d with
        | error e => rw [he] at hok; cases hok
        | ok b' =>
          rw [he] at hok; cases hok
          simp only [ho, forall_const, Except.ok.injEq, Option.some.injEq]
          constructor
          · rintro rfl ⟨d', rfl, hx⟩; rw [he] at hx; cases hx
          · intro h
            cases b with
            | false => rfl
            | true => exact absurd ⟨d, rfl, he⟩ h
  · simp only [ho, Bool.false_eq_true, if_false] at hok
    cases hok; simp [ho]

/-- The extra serialiser or inference, as in the specification. -/
def extraOut {α β ε : Type} (s : FieldsSer α β ε) (env : Env α β ε) (v : α) (ni ne : Option FVal) :
    Except ε β :=
  match s.extraSer with
  | some ser => ser.toPython v ni ne
  | Option.none => env.inferPython v ni ne

theorem extraPython_eq {α β ε : Type} (s : FieldsSer α β ε) (env : Env α β ε) (v : α)
    (ni ne : Option FVal) : s.extraPython env v ni ne = lift (extraOut s env v ni ne) := by
  unfold FieldsSer.extraPython extraOut
  cases s.extraSer <;> rfl

theorem emitMain_iff {α β ε : Type} (s : FieldsSer α β ε) (env : Env α β ε) (o : Opts)
    (incl excl : Option FVal) (name : String) (v : α)
    (hi : Readable (.s name) incl) (he : Readable (.s name) excl)
    (r : Option (Key × β)) (hok : emitMain s env o incl excl (.s name, v) = .ok r) (k : Key) (b : β) :
    r = some (k, b) ↔
      (o.excludeNone = true → env.isNone v = false) ∧ ∃ ni ne, Kept (.s name) incl excl ni ne ∧
      ((∃ f ser, s.get name = some f ∧ f.serializer = some ser ∧
          (o.excludeDefaults = true → ¬ IsDefault env ser v) ∧ k = .s (shownAs o name f) ∧
          ser.toPython v ni ne = .ok b) ∨
       (s.get name = Option.none ∧ s.mode = .typedDictAllow ∧ k = .s name ∧
          extraOut s env v ni ne = .ok b)) := by
  simp only [emitMain] at hok
  by_cases hn : (o.excludeNone && env.isNone v) = true
  · simp only [hn, if_true] at hok
    cases hok
    simp only [Bool.and_eq_true] at hn
    simp [hn.1, hn.2]
  · simp only [hn, Bool.false_eq_true, if_false] at hok
    have hn' : o.excludeNone = true → env.isNone v = false := by
      intro h; simpa [h] using hn
    have kept := fun ni ne => fieldFilter_kept env (.s name) incl excl hi he ni ne
    cases hf : fieldFilter env (.s name) incl excl with
    | error e => rw [hf] at hok; cases hok
    | ok p =>
      rw [hf] at hok
      cases p with
      | none =>
        dsimp only at hok; cases hok
        constructor
        · intro h; cases h
        · rintro ⟨_, ni, ne, hk, _⟩
          rw [← kept, hf] at hk; cases hk
      | some p =>
        obtain ⟨ni, ne⟩ := p
        have hkept := (kept ni ne).1 hf
        have uniq : ∀ ni' ne', Kept (.s name) incl excl ni' ne' → ni' = ni ∧ ne' = ne := by
          intro ni' ne' h
          rw [← kept, hf] at h; cases h; exact ⟨rfl, rfl⟩
        dsimp only at hok
        cases hg : s.get name with
        | some f =>
          rw [hg] at hok; dsimp only at hok
          cases hs : f.serializer with
          | none =>
            rw [hs] at hok; dsimp only at hok; cases hok
            constructor
            · intro h; cases h
            · rintro ⟨_, ni', ne', _, ⟨f', ser, hf', hser, _⟩ | ⟨h, _⟩⟩
              · cases hf'; rw [hs] at hser; cases hser
              · cases h
          | some ser =>
            rw [hs] at hok; dsimp only at hok
            cases hd : excludeDefault env o ser v with
            | error e => rw [hd] at hok; cases hok
            | ok d =>
              have hdd := excludeDefault_false env o ser v d hd
              rw [hd] at hok
              cases d with
              | true =>
                dsimp only at hok; cases hok
                constructor
                · intro h; cases h
                · rintro ⟨_, ni', ne', _, ⟨f', ser', hf', hser, hdef, _⟩ | ⟨h, _⟩⟩
                  · cases hf'; rw [hs] at hser; cases hser
                    exact absurd (hdd.2 hdef) (by decide)
                  · cases h
              | false =>
                dsimp only at hok
                cases hp : ser.toPython v ni ne with
                | error e => rw [hp] at hok; cases hok
                | ok b' =>
                  rw [hp] at hok; dsimp only at hok; cases hok
                  rw [key_shownAs]
                  constructor
                  · intro h; cases h
                    exact ⟨hn', ni, ne, hkept, Or.inl ⟨f, ser, rfl, hs, hdd.1 rfl, rfl, hp⟩⟩
                  · rintro ⟨_, ni', ne', hk, ⟨f', ser', hf', hser, _, rfl, hb⟩ | ⟨h, _⟩⟩
                    · cases hf'; rw [hs] at hser; cases hser
                      obtain ⟨rfl, rfl⟩ := uniq _ _ hk
                      rw [hp] at hb; cases hb; rfl
                    · cases h
        | none =>
          rw [hg] at hok; dsimp only at hok
          by_cases hm : s.mode = .typedDictAllow
          · simp only [hm, if_true, extraPython_eq] at hok
            cases hp : extraOut s env v ni ne with
            | error e => rw [hp] at hok; cases hok
            | ok b' =>
              rw [hp] at hok
              simp only [lift] at hok
              cases hok
              constructor
              · intro h; cases h
                exact ⟨hn', ni, ne, hkept, Or.inr ⟨rfl, hm, rfl, hp⟩⟩
              · rintro ⟨_, ni', ne', hk, ⟨f', ser', hf', _⟩ | ⟨_, _, rfl, hb⟩⟩
                · cases hf'
                · obtain ⟨rfl, rfl⟩ := uniq _ _ hk
                  rw [hp] at hb; cases hb; rfl
          · simp only [hm, if_false] at hok
            by_cases hc : o.check = .strict
            · simp only [hc, if_true] at hok; cases hok
            · simp only [hc, if_false] at hok; cases hok
              constructor
              · intro h; cases h
              · rintro ⟨_, ni', ne', _, ⟨f', ser', hf', _⟩ | ⟨_, h, _⟩⟩
                · cases hf'
                · exact absurd h hm

theorem emitExtra_iff {α β ε : Type} (s : FieldsSer α β ε) (env : Env α β ε) (o : Opts)
    (incl excl : Option FVal) (q : Key) (v : α)
    (hi : Readable q incl) (he : Readable q excl)
    (r : Option (Key × β)) (hok : emitExtra s env o incl excl (q, v) = .ok r) (k : Key) (b : β) :
    r = some (k, b) ↔
      (o.excludeNone = true → env.isNone v = false) ∧ ∃ ni ne, Kept q incl excl ni ne ∧ k = q ∧
        extraOut s env v ni ne = .ok b := by
  simp only [emitExtra] at hok
  by_cases hn : (o.excludeNone && env.isNone v) = true
  · simp only [hn, if_true] at hok
    cases hok
    simp only [Bool.and_eq_true] at hn
    simp [hn.1, hn.2]
  · simp only [hn, Bool.false_eq_true, if_false] at hok
    have hn' : o.excludeNone = true → env.isNone v = false := by
      intro h; simpa [h] using hn
    have kept := fun ni ne => fieldFilter_kept env q incl excl hi he ni ne
    cases hf : fieldFilter env q incl excl with
    | error e => rw [hf] at hok; cases hok
    | ok p =>
      rw [hf] at hok
      cases p with
      | none =>
        dsimp only at hok; cases hok
        constructor
        · intro h; cases h
        · rintro ⟨_, ni, ne, hk, _⟩
          rw [← kept, hf] at hk; cases hk
      | some p =>
        obtain ⟨ni, ne⟩ := p
        have hkept := (kept ni ne).1 hf
        simp only [extraPython_eq] at hok
        cases hp : extraOut s env v ni ne with
        | error e => rw [hp] at hok; cases hok
        | ok b' =>
          rw [hp] at hok
          simp only [lift] at hok
          cases hok
          constructor
          · intro h; cases h
            exact ⟨hn', ni, ne, hkept, rfl, hp⟩
          · rintro ⟨_, ni', ne', hk, rfl, hb⟩
            rw [← kept, hf] at hk; cases hk
            rw [hp] at hb; cases hb; rfl

theorem emitComputed_iff {α β ε : Type} (env : Env α β ε) (o : Opts) (incl excl : Option FVal)
    (attr : String → Except ε α) (c : Computed α β ε)
    (hi : Readable (.s c.name) incl) (he : Readable (.s c.name) excl)
    (r : Option (Key × β)) (hok : emitComputed env o incl excl attr c = .ok r) (k : Key) (b : β) :
    r = some (k, b) ↔
      ∃ v ni ne, attr c.name = .ok v ∧ Kept (.s c.name) incl excl ni ne ∧
        c.serializer.toPython v ni ne = .ok b ∧ (o.excludeNone = true → env.isNoneOut b = false) ∧
        k = .s (computedAs o c) := by
  simp only [emitComputed] at hok
  have kept := fun ni ne => fieldFilter_kept env (.s c.name) incl excl hi he ni ne
  cases hf : fieldFilter env (.s c.name) incl excl with
  | error e => rw [hf] at hok; cases hok
  | ok p =>
    rw [hf] at hok
    cases p with
    | none =>
      dsimp only at hok; cases hok
      constructor
      · intro h; cases h
      · rintro ⟨_, ni, ne, _, hk, _⟩
        rw [← kept, hf] at hk; cases hk
    | some p =>
      obtain ⟨ni, ne⟩ := p
      have hkept := (kept ni ne).1 hf
      dsimp only at hok
      cases ha : attr c.name with
      | error e => rw [ha] at hok; cases hok
      | ok v =>
        rw [ha] at hok; dsimp only at hok
        cases hp : c.serializer.toPython v ni ne with
        | error e => rw [hp] at hok; cases hok
        | ok b' =>
          rw [hp] at hok; dsimp only at hok
          by_cases hn : (o.excludeNone && env.isNoneOut b') = true
          · simp only [hn, if_true] at hok; cases hok
            simp only [Bool.and_eq_true] at hn
            constructor
            · intro h; cases h
            · rintro ⟨v', ni', ne', hv, hk, hb, hnn, _⟩
              cases hv
              rw [← kept, hf] at hk; cases hk
              rw [hp] at hb; cases hb
              rw [hnn hn.1] at hn; exact absurd hn.2 (by decide)
          · simp only [hn, Bool.false_eq_true, if_false] at hok; cases hok
            rw [key_computedAs]
            constructor
            · intro h; cases h
              exact ⟨v, ni, ne, rfl, hkept, hp, (fun h => by simpa [h] using hn), rfl⟩
            · rintro ⟨v', ni', ne', hv, hk, hb, _, rfl⟩
              cases hv
              rw [← kept, hf] at hk; cases hk
              rw [hp] at hb; cases hb; rfl

theorem fieldsToPython_entries {α β ε : Type} (s : FieldsSer α β ε) (env : Env α β ε) (o : Opts)
    (incl excl : Option FVal) (main : List (Key × α)) (extra : Option (List (Key × α)))
    (attr : String → Except ε α) (out : List (Key × β))
    (h : fieldsToPython s env o incl excl main extra attr = .ok out) :
    ∃ es, entriesPy s env o incl excl main extra attr = .ok es ∧ out = addAll [] es := by
  have hm : ∀ out', mainToPython s env o incl excl main = .ok out' →
      (collect (emitMain s env o incl excl) main).map (addAll []) = .ok out' := by
    intro out' h
    rw [← mainLoop_eq s env o incl excl main [] 0]
    unfold mainToPython at h
    cases hl : mainLoop s env o incl excl main [] 0 with
    | error e => rw [hl] at h; cases h
    | ok r =>
      rw [hl] at h
      dsimp only at h
      split at h
      · cases h
      · cases h; rfl
  unfold fieldsToPython at h
  cases hmain : mainToPython s env o incl excl main with
  | error e => rw [hmain] at h; cases h
  | ok out1 =>
    have h1 := hm out1 hmain
    rw [hmain] at h; dsimp only at h
    cases hc : collect (emitMain s env o incl excl) main with
    | error e => rw [hc] at h1; cases h1
    | ok a =>
      rw [hc] at h1; cases h1
      rw [extrasLoop_eq] at h
      cases hx : collect (emitExtra s env o incl excl) (extra.getD []) with
      | error e => rw [hx] at h; cases h
      | ok b =>
        rw [hx] at h
        simp only [Except.map] at h
        by_cases hr : o.roundTrip = true
        · simp only [hr, if_true] at h; cases h
          refine ⟨a ++ b, ?_, by rw [addAll_append]⟩
          simp only [entriesPy, hc, hx, activeComputed, hr, if_true, collect, List.append_nil]
        · simp only [hr, Bool.false_eq_true, if_false, computedLoop_eq] at h
          cases hcc : collect (emitComputed env o incl excl attr) s.computed with
          | error e => rw [hcc] at h; cases h
          | ok c =>
            rw [hcc] at h; cases h
            refine ⟨a ++ b ++ c, ?_, by rw [addAll_append, addAll_append]⟩
            simp only [entriesPy, hc, hx, activeComputed, hr, Bool.false_eq_true, if_false, hcc]

theorem emitMain_key {α β ε : Type} (s : FieldsSer α β ε) (env : Env α β ε) (o : Opts)
    (incl excl : Option FVal) (e : Key × α) (d : Key × β)
    (h : emitMain s env o incl excl e = .ok (some d)) : itemKey s o e.1 = some d.1 := by
  obtain ⟨k, v⟩ := e
  cases k with
  | i n => simp only [emitMain] at h; cases h
  | s name =>
    simp only [emitMain] at h
    simp only [itemKey, ← get_lookup]
    split at h
    · cases h
    · split at h
      · cases h
      · cases h
      · cases hg : s.get name with
        | some f =>
          rw [hg] at h; dsimp only at h ⊢
          split at h
          · cases h
          · split at h
            · cases h
            · cases h
            · split at h
              · cases h
              · cases h; rw [key_shownAs]
        | none =>
          rw [hg] at h; dsimp only at h ⊢
          split at h
          · rename_i hm
            split at h
            · cases h
            · cases h; simp only [hm, if_true]
          · split at h <;> cases h

theorem emitExtra_key {α β ε : Type} (s : FieldsSer α β ε) (env : Env α β ε) (o : Opts)
    (incl excl : Option FVal) (e : Key × α) (d : Key × β)
    (h : emitExtra s env o incl excl e = .ok (some d)) : some e.1 = some d.1 := by
  simp only [emitExtra] at h
  split at h
  · cases h
  · split at h
    · cases h
    · cases h
    · split at h
      · cases h
      · cases h; rfl

theorem emitComputed_key {α β ε : Type} (env : Env α β ε) (o : Opts)
    (incl excl : Option FVal) (attr : String → Except ε α) (c : Computed α β ε) (d : Key × β)
    (h : emitComputed env o incl excl attr c = .ok (some d)) : some (Key.s (computedAs o c)) = some d.1 := by
  simp only [emitComputed] at h
  split at h
  · cases h
  · cases h
  · split at h
    · cases h
    · split at h
      · cases h
      · split at h
        · cases h
        · cases h; rw [key_computedAs]

theorem entries_keys {α β ε : Type} (s : FieldsSer α β ε) (env : Env α β ε) (o : Opts)
    (incl excl : Option FVal) (m : Inst α ε) (es : List (Key × β))
    (h : entriesPy s env o incl excl (innerDict o m) (innerExtra s m) m.attr = .ok es) :
    (es.map (·.1)).Sublist (allKeys s o m) := by
  unfold entriesPy at h
  cases h1 : collect (emitMain s env o incl excl) (innerDict o m) with
  | error e => rw [h1] at h; cases h
  | ok a =>
    rw [h1] at h; dsimp only at h
    cases h2 : collect (emitExtra s env o incl excl) ((innerExtra s m).getD []) with
    | error e => rw [h2] at h; cases h
    | ok b =>
      rw [h2] at h; dsimp only at h
      cases h3 : collect (emitComputed env o incl excl m.attr) (activeComputed s o) with
      | error e => rw [h3] at h; cases h
      | ok c =>
        rw [h3] at h; cases h
        simp only [List.map_append, allKeys]
        refine List.Sublist.append (List.Sublist.append ?_ ?_) ?_
        · refine (collect_keys _ (fun e => itemKey s o e.1) (emitMain_key s env o incl excl) _ _ h1).trans ?_
          refine List.Sublist.filterMap _ ?_
          unfold innerDict
          split
          · exact List.filter_sublist
          · exact List.Sublist.refl _
        · refine (collect_keys _ (fun e => some e.1) (emitExtra_key s env o incl excl) _ _ h2).trans ?_
          unfold innerExtra
          split
          · rw [List.filterMap_eq_map']; exact List.Sublist.refl _
          · exact List.Sublist.refl _
        · refine (collect_keys _ (fun c => some (Key.s (computedAs o c)))
            (emitComputed_key env o incl excl m.attr) _ _ h3).trans ?_
          rw [List.filterMap_eq_map']
          unfold activeComputed
          split
          · exact List.nil_sublist _
          · exact List.Sublist.refl _

theorem collect_ok_of_mem {γ δ E : Type} (g : γ → Except E (Option δ)) (l : List γ) (ds : List δ)
    (h : collect g l = .ok ds) (x : γ) (hx : x ∈ l) : ∃ r, g x = .ok r := by
  induction l generalizing ds with
  | nil => cases hx
  | cons y rest ih =>
    simp only [collect] at h
    cases hy : g y with
    | error e => rw [hy] at h; cases h
    | ok r =>
      rw [hy] at h
      rcases List.mem_cons.1 hx with rfl | hx
      · exact ⟨r, hy⟩
      · cases r with
        | none => exact ih ds h hx
        | some d =>
          dsimp only at h
          cases hr : collect g rest with
          | error e => rw [hr] at h; cases h
          | ok ds' => exact ih ds' hr hx

theorem mem_innerDict {α ε : Type} (o : Opts) (m : Inst α ε) (k : Key) (v : α) :
    (k, v) ∈ innerDict o m ↔ (k, v) ∈ m.dict ∧ (o.excludeUnset = true → k ∈ m.fieldsSet) := by
  unfold innerDict
  by_cases h : o.excludeUnset = true
  · simp [h, List.mem_filter]
  · simp [h]

theorem entries_iff {α β ε : Type} (s : FieldsSer α β ε) (env : Env α β ε) (o : Opts)
    (incl excl : Option FVal) (m : Inst α ε) (es : List (Key × β))
    (hfields : (s.fields.map (·.1)).Nodup)
    (hi : ∀ k, Readable k incl) (he : ∀ k, Readable k excl)
    (hes : entriesPy s env o incl excl (innerDict o m) (innerExtra s m) m.attr = .ok es) (k : Key) (b : β) :
    (k, b) ∈ es ↔
      FieldEntry s env o incl excl m k b ∨ ExtraEntry s env o incl excl m k b ∨
      ComputedEntry s env o incl excl m k b := by
  unfold entriesPy at hes
  cases h1 : collect (emitMain s env o incl excl) (innerDict o m) with
  | error e => rw [h1] at hes; cases hes
  | ok a =>
    rw [h1] at hes; dsimp only at hes
    cases h2 : collect (emitExtra s env o incl excl) ((innerExtra s m).getD []) with
    | error e => rw [h2] at hes; cases hes
    | ok b' =>
      rw [h2] at hes; dsimp only at hes
      cases h3 : collect (emitComputed env o incl excl m.attr) (activeComputed s o) with
      | error e => rw [h3] at hes; cases hes
      | ok c =>
        rw [h3] at hes; cases hes
        rw [List.mem_append, List.mem_append, collect_mem _ _ _ h1, collect_mem _ _ _ h2, collect_mem _ _ _ h3]
        constructor
        · rintro ((⟨⟨q, v⟩, hq, hg⟩ | ⟨⟨q, v⟩, hq, hg⟩) | ⟨cf, hq, hg⟩)
          · cases q with
            | i n => simp only [emitMain] at hg; cases hg
            | s name =>
              obtain ⟨hnn, ni, ne, hk, hx⟩ :=
                (emitMain_iff s env o incl excl name v (hi _) (he _) _ hg k b).1 rfl
              obtain ⟨hd, hset⟩ := (mem_innerDict o m _ _).1 hq
              rcases hx with ⟨f, ser, hf, hser, hdef, rfl, hb⟩ | ⟨hf, hmode, rfl, hb⟩
              · exact Or.inl ⟨name, f, ser, v, ni, ne,
                  ⟨hd, (get_mem s name f hfields).1 hf, hser, hset, hnn, hdef, hk⟩, rfl, hb⟩
              · refine Or.inr (Or.inl ⟨v, ni, ne, Or.inr ⟨hmode, hd, hset, ?_⟩, hnn, hk, hb⟩)
                intro f name' hmem heq
                cases heq
                exact (get_none s name).1 hf f hmem
          · obtain ⟨hnn, ni, ne, hk, rfl, hb⟩ :=
              (emitExtra_iff s env o incl excl q v (hi _) (he _) _ hg k b).1 rfl
            refine Or.inr (Or.inl ⟨v, ni, ne, Or.inl ?_, hnn, hk, hb⟩)
            unfold innerExtra at hq
            split at hq
            · rename_i hmode
              refine ⟨hmode, ?_⟩
              cases hx : m.extra with
              | none => rw [hx] at hq; cases hq
              | some x => rw [hx] at hq; exact ⟨x, rfl, hq⟩
            · cases hq
          · obtain ⟨v, ni, ne, ha, hk, hb, hnn, rfl⟩ :=
              (emitComputed_iff env o incl excl m.attr cf (hi _) (he _) _ hg k b).1 rfl
            unfold activeComputed at hq
            by_cases hr : o.roundTrip = true
            · rw [if_pos hr] at hq; cases hq
            · rw [if_neg hr] at hq
              exact Or.inr (Or.inr ⟨cf, v, ni, ne, hq, by simpa using hr, ha, hk, hb, hnn, rfl⟩)
        · rintro (⟨name, f, ser, v, ni, ne, hs, rfl, hb⟩ | ⟨v, ni, ne, hx, hnn, hk, hb⟩ |
            ⟨cf, v, ni, ne, hc, hr, ha, hk, hb, hnn, rfl⟩)
          · have hin : (Key.s name, v) ∈ innerDict o m := (mem_innerDict o m _ _).2 ⟨hs.inDict, hs.set⟩
            obtain ⟨r, hr⟩ := collect_ok_of_mem _ _ _ h1 _ hin
            refine Or.inl (Or.inl ⟨_, hin, ?_⟩)
            have := (emitMain_iff s env o incl excl name v (hi _) (he _) r hr (.s (shownAs o name f)) b).2
              ⟨hs.notNone, ni, ne, hs.kept, Or.inl ⟨f, ser, (get_mem s name f hfields).2 hs.declared,
                hs.notExcludedBySchema, hs.notDefault, rfl, hb⟩⟩
            rw [hr, this]
          · rcases hx with ⟨hmode, x, hx, hmem⟩ | ⟨hmode, hd, hset, hno⟩
            · have hin : (k, v) ∈ (innerExtra s m).getD [] := by
                unfold innerExtra; rw [if_pos hmode, hx]; exact hmem
              obtain ⟨r, hr⟩ := collect_ok_of_mem _ _ _ h2 _ hin
              refine Or.inl (Or.inr ⟨_, hin, ?_⟩)
              have := (emitExtra_iff s env o incl excl k v (hi _) (he _) r hr k b).2
                ⟨hnn, ni, ne, hk, rfl, hb⟩
              rw [hr, this]
            · have hin : (k, v) ∈ innerDict o m := (mem_innerDict o m _ _).2 ⟨hd, hset⟩
              obtain ⟨r, hr⟩ := collect_ok_of_mem _ _ _ h1 _ hin
              cases k with
              | i n => simp only [emitMain] at hr; cases hr
              | s name =>
                refine Or.inl (Or.inl ⟨_, hin, ?_⟩)
                have := (emitMain_iff s env o incl excl name v (hi _) (he _) r hr (.s name) b).2
                  ⟨hnn, ni, ne, hk, Or.inr ⟨(get_none s name).2 (fun f hf => hno f name hf rfl), hmode, rfl, hb⟩⟩
                rw [hr, this]
          · have hin : cf ∈ activeComputed s o := by unfold activeComputed; simp [hr, hc]
            obtain ⟨r, hrr⟩ := collect_ok_of_mem _ _ _ h3 _ hin
            refine Or.inr ⟨_, hin, ?_⟩
            have := (emitComputed_iff env o incl excl m.attr cf (hi _) (he _) r hrr _ b).2
              ⟨v, ni, ne, ha, hk, hb, hnn, rfl⟩
            rw [hrr, this]

theorem mem_kset {β : Type} (d : List (Key × β)) (k : Key) (b : β) (e : Key × β)
    (h : e ∈ kset d k b) : e = (k, b) ∨ e ∈ d := by
  induction d with
  | nil => simp only [kset, List.mem_singleton] at h; exact Or.inl h
  | cons x rest ih =>
    simp only [kset] at h
    split at h
    · rename_i hx
      rcases List.mem_cons.1 h with h | h
      · left; rw [h, hx]
      · right; exact List.mem_cons_of_mem _ h
    · rcases List.mem_cons.1 h with h | h
      · right; rw [h]; exact List.mem_cons_self
      · rcases ih h with h | h
        · exact Or.inl h
        · right; exact List.mem_cons_of_mem _ h

theorem mem_addAll {β : Type} (es out : List (Key × β)) (e : Key × β) (h : e ∈ addAll out es) :
    e ∈ out ∨ e ∈ es := by
  induction es generalizing out with
  | nil => exact Or.inl h
  | cons x rest ih =>
    rcases ih (kset out x.1 x.2) h with h | h
    · rcases mem_kset out x.1 x.2 e h with h | h
      · right; rw [h]; exact List.mem_cons_self
      · exact Or.inl h
    · right; exact List.mem_cons_of_mem _ h

theorem key_kset {β : Type} (d : List (Key × β)) (k : Key) (b : β) (q : Key)
    (h : q = k ∨ q ∈ d.map (·.1)) : q ∈ (kset d k b).map (·.1) := by
  induction d with
  | nil => simpa [kset] using h
  | cons x rest ih =>
    simp only [kset]
    split
    · rename_i hx
      rcases h with h | h
      · simp [h, hx]
      · simpa using h
    · simp only [List.map_cons, List.mem_cons] at h ⊢
      rcases h with h | h | h
      · exact Or.inr (ih (Or.inl h))
      · exact Or.inl h
      · exact Or.inr (ih (Or.inr h))

theorem key_addAll {β : Type} (es out : List (Key × β)) (q : Key)
    (h : q ∈ out.map (·.1) ∨ q ∈ es.map (·.1)) : q ∈ (addAll out es).map (·.1) := by
  induction es generalizing out with
  | nil => simpa [addAll] using h
  | cons x rest ih =>
    apply ih (kset out x.1 x.2)
    simp only [List.map_cons, List.mem_cons] at h
    rcases h with h | h | h
    · exact Or.inl (key_kset _ _ _ _ (Or.inr h))
    · exact Or.inl (key_kset _ _ _ _ (Or.inl h))
    · exact Or.inr h

/-- What one item of the `__dict__` writes to the JSON output. -/
def emitMainJ {α β ε : Type} (s : FieldsSer α β ε) (env : Env α β ε) (o : Opts) (incl excl : Option FVal)
    (e : Key × α) : Except (SErr ε) (Option (String × β)) :=
  if o.excludeNone && env.isNone e.2 then .ok Option.none
  else
    match e.1 with
    | .i _ => .error .key
    | .s name =>
      match fieldFilter env (.s name) incl excl with
      | .error e => .error e
      | .ok Option.none => .ok Option.none
      | .ok (some (ni, ne)) =>
        match s.get name with
        | some f =>
          match f.serializer with
          | Option.none => .ok Option.none
          | some ser =>
            match excludeDefault env o ser e.2 with
            | .error e => .error e
            | .ok true => .ok Option.none
            | .ok false =>
              match ser.serde e.2 ni ne with
              | .error e => .error (.inner e)
              | .ok b => .ok (some (f.key name o, b))
        | Option.none =>
          if s.mode = .typedDictAllow then
            match env.inferSerde e.2 ni ne with
            | .error e => .error (.inner e)
            | .ok b => .ok (some (jsonKey (.s name), b))
          else .ok Option.none

theorem mainSerde_eq {α β ε : Type} (s : FieldsSer α β ε) (env : Env α β ε) (o : Opts)
    (incl excl : Option FVal) (items : List (Key × α)) (out : List (String × β)) :
    mainSerde s env o incl excl items out
      = (collect (emitMainJ s env o incl excl) items).map (out ++ ·) := by
  induction items generalizing out with
  | nil => simp [mainSerde, collect, Except.map]
  | cons e rest ih =>
    obtain ⟨k, v⟩ := e
    simp only [mainSerde, collect, emitMainJ]
    by_cases hn : (o.excludeNone && env.isNone v) = true
    · simp only [hn, if_true]; exact ih _
    · simp only [hn, Bool.false_eq_true, if_false]
      cases k with
      | i n => rfl
      | s name =>
        dsimp only
        cases hf : fieldFilter env (.s name) incl excl with
        | error e => rfl
        | ok r =>
          cases r with
          | none => exact ih _
          | some p =>
            obtain ⟨ni, ne⟩ := p
            dsimp only
            cases hg : s.get name with
            | some f =>
              dsimp only
              cases hs : f.serializer with
              | none => exact ih _
              | some ser =>
                dsimp only
                cases hd : excludeDefault env o ser v with
                | error e => rfl
                | ok d =>
                  cases d with
                  | true => exact ih _
                  | false =>
                    dsimp only
                    cases hp : ser.serde v ni ne with
                    | error e => rfl
                    | ok b =>
                      dsimp only
                      rw [ih]
                      cases collect (emitMainJ s env o incl excl) rest <;> simp [Except.map]
            | none =>
              dsimp only
              by_cases hm : s.mode = .typedDictAllow
              · simp only [hm, if_true]
                cases hp : env.inferSerde v ni ne with
                | error e => rfl
                | ok b =>
                  dsimp only
                  rw [ih]
                  cases collect (emitMainJ s env o incl excl) rest <;> simp [Except.map]
              · simp only [hm, if_false]; exact ih _

/-- What one extra item writes to the JSON output. -/
def emitExtraJ {α β ε : Type} (env : Env α β ε) (o : Opts) (incl excl : Option FVal)
    (e : Key × α) : Except (SErr ε) (Option (String × β)) :=
  if o.excludeNone && env.isNone e.2 then .ok Option.none
  else
    match fieldFilter env e.1 incl excl with
    | .error e => .error e
    | .ok Option.none => .ok Option.none
    | .ok (some (ni, ne)) =>
      match env.inferSerde e.2 ni ne with
      | .error e => .error (.inner e)
      | .ok b => .ok (some (jsonKey e.1, b))

theorem extrasSerde_eq {α β ε : Type} (env : Env α β ε) (o : Opts)
    (incl excl : Option FVal) (items : List (Key × α)) (out : List (String × β)) :
    extrasSerde env o incl excl items out
      = (collect (emitExtraJ env o incl excl) items).map (out ++ ·) := by
  induction items generalizing out with
  | nil => simp [extrasSerde, collect, Except.map]
  | cons e rest ih =>
    obtain ⟨k, v⟩ := e
    simp only [extrasSerde, collect, emitExtraJ]
    by_cases hn : (o.excludeNone && env.isNone v) = true
    · simp only [hn, if_true]; exact ih _
    · simp only [hn, Bool.false_eq_true, if_false]
      cases hf : fieldFilter env k incl excl with
      | error e => rfl
      | ok r =>
        cases r with
        | none => exact ih _
        | some p =>
          obtain ⟨ni, ne⟩ := p
          dsimp only
          cases hp : env.inferSerde v ni ne with
          | error e => rfl
          | ok b =>
            dsimp only
            rw [ih]
            cases collect (emitExtraJ env o incl excl) rest <;> simp [Except.map]

/-- What one computed field writes to the JSON output. -/
def emitComputedJ {α β ε : Type} (env : Env α β ε) (o : Opts) (incl excl : Option FVal)
    (attr : String → Except ε α) (c : Computed α β ε) : Except (SErr ε) (Option (String × β)) :=
  match fieldFilter env (.s c.name) incl excl with
  | .error e => .error e
  | .ok Option.none => .ok Option.none
  | .ok (some (ni, ne)) =>
    match attr c.name with
    | .error e => .error (.inner e)
    | .ok v =>
      if o.excludeNone && env.isNone v then .ok Option.none
      else
        match c.serializer.serde v ni ne with
        | .error e => .error (.inner e)
        | .ok b => .ok (some (c.key o, b))

theorem computedSerde_eq {α β ε : Type} (env : Env α β ε) (o : Opts) (incl excl : Option FVal)
    (attr : String → Except ε α) (cs : List (Computed α β ε)) (out : List (String × β)) :
    computedSerde env o incl excl attr cs out
      = (collect (emitComputedJ env o incl excl attr) cs).map (out ++ ·) := by
  induction cs generalizing out with
  | nil => simp [computedSerde, collect, Except.map]
  | cons c rest ih =>
    simp only [computedSerde, collect, emitComputedJ]
    cases hf : fieldFilter env (.s c.name) incl excl with
    | error e => rfl
    | ok r =>
      cases r with
      | none => exact ih _
      | some p =>
        obtain ⟨ni, ne⟩ := p
        dsimp only
        cases ha : attr c.name with
        | error e => rfl
        | ok v =>
          dsimp only
          by_cases hn : (o.excludeNone && env.isNone v) = true
          · simp only [hn, if_true]; exact ih _
          · simp only [hn, Bool.false_eq_true, if_false]
            cases hp : c.serializer.serde v ni ne with
            | error e => rfl
            | ok b =>
              dsimp only
              rw [ih]
              cases collect (emitComputedJ env o incl excl attr) rest <;> simp [Except.map]

/-- All entries of the JSON output. -/
def entriesJ {α β ε : Type} (s : FieldsSer α β ε) (env : Env α β ε) (o : Opts) (incl excl : Option FVal)
    (main : List (Key × α)) (extra : Option (List (Key × α))) (attr : String → Except ε α) :
    Except (SErr ε) (List (String × β)) :=
  match collect (emitMainJ s env o incl excl) main with
  | .error e => .error e
  | .ok a =>
    match collect (emitExtraJ env o incl excl) (extra.getD []) with
    | .error e => .error e
    | .ok b =>
      match collect (emitComputedJ env o incl excl attr) (activeComputed s o) with
      | .error e => .error e
      | .ok c => .ok (a ++ b ++ c)

theorem fieldsSerde_eq {α β ε : Type} (s : FieldsSer α β ε) (env : Env α β ε) (o : Opts)
    (incl excl : Option FVal) (main : List (Key × α)) (extra : Option (List (Key × α)))
    (attr : String → Except ε α) :
    fieldsSerde s env o incl excl main extra attr = entriesJ s env o incl excl main extra attr := by
  simp only [fieldsSerde, entriesJ, mainSerde_eq]
  cases collect (emitMainJ s env o incl excl) main with
  | error e => rfl
  | ok a =>
    simp only [Except.map, extrasSerde_eq, List.nil_append]
    cases collect (emitExtraJ env o incl excl) (extra.getD []) with
    | error e => rfl
    | ok b =>
      simp only [activeComputed]
      by_cases hr : o.roundTrip = true
      · simp only [hr, if_true, collect, List.append_nil]
      · simp only [hr, Bool.false_eq_true, if_false, computedSerde_eq]
        cases collect (emitComputedJ env o incl excl attr) s.computed with
        | error e => rfl
        | ok c => rfl

theorem addAll_read {β : Type} (es : List (String × β)) :
    addAll [] (es.map (fun e => (Key.s e.1, e.2))) = readObject es := by
  unfold addAll readObject
  rw [List.foldl_map]

theorem length_le_of_subset {γ : Type} [DecidableEq γ] (l l' : List γ) (hn : l.Nodup)
    (h : ∀ x ∈ l, x ∈ l') : l.length ≤ l'.length := by
  induction l generalizing l' with
  | nil => simp
  | cons x rest ih =>
    rw [List.nodup_cons] at hn
    have hx := h x List.mem_cons_self
    have := ih (l'.erase x) hn.2 (fun y hy => by
      have hne : y ≠ x := by rintro rfl; exact hn.1 hy
      exact (List.mem_erase_of_ne hne).2 (h y (List.mem_cons_of_mem _ hy)))
    rw [List.length_erase_of_mem hx] at this
    have : 0 < l'.length := List.length_pos_of_mem hx
    simp only [List.length_cons]; omega

/-- The item is a required field. -/
def isReq {α β ε : Type} (s : FieldsSer α β ε) (e : Key × α) : Bool :=
  match e.1 with
  | .s name =>
    match s.get name with
    | some f => f.required
    | Option.none => false
  | .i _ => false

/-- Without filters the loop counts every item that is a required field. -/
theorem mainLoop_count {α β ε : Type} (s : FieldsSer α β ε) (env : Env α β ε) (o : Opts)
    (items : List (Key × α)) (out : List (Key × β)) (used : Nat) (r : List (Key × β) × Nat)
    (h : mainLoop s env o Option.none Option.none items out used = .ok r) :
    r.2 = used + (items.filter (isReq s)).length := by
  induction items generalizing out used with
  | nil => cases h; rfl
  | cons e rest ih =>
    obtain ⟨k, v⟩ := e
    cases k with
    | i n => cases h
    | s name =>
      have hff : fieldFilter env (.s name) Option.none Option.none
          = .ok (some (Option.none, Option.none)) := by
        rw [fieldFilter_eq env (.s name) Option.none Option.none _ _ Says.absent Says.absent]; rfl
      have hcount : ∀ u, countReq (s.get name) u
          = u + (if isReq s ((Key.s name, v) : Key × α) = true then 1 else 0) := by
        intro u
        cases hg : s.get name with
        | none =>
          have : isReq s ((Key.s name, v) : Key × α) = false := by unfold isReq; simp only [hg]
          rw [this]; rfl
        | some f =>
          have : isReq s ((Key.s name, v) : Key × α) = f.required := by unfold isReq; simp only [hg]
          rw [this]; dsimp only [countReq]; split <;> rfl
      have hlen : ∀ u, u + (((Key.s name, v) :: rest).filter (isReq s)).length
          = countReq (s.get name) u + (rest.filter (isReq s)).length := by
        intro u
        rw [hcount, List.filter_cons]
        split
        · simp only [List.length_cons]; omega
        · omega
      rw [hlen]
      simp only [mainLoop, hff] at h
      by_cases hn : (o.excludeNone && env.isNone v) = true
      · rw [if_pos hn] at h; exact ih _ _ h
      · rw [if_neg hn] at h
        cases hg : s.get name with
        | none =>
          rw [hg] at h; dsimp only at h
          simp only [countReq]
          by_cases hm : s.mode = .typedDictAllow
          · rw [if_pos hm] at h
            cases hp : s.extraPython env v Option.none Option.none with
            | error e => rw [hp] at h; cases h
            | ok b => rw [hp] at h; exact ih _ _ h
          · rw [if_neg hm] at h
            by_cases hc : o.check = .strict
            · rw [if_pos hc] at h; cases h
            · rw [if_neg hc] at h; exact ih _ _ h
        | some f =>
          rw [hg] at h; dsimp only at h
          cases hs : f.serializer with
          | none => rw [hs] at h; exact ih _ _ h
          | some ser =>
            rw [hs] at h; dsimp only at h
            rcases hd : excludeDefault env o ser v with e | (_ | _)
            · rw [hd] at h; cases h
            · rw [hd] at h; dsimp only at h
              cases hp : ser.toPython v Option.none Option.none with
              | error e => rw [hp] at h; cases h
              | ok b => rw [hp] at h; exact ih _ _ h
            · rw [hd] at h; exact ih _ _ h

end PC.SerFields
