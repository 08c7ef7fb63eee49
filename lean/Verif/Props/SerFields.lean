/-
C40: to_python of a model outputs exactly the fields that are not excluded.
C41: to_json agrees with to_python(mode='json').
-/
import Verif.Lemmas.SerFields2

namespace PC.SerFields

open PC.Filter (Key FVal Says given kset kget)

/-- C40. Whenever serialisation succeeds (with or without a union's check), the output consists of the
declared fields that are not excluded, each under its alias or name with its serialised value, the extras
and the computed fields that are not excluded; nothing else. `noClash`: no two of them have the same
output key (see `fields_sound` and `fields_present` for what holds otherwise). -/
theorem fields_exact_partial {α β ε : Type} (s : FieldsSer α β ε) (env : Env α β ε) (o : Opts)
    (incl excl : Option FVal) (m : Inst α ε) (out : List (Key × β))
    (hfields : (s.fields.map (·.1)).Nodup)
    (hi : ∀ k, Readable k incl) (he : ∀ k, Readable k excl)
    (noClash : (allKeys s o m).Nodup)
    (h : modelToPython s env o incl excl m = .ok out) (k : Key) (b : β) :
    (k, b) ∈ out ↔
      FieldEntry s env o incl excl m k b ∨ ExtraEntry s env o incl excl m k b ∨
      ComputedEntry s env o incl excl m k b := by
  obtain ⟨es, hes, rfl⟩ := fieldsToPython_entries s env o incl excl _ _ _ out h
  have hsub := entries_keys s env o incl excl m es hes
  rw [addAll_new [] es (by simpa using hsub.nodup noClash), List.nil_append]
  exact entries_iff s env o incl excl m es hfields hi he hes k b

/-- C40. The output is in the order of the `__dict__`, then the extras, then the computed fields. -/
theorem fields_in_order {α β ε : Type} (s : FieldsSer α β ε) (env : Env α β ε) (o : Opts)
    (incl excl : Option FVal) (m : Inst α ε) (out : List (Key × β)) (noClash : (allKeys s o m).Nodup)
    (h : modelToPython s env o incl excl m = .ok out) : (out.map (·.1)).Sublist (allKeys s o m) := by
  obtain ⟨es, hes, rfl⟩ := fieldsToPython_entries s env o incl excl _ _ _ out h
  have hsub := entries_keys s env o incl excl m es hes
  rw [addAll_new [] es (by simpa using hsub.nodup noClash), List.nil_append]
  exact hsub

/-- C40, without `noClash`: whatever is output stems from a field, an extra or a computed field that is not
excluded. -/
theorem fields_sound {α β ε : Type} (s : FieldsSer α β ε) (env : Env α β ε) (o : Opts)
    (incl excl : Option FVal) (m : Inst α ε) (out : List (Key × β))
    (hfields : (s.fields.map (·.1)).Nodup)
    (hi : ∀ k, Readable k incl) (he : ∀ k, Readable k excl)
    (h : modelToPython s env o incl excl m = .ok out) (k : Key) (b : β) (hk : (k, b) ∈ out) :
    FieldEntry s env o incl excl m k b ∨ ExtraEntry s env o incl excl m k b ∨
      ComputedEntry s env o incl excl m k b := by
  obtain ⟨es, hes, rfl⟩ := fieldsToPython_entries s env o incl excl _ _ _ out h
  rcases mem_addAll es [] _ hk with h' | h'
  · cases h'
  · exact (entries_iff s env o incl excl m es hfields hi he hes k b).1 h'

/-- C40, without `noClash`: every field, extra and computed field that is not excluded has its key in the
output (though the value may be that of another one with the same key). -/
theorem fields_present {α β ε : Type} (s : FieldsSer α β ε) (env : Env α β ε) (o : Opts)
    (incl excl : Option FVal) (m : Inst α ε) (out : List (Key × β))
    (hfields : (s.fields.map (·.1)).Nodup)
    (hi : ∀ k, Readable k incl) (he : ∀ k, Readable k excl)
    (h : modelToPython s env o incl excl m = .ok out) (k : Key) (b : β)
    (hk : FieldEntry s env o incl excl m k b ∨ ExtraEntry s env o incl excl m k b ∨
      ComputedEntry s env o incl excl m k b) : ∃ b', (k, b') ∈ out := by
  obtain ⟨es, hes, rfl⟩ := fieldsToPython_entries s env o incl excl _ _ _ out h
  have := (entries_iff s env o incl excl m es hfields hi he hes k b).2 hk
  have := key_addAll es [] k (Or.inr (List.mem_map_of_mem (f := (·.1)) this))
  obtain ⟨⟨k', b'⟩, hm, rfl⟩ := List.mem_map.1 this
  exact ⟨b', hm⟩

/-- C40. Serialisation outside unions succeeds when the keys of the `__dict__` are strings and the
serialisers of the fields, extras and computed fields that are not excluded succeed (and comparing
with defaults does not raise). Values that are excluded are never serialised. -/
theorem fields_succeed {α β ε : Type} (s : FieldsSer α β ε) (env : Env α β ε) (o : Opts)
    (incl excl : Option FVal) (m : Inst α ε)
    (hfields : (s.fields.map (·.1)).Nodup) (hc : o.check = .none)
    (hi : ∀ k, Readable k incl) (he : ∀ k, Readable k excl)
    (hstr : ∀ e ∈ m.dict, ∃ name, e.1 = .s name)
    (hdef : o.excludeDefaults = true → ∀ name v f ser, (Key.s name, v) ∈ m.dict → (name, f) ∈ s.fields →
      f.serializer = some ser →
      ∃ d, ser.getDefault = .ok d ∧ ∀ d', d = some d' → ∃ b, env.eq v d' = .ok b)
    (hfield : ∀ name f ser v ni ne, ShownField s env o incl excl m name f ser v ni ne →
      ∃ b, ser.toPython v ni ne = .ok b)
    (hextra : ∀ k v ni ne, IsExtra s o m k v → (o.excludeNone = true → env.isNone v = false) →
      Kept k incl excl ni ne →
      ∃ b, (match s.extraSer with
        | some ser => ser.toPython v ni ne
        | Option.none => env.inferPython v ni ne) = .ok b)
    (hcomp : o.roundTrip = false → ∀ c ∈ s.computed, ∀ ni ne, Kept (.s c.name) incl excl ni ne →
      ∃ v b, m.attr c.name = .ok v ∧ c.serializer.toPython v ni ne = .ok b) :
    ∃ out, modelToPython s env o incl excl m = .ok out := by
  unfold modelToPython
  rw [fieldsToPython_eq s env o incl excl _ _ _ hc]
  have hmain : ∃ a, collect (emitMain s env o incl excl) (innerDict o m) = .ok a := by
    apply collect_ok
    rintro ⟨k, v⟩ hin
    obtain ⟨hd, hset⟩ := (mem_innerDict o m k v).1 hin
    obtain ⟨name, hname⟩ := hstr _ hd
    dsimp only at hname; subst hname
    simp only [emitMain]
    by_cases hn : (o.excludeNone && env.isNone v) = true
    · exact ⟨_, if_pos hn⟩
    · rw [if_neg hn]
      have hn' : o.excludeNone = true → env.isNone v = false := by intro h; simpa [h] using hn
      obtain ⟨r, hr⟩ := fieldFilter_ok env (.s name) incl excl (hi _) (he _)
      rw [hr]
      cases r with
      | none => exact ⟨_, rfl⟩
      | some p =>
        obtain ⟨ni, ne⟩ := p
        have hk := (fieldFilter_kept env (.s name) incl excl (hi _) (he _) ni ne).1 hr
        dsimp only
        cases hg : s.get name with
        | some f =>
          have hmem := (get_mem s name f hfields).1 hg
          dsimp only
          cases hs : f.serializer with
          | none => exact ⟨_, rfl⟩
          | some ser =>
            dsimp only
            have hxd : ∃ b, excludeDefault env o ser v = .ok b := by
              unfold excludeDefault
              by_cases ho : o.excludeDefaults = true
              · rw [if_pos ho]
                obtain ⟨d, hd1, hd2⟩ := hdef ho name v f ser hd hmem hs
                rw [hd1]
                cases d with
                | none => exact ⟨_, rfl⟩
                | some d =>
                  obtain ⟨b, hb⟩ := hd2 d rfl
                  exact ⟨b, by simp only [hb]⟩
              · exact ⟨_, if_neg ho⟩
            obtain ⟨d, hd'⟩ := hxd
            rw [hd']
            cases d with
            | true => exact ⟨_, rfl⟩
            | false =>
              dsimp only
              obtain ⟨b, hb⟩ := hfield name f ser v ni ne
                ⟨hd, hmem, hs, hset, hn', (excludeDefault_false env o ser v false hd').1 rfl, hk⟩
              rw [hb]; exact ⟨_, rfl⟩
        | none =>
          dsimp only
          by_cases hm : s.mode = .typedDictAllow
          · rw [if_pos hm]
            obtain ⟨b, hb⟩ := hextra (.s name) v ni ne
              (Or.inr ⟨hm, hd, hset, fun f name' hf heq => by cases heq; exact (get_none s name).1 hg f hf⟩) hn' hk
            have : extraOut s env v ni ne = .ok b := hb
            rw [extraPython_eq, this]; exact ⟨_, rfl⟩
          · rw [if_neg hm, if_neg (by rw [hc]; decide)]; exact ⟨_, rfl⟩
  have hext : ∃ a, collect (emitExtra s env o incl excl) ((innerExtra s m).getD []) = .ok a := by
    apply collect_ok
    rintro ⟨k, v⟩ hin
    have hx : IsExtra s o m k v := by
      left
      unfold innerExtra at hin
      split at hin
      · rename_i hmode
        refine ⟨hmode, ?_⟩
        cases hx : m.extra with
        | none => rw [hx] at hin; cases hin
        | some x => rw [hx] at hin; exact ⟨x, rfl, hin⟩
      · cases hin
    simp only [emitExtra]
    by_cases hn : (o.excludeNone && env.isNone v) = true
    · exact ⟨_, if_pos hn⟩
    · rw [if_neg hn]
      have hn' : o.excludeNone = true → env.isNone v = false := by intro h; simpa [h] using hn
      obtain ⟨r, hr⟩ := fieldFilter_ok env k incl excl (hi _) (he _)
      rw [hr]
      cases r with
      | none => exact ⟨_, rfl⟩
      | some p =>
        obtain ⟨ni, ne⟩ := p
        have hk := (fieldFilter_kept env k incl excl (hi _) (he _) ni ne).1 hr
        obtain ⟨b, hb⟩ := hextra k v ni ne hx hn' hk
        have : extraOut s env v ni ne = .ok b := hb
        dsimp only
        rw [extraPython_eq, this]; exact ⟨_, rfl⟩
  have hcmp : ∃ a, collect (emitComputed env o incl excl m.attr) (activeComputed s o) = .ok a := by
    apply collect_ok
    intro c hin
    unfold activeComputed at hin
    by_cases hr : o.roundTrip = true
    · rw [if_pos hr] at hin; cases hin
    · rw [if_neg hr] at hin
      simp only [emitComputed]
      obtain ⟨r, hf⟩ := fieldFilter_ok env (.s c.name) incl excl (hi _) (he _)
      rw [hf]
      cases r with
      | none => exact ⟨_, rfl⟩
      | some p =>
        obtain ⟨ni, ne⟩ := p
        have hk := (fieldFilter_kept env (.s c.name) incl excl (hi _) (he _) ni ne).1 hf
        obtain ⟨v, b, hv, hb⟩ := hcomp (by simpa using hr) c hin ni ne hk
        simp only [hv, hb]
        split <;> exact ⟨_, rfl⟩
  obtain ⟨a, ha⟩ := hmain
  obtain ⟨b, hb⟩ := hext
  obtain ⟨c, hcc⟩ := hcmp
  exact ⟨_, by simp only [entriesPy, ha, hb, hcc]; rfl⟩

/-- Two ways of computing something agree: both raise, or both give the same. -/
def Agree {ε γ : Type} (a b : Except ε γ) : Prop := a.toOption = b.toOption

/-- C41. Outside unions, `to_json` gives the same keys and values as `to_python(mode='json')`, or both
raise, if the serialisers of fields and computed fields and inference do so themselves. Further
hypotheses, all of them necessary (witnesses below): keys are strings; there is no serialiser for extras
different from inference; and, for `exclude_none`, a computed field is serialised to `None` exactly when
its value is `None`. -/
theorem json_agrees_partial {α β ε : Type} (s : FieldsSer α β ε) (env : Env α β ε) (o : Opts)
    (incl excl : Option FVal) (m : Inst α ε) (hc : o.check = .none)
    (hstr : ∀ e ∈ m.dict, ∃ name, e.1 = .s name)
    (hstrx : ∀ x, m.extra = some x → ∀ e ∈ x, ∃ name, e.1 = .s name)
    (hfield : ∀ nf ∈ s.fields, ∀ ser, nf.2.serializer = some ser →
      ∀ v ni ne, Agree (ser.toPython v ni ne) (ser.serde v ni ne))
    (hinfer : ∀ v ni ne, Agree (env.inferPython v ni ne) (env.inferSerde v ni ne))
    (hextra : ∀ ser, s.extraSer = some ser →
      ∀ v ni ne, Agree (ser.toPython v ni ne) (env.inferSerde v ni ne))
    (hcomp : ∀ c ∈ s.computed, ∀ v ni ne, Agree (c.serializer.toPython v ni ne) (c.serializer.serde v ni ne))
    (hnone : o.excludeNone = true → ∀ c ∈ s.computed, ∀ v ni ne, m.attr c.name = .ok v →
      if env.isNone v then ∃ b, c.serializer.toPython v ni ne = .ok b ∧ env.isNoneOut b = true
      else ∀ b, c.serializer.toPython v ni ne = .ok b → env.isNoneOut b = false) :
    (modelToPython s env o incl excl m).toOption
      = (modelSerde s env o incl excl m).toOption.map readObject := by
  unfold modelToPython modelSerde
  rw [fieldsToPython_eq s env o incl excl _ _ _ hc, fieldsSerde_eq]
  let f : String × β → Key × β := fun e => (Key.s e.1, e.2)
  have hx : ∀ v ni ne, (s.extraPython env v ni ne).toOption = (env.inferSerde v ni ne).toOption := by
    intro v ni ne
    unfold FieldsSer.extraPython
    cases hs : s.extraSer with
    | none =>
      have := hinfer v ni ne
      unfold Agree at this
      cases h1 : env.inferPython v ni ne <;> rw [h1] at this <;> exact this
    | some ser =>
      have := hextra ser hs v ni ne
      unfold Agree at this
      dsimp only
      cases h1 : ser.toPython v ni ne <;> rw [h1] at this <;> exact this
  have hmain : (collect (emitMain s env o incl excl) (innerDict o m)).toOption
      = (collect (emitMainJ s env o incl excl) (innerDict o m)).toOption.map (List.map f) := by
    apply collect_agree
    rintro ⟨k, v⟩ hin
    obtain ⟨hd, _⟩ := (mem_innerDict o m k v).1 hin
    obtain ⟨name, hname⟩ := hstr _ hd
    dsimp only at hname; subst hname
    simp only [emitMain, emitMainJ]
    by_cases hn : (o.excludeNone && env.isNone v) = true
    · rw [if_pos hn, if_pos hn]; rfl
    · rw [if_neg hn, if_neg hn]
      rcases hff : fieldFilter env (.s name) incl excl with e | (_ | ⟨ni, ne⟩)
      · rfl
      · rfl
      · dsimp only
        cases hg : s.get name with
        | some fl =>
          dsimp only
          cases hs : fl.serializer with
          | none => rfl
          | some ser =>
            dsimp only
            rcases hed : excludeDefault env o ser v with e | (_ | _)
            rotate_left 1
            rotate_left 1
            · rfl
            · rfl
            · have hmem : (name, fl) ∈ s.fields := by
                unfold FieldsSer.get at hg
                obtain ⟨⟨n, f'⟩, hfind, rfl⟩ := Option.map_eq_some_iff.1 hg
                have h1 := List.mem_of_find?_eq_some hfind
                have h2 := List.find?_some hfind
                simp only [beq_iff_eq] at h2
                rw [← h2]; exact h1
              have := hfield _ hmem ser hs v ni ne
              unfold Agree at this
              cases h1 : ser.toPython v ni ne with
              | error e =>
                cases h2 : ser.serde v ni ne with
                | error e' => rfl
                | ok b => rw [h1, h2] at this; cases this
              | ok b =>
                cases h2 : ser.serde v ni ne with
                | error e' => rw [h1, h2] at this; cases this
                | ok b' => rw [h1, h2] at this; cases this; rfl
        | none =>
          dsimp only
          by_cases hm : s.mode = .typedDictAllow
          · rw [if_pos hm, if_pos hm]
            have := hx v ni ne
            cases h1 : s.extraPython env v ni ne with
            | error e =>
              cases h2 : env.inferSerde v ni ne with
              | error e' => rfl
              | ok b => rw [h1, h2] at this; cases this
            | ok b =>
              cases h2 : env.inferSerde v ni ne with
              | error e' => rw [h1, h2] at this; cases this
              | ok b' => rw [h1, h2] at this; cases this; rfl
          · rw [if_neg hm, if_neg hm, if_neg (by rw [hc]; decide)]; rfl
  have hext : (collect (emitExtra s env o incl excl) ((innerExtra s m).getD [])).toOption
      = (collect (emitExtraJ env o incl excl) ((innerExtra s m).getD [])).toOption.map (List.map f) := by
    apply collect_agree
    rintro ⟨k, v⟩ hin
    have hk : ∃ name, k = .s name := by
      unfold innerExtra at hin
      split at hin
      · cases hx : m.extra with
        | none => rw [hx] at hin; cases hin
        | some x => rw [hx] at hin; exact hstrx x hx _ hin
      · cases hin
    obtain ⟨name, rfl⟩ := hk
    simp only [emitExtra, emitExtraJ]
    by_cases hn : (o.excludeNone && env.isNone v) = true
    · rw [if_pos hn, if_pos hn]; rfl
    · rw [if_neg hn, if_neg hn]
      rcases hff : fieldFilter env (.s name) incl excl with e | (_ | ⟨ni, ne⟩)
      · rfl
      · rfl
      · dsimp only
        have := hx v ni ne
        cases h1 : s.extraPython env v ni ne with
        | error e =>
          cases h2 : env.inferSerde v ni ne with
          | error e' => rfl
          | ok b => rw [h1, h2] at this; cases this
        | ok b =>
          cases h2 : env.inferSerde v ni ne with
          | error e' => rw [h1, h2] at this; cases this
          | ok b' => rw [h1, h2] at this; cases this; rfl
  have hcmp : (collect (emitComputed env o incl excl m.attr) (activeComputed s o)).toOption
      = (collect (emitComputedJ env o incl excl m.attr) (activeComputed s o)).toOption.map (List.map f) := by
    apply collect_agree
    intro c hin
    have hcm : c ∈ s.computed := by
      unfold activeComputed at hin
      split at hin
      · cases hin
      · exact hin
    simp only [emitComputed, emitComputedJ]
    rcases hff : fieldFilter env (.s c.name) incl excl with e | (_ | ⟨ni, ne⟩)
    · rfl
    · rfl
    · dsimp only
      cases ha : m.attr c.name with
      | error e => rfl
      | ok v =>
        dsimp only
        have agree := hcomp c hcm v ni ne
        unfold Agree at agree
        by_cases ho : o.excludeNone = true
        · have hnn := hnone ho c hcm v ni ne ha
          by_cases hv : env.isNone v = true
          · rw [if_pos hv] at hnn
            obtain ⟨b, hb, hbn⟩ := hnn
            simp only [hb, ho, hv, hbn, Bool.and_self, if_true]
            rfl
          · rw [if_neg hv] at hnn
            simp only [ho, hv, Bool.and_false, Bool.false_eq_true, if_false]
            cases h1 : c.serializer.toPython v ni ne with
            | error e =>
              cases h2 : c.serializer.serde v ni ne with
              | error e' => rfl
              | ok b => rw [h1, h2] at agree; cases agree
            | ok b =>
              have := hnn b h1
              cases h2 : c.serializer.serde v ni ne with
              | error e' => rw [h1, h2] at agree; cases agree
              | ok b' => rw [h1, h2] at agree; cases agree; simp only [this]; rfl
        · have ho' : o.excludeNone = false := by simpa using ho
          simp only [ho', Bool.false_and, Bool.false_eq_true, if_false]
          cases h1 : c.serializer.toPython v ni ne with
          | error e =>
            cases h2 : c.serializer.serde v ni ne with
            | error e' => rfl
            | ok b => rw [h1, h2] at agree; cases agree
          | ok b =>
            cases h2 : c.serializer.serde v ni ne with
            | error e' => rw [h1, h2] at agree; cases agree
            | ok b' => rw [h1, h2] at agree; cases agree; rfl
  have hall : (entriesPy s env o incl excl (innerDict o m) (innerExtra s m) m.attr).toOption
      = (entriesJ s env o incl excl (innerDict o m) (innerExtra s m) m.attr).toOption.map (List.map f) := by
    simp only [entriesPy, entriesJ]
    cases h1 : collect (emitMain s env o incl excl) (innerDict o m) with
    | error e =>
      rw [h1] at hmain
      cases h2 : collect (emitMainJ s env o incl excl) (innerDict o m) with
      | error e' => rfl
      | ok a => rw [h2] at hmain; cases hmain
    | ok a =>
      rw [h1] at hmain
      cases h2 : collect (emitMainJ s env o incl excl) (innerDict o m) with
      | error e' => rw [h2] at hmain; cases hmain
      | ok a' =>
        rw [h2] at hmain
        simp only [Except.toOption, Option.map_some, Option.some.injEq] at hmain
        subst hmain
        dsimp only
        cases h3 : collect (emitExtra s env o incl excl) ((innerExtra s m).getD []) with
        | error e =>
          rw [h3] at hext
          cases h4 : collect (emitExtraJ env o incl excl) ((innerExtra s m).getD []) with
          | error e' => rfl
          | ok b => rw [h4] at hext; cases hext
        | ok b =>
          rw [h3] at hext
          cases h4 : collect (emitExtraJ env o incl excl) ((innerExtra s m).getD []) with
          | error e' => rw [h4] at hext; cases hext
          | ok b' =>
            rw [h4] at hext
            simp only [Except.toOption, Option.map_some, Option.some.injEq] at hext
            subst hext
            dsimp only
            cases h5 : collect (emitComputed env o incl excl m.attr) (activeComputed s o) with
            | error e =>
              rw [h5] at hcmp
              cases h6 : collect (emitComputedJ env o incl excl m.attr) (activeComputed s o) with
              | error e' => rfl
              | ok c => rw [h6] at hcmp; cases hcmp
            | ok c =>
              rw [h5] at hcmp
              cases h6 : collect (emitComputedJ env o incl excl m.attr) (activeComputed s o) with
              | error e' => rw [h6] at hcmp; cases hcmp
              | ok c' =>
                rw [h6] at hcmp
                simp only [Except.toOption, Option.map_some, Option.some.injEq] at hcmp
                subst hcmp
                simp [Except.toOption]
  cases h1 : entriesPy s env o incl excl (innerDict o m) (innerExtra s m) m.attr with
  | error e =>
    rw [h1] at hall
    cases h2 : entriesJ s env o incl excl (innerDict o m) (innerExtra s m) m.attr with
    | error e' => rfl
    | ok a => rw [h2] at hall; cases hall
  | ok a =>
    rw [h1] at hall
    cases h2 : entriesJ s env o incl excl (innerDict o m) (innerExtra s m) m.attr with
    | error e' => rw [h2] at hall; cases hall
    | ok a' =>
      rw [h2] at hall
      simp only [Except.toOption, Option.map_some, Option.some.injEq] at hall
      subst hall
      simp only [Except.map, Except.toOption, Option.map_some, Option.some.injEq]
      exact addAll_read a'

/-- C40 and C42. In a union, without `include` or `exclude`, an instance whose `__dict__` has all required
fields is not refused for a missing field. With `include` it may be: `include_fails_in_union`. -/
theorem complete_instance_accepted_partial {α β ε : Type} (s : FieldsSer α β ε) (env : Env α β ε) (o : Opts)
    (m : Inst α ε) (hfields : (s.fields.map (·.1)).Nodup)
    (hreq : ∀ nf ∈ s.fields, nf.2.required = true → ∃ v, (Key.s nf.1, v) ∈ m.dict)
    (n got : Nat) :
    modelToPython (β := β) s env o Option.none Option.none m ≠ .error (.expected n got) := by
  intro h
  have herr : ∀ (e : SErr ε), (∃ x, e = .inner x) → e ≠ .expected n got := by
    rintro e ⟨x, rfl⟩ hx; cases hx
  have hlift : ∀ {γ : Type} (x : Except ε γ), lift x ≠ .error (.expected n got) := by
    intro γ x hx; cases x <;> cases hx
  have hff : ∀ k, fieldFilter env k Option.none Option.none ≠ .error (.expected n got) := by
    intro k; rw [fieldFilter_eq env k _ _ _ _ Says.absent Says.absent]; intro hx; cases hx
  have hed : ∀ ser v, excludeDefault env o ser v ≠ .error (.expected n got) := by
    intro ser v hx
    unfold excludeDefault at hx
    split at hx
    · split at hx
      · cases hx
      · cases hx
      · split at hx <;> cases hx
    · cases hx
  have hem : ∀ e, emitMain s env o Option.none Option.none e ≠ .error (.expected n got) := by
    rintro ⟨k, v⟩ hx
    cases k with
    | i j => cases hx
    | s name =>
      simp only [emitMain] at hx
      split at hx
      · cases hx
      · split at hx
        · rename_i e he; cases hx; exact hff _ he
        · cases hx
        · split at hx
          · split at hx
            · cases hx
            · split at hx
              · rename_i e he; cases hx; exact hed _ _ he
              · cases hx
              · split at hx <;> cases hx
          · split at hx
            · rw [extraPython_eq] at hx
              split at hx
              · rename_i e he; cases hx; exact hlift _ he
              · cases hx
            · split at hx <;> cases hx
  have hex : ∀ e, emitExtra s env o Option.none Option.none e ≠ .error (.expected n got) := by
    rintro ⟨k, v⟩ hx
    simp only [emitExtra] at hx
    split at hx
    · cases hx
    · split at hx
      · rename_i e he; cases hx; exact hff _ he
      · cases hx
      · rw [extraPython_eq] at hx
        split at hx
        · rename_i e he; cases hx; exact hlift _ he
        · cases hx
  have hcm : ∀ c, emitComputed env o Option.none Option.none m.attr c ≠ .error (.expected n got) := by
    intro c hx
    simp only [emitComputed] at hx
    split at hx
    · rename_i e he; cases hx; exact hff _ he
    · cases hx
    · split at hx
      · cases hx
      · split at hx
        · cases hx
        · split at hx <;> cases hx
  have hcol : ∀ {γ : Type} (g : γ → Except (SErr ε) (Option (Key × β))) (l : List γ),
      (∀ x, g x ≠ .error (.expected n got)) → collect g l ≠ .error (.expected n got) := by
    intro γ g l hg hx
    induction l with
    | nil => cases hx
    | cons x rest ih =>
      simp only [collect] at hx
      split at hx
      · rename_i e he; cases hx; exact hg _ he
      · exact ih hx
      · split at hx
        · rename_i e he; cases hx; exact ih he
        · cases hx
  unfold modelToPython fieldsToPython at h
  cases hm : mainToPython (β := β) s env o Option.none Option.none (innerDict o m) with
  | error e =>
    rw [hm] at h
    cases h
    unfold mainToPython at hm
    cases hl : mainLoop (β := β) s env o Option.none Option.none (innerDict o m) [] 0 with
    | error e =>
      rw [hl] at hm
      cases hm
      have := mainLoop_eq (β := β) s env o Option.none Option.none (innerDict o m) [] 0
      rw [hl] at this
      cases hc : collect (emitMain (β := β) s env o Option.none Option.none) (innerDict o m) with
      | error e => rw [hc] at this; cases this; exact hcol _ _ hem hc
      | ok a => rw [hc] at this; cases this
    | ok r =>
      rw [hl] at hm
      dsimp only at hm
      split at hm
      · rename_i hcond
        obtain ⟨_, hflags, hlt⟩ := hcond
        have hun : o.excludeUnset = false := by
          cases hu : o.excludeUnset with
          | false => rfl
          | true => simp [hu] at hflags
        have hd : innerDict o m = m.dict := by unfold innerDict; simp [hun]
        have hcnt := mainLoop_count s env o _ _ _ _ hl
        rw [hd] at hcnt
        have hle : s.requiredFields ≤ r.2 := by
          rw [hcnt, Nat.zero_add]
          unfold FieldsSer.requiredFields
          have h1 : ((s.fields.filter (·.2.required)).map (fun nf => Key.s nf.1)).Nodup := by
            have hsub := ((List.filter_sublist (p := fun nf : String × SerField α β ε => nf.2.required)
              (l := s.fields)).map (·.1)).nodup hfields
            have hinj := List.Pairwise.map (f := Key.s) (R := (· ≠ ·)) (S := (· ≠ ·))
              (fun a b hab heq => hab (by cases heq; rfl)) hsub
            rw [List.map_map] at hinj
            exact hinj
          have h2 := length_le_of_subset _ ((m.dict.filter (isReq s)).map (·.1)) h1 (by
              intro k hk
              obtain ⟨nf, hnf, rfl⟩ := List.mem_map.1 hk
              obtain ⟨hin, hr⟩ := List.mem_filter.1 hnf
              obtain ⟨v, hv⟩ := hreq nf hin hr
              refine List.mem_map.2 ⟨(Key.s nf.1, v), List.mem_filter.2 ⟨hv, ?_⟩, rfl⟩
              simp only [isReq, (get_mem s nf.1 nf.2 hfields).2 hin]
              exact hr)
          simpa using h2
        omega
      · cases hm
  | ok out =>
    rw [hm] at h
    dsimp only at h
    rw [extrasLoop_eq] at h
    cases hx : collect (emitExtra (β := β) s env o Option.none Option.none) ((innerExtra s m).getD []) with
    | error e => rw [hx] at h; cases h; exact hcol _ _ hex hx
    | ok b =>
      rw [hx] at h
      simp only [Except.map] at h
      split at h
      · cases h
      · rw [computedLoop_eq] at h
        cases hy : collect (emitComputed (β := β) env o Option.none Option.none m.attr) s.computed with
        | error e => rw [hy] at h; cases h; exact hcol _ _ hcm hy
        | ok c => rw [hy] at h; cases h

/-! ### Concrete cases -/

/-- Values are optional numbers, `none` is `None`; inference is the identity. -/
def env0 : Env (Option Nat) (Option Nat) Unit where
  isNone := Option.isNone
  isNoneOut := Option.isNone
  eq := fun a b => .ok (a == b)
  inferPython := fun v _ _ => .ok v
  inferSerde := fun v _ _ => .ok v
  hash := fun _ => 0

/-- A serialiser that adds `n` to numbers. -/
def addSer (n : Nat) (dflt : Option (Option Nat)) : FSer (Option Nat) (Option Nat) Unit where
  toPython := fun v _ _ => .ok (v.map (· + n))
  serde := fun v _ _ => .ok (v.map (· + n))
  getDefault := .ok dflt

/-- Nothing is excluded, names are used. -/
def opts0 : Opts := ⟨Option.none, false, false, false, false, .none⟩

/-- Two fields `a` (alias `A`) and `b`, one of them with a default, extras, and a computed field. -/
def ser0 : FieldsSer (Option Nat) (Option Nat) Unit where
  fields := [("a", ⟨some "A", some (addSer 1 Option.none), true, Option.none⟩),
    ("b", ⟨Option.none, some (addSer 2 (some (some 5))), true, Option.none⟩)]
  computed := [⟨"c", addSer 3 Option.none, "C", Option.none⟩]
  mode := .modelExtra
  extraSer := Option.none

def inst0 : Inst (Option Nat) Unit where
  dict := [(.s "a", some 1), (.s "b", some 5), (.s "cached", some 9)]
  extra := some [(.s "x", some 7)]
  fieldsSet := [.s "a"]
  attr := fun _ => .ok (some 4)

theorem readable_none (k : Key) : Readable k Option.none := ⟨_, Says.absent⟩
theorem readable_set (k : Key) (ks : List Key) : Readable k (some (.set ks)) := ⟨_, Says.set ks⟩

/-- The hypotheses of `fields_exact_partial`, `fields_in_order`, `fields_sound` and `fields_present`, with
aliases and an `exclude`. -/
example : (ser0.fields.map (·.1)).Nodup ∧ (allKeys ser0 { opts0 with byAlias := some true } inst0).Nodup ∧
    (∀ k, Readable k (some (.set [.s "b"]))) ∧
    modelToPython ser0 env0 { opts0 with byAlias := some true } Option.none (some (.set [.s "b"])) inst0
      = .ok [(.s "A", some 2), (.s "x", some 7), (.s "C", some 7)] :=
  ⟨by decide, by decide, fun k => readable_set k _, by rfl⟩

example : modelToPython ser0 env0 { opts0 with excludeDefaults := true } Option.none Option.none inst0
    = .ok [(.s "a", some 2), (.s "x", some 7), (.s "c", some 7)] := by rfl

example : modelToPython ser0 env0 { opts0 with excludeUnset := true, roundTrip := true } Option.none
    Option.none inst0 = .ok [(.s "a", some 2), (.s "x", some 7)] := by rfl

/-- The hypotheses of `json_agrees_partial`. -/
example : (∀ nf ∈ ser0.fields, ∀ ser, nf.2.serializer = some ser →
      ∀ v ni ne, Agree (ser.toPython v ni ne) (ser.serde v ni ne)) ∧
    (∀ v ni ne, Agree (env0.inferPython v ni ne) (env0.inferSerde v ni ne)) ∧
    (∀ c ∈ ser0.computed, ∀ v ni ne, inst0.attr c.name = .ok v →
      if env0.isNone v then ∃ b, c.serializer.toPython v ni ne = .ok b ∧ env0.isNoneOut b = true
      else ∀ b, c.serializer.toPython v ni ne = .ok b → env0.isNoneOut b = false) ∧
    modelSerde ser0 env0 opts0 Option.none Option.none inst0
      = .ok [("a", some 2), ("b", some 7), ("x", some 7), ("c", some 7)] := by
  refine ⟨?_, fun v ni ne => rfl, ?_, by rfl⟩
  · intro nf hnf ser hser v ni ne
    simp only [ser0, List.mem_cons, List.not_mem_nil, or_false] at hnf
    rcases hnf with rfl | rfl <;> cases hser <;> rfl
  · intro c hc v ni ne hv
    simp only [ser0, List.mem_singleton] at hc
    subst hc
    cases hv
    intro b hb
    cases hb; rfl

/-- The hypotheses of `fields_succeed` that concern serialisers. -/
example : (∀ name f ser v ni ne, ShownField ser0 env0 opts0 Option.none Option.none inst0 name f ser v ni ne →
      ∃ b, ser.toPython v ni ne = .ok b) ∧
    (∀ e ∈ inst0.dict, ∃ name, e.1 = Key.s name) := by
  constructor
  · intro name f ser v ni ne h
    have := h.declared
    have hs := h.notExcludedBySchema
    simp only [ser0, List.mem_cons, List.not_mem_nil, or_false, Prod.mk.injEq] at this
    rcases this with ⟨rfl, rfl⟩ | ⟨rfl, rfl⟩ <;> cases hs <;> exact ⟨_, rfl⟩
  · intro e he
    simp only [inst0, List.mem_cons, List.not_mem_nil, or_false] at he
    rcases he with rfl | rfl | rfl <;> exact ⟨_, rfl⟩

/-- The hypotheses of `complete_instance_accepted_partial`. -/
example : ∀ nf ∈ ser0.fields, nf.2.required = true → ∃ v, (Key.s nf.1, v) ∈ inst0.dict := by
  intro nf hnf _
  simp only [ser0, List.mem_cons, List.not_mem_nil, or_false] at hnf
  rcases hnf with rfl | rfl
  · exact ⟨some 1, by decide⟩
  · exact ⟨some 5, by decide⟩

/-! ### Where the code deviates -/

/-- `noClash` is needed in C40: the alias of a computed field equal to the name of a field hides the
field's value. -/
theorem clash_hides_field :
    let s := { ser0 with computed := [⟨"c", addSer 3 Option.none, "a", some true⟩] }
    FieldEntry s env0 opts0 Option.none Option.none inst0 (.s "a") (some 2) ∧
    modelToPython s env0 opts0 Option.none Option.none inst0
      = .ok [(.s "a", some 7), (.s "b", some 7), (.s "x", some 7)] := by
  refine ⟨⟨"a", _, addSer 1 Option.none, some 1, Option.none, Option.none,
    ⟨List.mem_cons_self, List.mem_cons_self, rfl, (fun h => by cases h), (fun h => by cases h),
      (fun h => by cases h), ⟨Option.none, Option.none, Says.absent, Says.absent, rfl, (fun h => by cases h), rfl, rfl⟩⟩,
    rfl, rfl⟩, by rfl⟩

/-- In the same case the JSON document has a repeated key. -/
theorem json_repeated_key :
    let s := { ser0 with computed := [⟨"c", addSer 3 Option.none, "a", some true⟩] }
    modelSerde s env0 opts0 Option.none Option.none inst0
      = .ok [("a", some 2), ("b", some 7), ("x", some 7), ("a", some 7)] := by rfl

/-- C41 fails with a serialiser for extras: `to_json` ignores it. -/
theorem json_ignores_extra_serializer :
    let s := { ser0 with extraSer := some (addSer 10 Option.none) }
    modelToPython s env0 opts0 Option.none Option.none inst0
      = .ok [(.s "a", some 2), (.s "b", some 7), (.s "x", some 17), (.s "c", some 7)] ∧
    (modelSerde s env0 opts0 Option.none Option.none inst0).toOption.map readObject
      = some [(.s "a", some 2), (.s "b", some 7), (.s "x", some 7), (.s "c", some 7)] := ⟨by rfl, by rfl⟩

/-- A serialiser that always gives `None`. -/
def noneSer : FSer (Option Nat) (Option Nat) Unit where
  toPython := fun _ _ _ => .ok Option.none
  serde := fun _ _ _ => .ok Option.none
  getDefault := .ok Option.none

/-- C41 fails with `exclude_none` for a computed field that is serialised to `None`: `to_json` outputs
`null`, `to_python` leaves it out. -/
theorem json_computed_none :
    let s := { ser0 with computed := [⟨"c", noneSer, "C", Option.none⟩] }
    let o := { opts0 with excludeNone := true }
    modelToPython s env0 o Option.none Option.none inst0
      = .ok [(.s "a", some 2), (.s "b", some 7), (.s "x", some 7)] ∧
    (modelSerde s env0 o Option.none Option.none inst0).toOption.map readObject
      = some [(.s "a", some 2), (.s "b", some 7), (.s "x", some 7), (.s "c", Option.none)] :=
  ⟨by rfl, by rfl⟩

/-- C41 fails for an integer key among the extras: `to_python(mode='json')` keeps it. -/
theorem json_int_key :
    let m := { inst0 with extra := some [(.i 1, some 7)] }
    modelToPython ser0 env0 opts0 Option.none Option.none m
      = .ok [(.s "a", some 2), (.s "b", some 7), (.i 1, some 7), (.s "c", some 7)] ∧
    (modelSerde ser0 env0 opts0 Option.none Option.none m).toOption.map readObject
      = some [(.s "a", some 2), (.s "b", some 7), (.s "1", some 7), (.s "c", some 7)] := ⟨by rfl, by rfl⟩

/-- C41 fails for an integer key with value `None` and `exclude_none`: only `to_python` raises. -/
theorem json_int_key_none :
    let m := { inst0 with dict := [(.i 1, Option.none)] }
    let o := { opts0 with excludeNone := true }
    (modelToPython ser0 env0 o Option.none Option.none m).toOption = Option.none ∧
    (modelSerde ser0 env0 o Option.none Option.none m).toOption
      = some [("x", some 7), ("c", some 7)] := ⟨by rfl, by rfl⟩

/-- In a union, `include` makes a complete instance fail the count of required fields; `exclude` does
not. -/
theorem include_fails_in_union :
    let o := { opts0 with check := .lax }
    modelToPython ser0 env0 o (some (.set [.s "a"])) Option.none inst0 = .error (.expected 2 1) ∧
    modelToPython ser0 env0 o Option.none (some (.set [.s "b", .s "x", .s "c"])) inst0
      = .ok [(.s "a", some 2)] := ⟨by rfl, by rfl⟩

end PC.SerFields
