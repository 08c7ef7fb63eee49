import Verif.Lemmas.TemporalTable

/-
C106: what is taken for dates, times, datetimes and timedeltas.
-/

namespace PC.Time
open PC.Num PC.Float

/-- **C106.** Dates are taken exactly from what the table says. -/
theorem date_iff (sp : Speedate) (strict : Bool) (x : PyTemporal) (v : Either Date) (e : Exactness) :
    x.validateDate sp strict = .ok (v, e) ↔ AsDate sp strict x v e := by
  obtain ⟨k, ix, fl⟩ := x
  constructor
  · intro h
    unfold PyTemporal.validateDate at h
    split at h
    · rename_i r hk; cases h; exact .date hk
    · cases h
    · rename_i r hk; cases h; exact .sub hk
    · rename_i b hk
      split at h
      · cases h
      · rename_i hs
        split at h
        · cases h
        · rw [matched_ok, parsed_ok] at h
          obtain ⟨⟨d, hd, rfl⟩, rfl⟩ := h
          exact .text (by simpa using hs) (.inl hk) hd
    · rename_i b hk
      split at h
      · cases h
      · rename_i hs
        rw [matched_ok, parsed_ok] at h
        obtain ⟨⟨d, hd, rfl⟩, rfl⟩ := h
        exact .text (by simpa using hs) (.inr hk) hd
    · cases h
  · intro h
    cases h with
    | date h => dsimp only at h; subst h; rfl
    | sub h => dsimp only at h; subst h; rfl
    | text lax h hd =>
      subst lax
      rcases h with h | h <;> dsimp only at h <;> subst h <;>
        simp [PyTemporal.validateDate, matched_ok, parsed_ok, hd]

example : AsDate Demo.sp false ⟨.date false ⟨3, none⟩, none, none⟩ (.py ⟨3, none⟩) .strict := .sub rfl

/-- **C106.** Times are taken exactly from what the table says. -/
theorem time_iff (sp : Speedate) (mul : MulMillion) (strict : Bool) (x : PyTemporal) (v : Either Time)
    (e : Exactness) : x.validateTime sp mul strict = .ok (v, e) ↔ AsTime sp mul strict x v e := by
  obtain ⟨k, ix, fl⟩ := x
  constructor
  · intro h
    unfold PyTemporal.validateTime at h
    split at h
    · rename_i r hk; cases h; exact .time hk
    · rename_i r hk; cases h; exact .sub hk
    · rename_i n1 n2
      have h3 : ∀ e r, k ≠ .time e r := by
        intro e r hk
        cases e
        · exact n2 r hk
        · exact n1 r hk
      split at h
      · cases h
      · rename_i hs
        have hs : strict = false := by simpa using hs
        dsimp only at h n1 n2
        split at h
        · cases h
        · rw [matched_ok, parsed_ok] at h
          obtain ⟨⟨d, hd, rfl⟩, rfl⟩ := h
          exact .text hs (.inl rfl) hd
        · rw [matched_ok, parsed_ok] at h
          obtain ⟨⟨d, hd, rfl⟩, rfl⟩ := h
          exact .text hs (.inr rfl) hd
        · cases h
        · rename_i m1 m2 m3 m4
          have h1 : PyTemporal.NoText ⟨k, ix, fl⟩ := by
            refine ⟨fun b hb => ?_, m3⟩
            cases b
            · exact m1 hb
            · exact m2 _ hb
          split at h
          · rename_i n hn
            rw [matched_ok] at h
            obtain ⟨h, rfl⟩ := h
            exact .int hs h1 m4 h3 rfl h
          · rename_i hn
            split at h
            · rename_i f hf
              rw [matched_ok] at h
              obtain ⟨h, rfl⟩ := h
              exact .float hs h1 m4 h3 rfl rfl h
            · cases h
  · intro h
    cases h with
    | time h => dsimp only at h; subst h; rfl
    | sub h => dsimp only at h; subst h; rfl
    | text lax h hd =>
      subst lax
      rcases h with h | h <;> dsimp only at h <;> subst h <;>
        simp [PyTemporal.validateTime, matched_ok, parsed_ok, hd]
    | int lax h1 h2 h3 hn ht =>
      subst lax
      dsimp only at hn
      subst hn
      cases k <;> first
        | exact absurd rfl (h1.1 _)
        | exact absurd rfl (h1.2 _)
        | exact absurd rfl (h2 _)
        | exact absurd rfl (h3 _ _)
        | simp [PyTemporal.validateTime, matched_ok, ht]
    | float lax h1 h2 h3 hn hf ht =>
      subst lax
      dsimp only at hn hf
      subst hn hf
      cases k <;> first
        | exact absurd rfl (h1.1 _)
        | exact absurd rfl (h1.2 _)
        | exact absurd rfl (h2 _)
        | exact absurd rfl (h3 _ _)
        | simp [PyTemporal.validateTime, matched_ok, ht]

example (mul : MulMillion) (t : Time) (sp : Speedate) (h : sp.timeFromTimestamp 5 0 = some t) :
    AsTime sp mul false ⟨.other, some 5, none⟩ (.raw t) .lax :=
  .int rfl ⟨nofun, nofun⟩ nofun nofun rfl (by simp [intAsTime, h])

/-- **C106.** Datetimes are taken exactly from what the table says. -/
theorem datetime_iff (sp : Speedate) (mul : MulMillion) (strict : Bool) (x : PyTemporal) (v : Either DateTime)
    (e : Exactness) : x.validateDatetime sp mul strict = .ok (v, e) ↔ AsDatetime sp mul strict x v e := by
  obtain ⟨k, ix, fl⟩ := x
  constructor
  · intro h
    unfold PyTemporal.validateDatetime at h
    split at h
    · rename_i r hk; cases h; exact .datetime hk
    · rename_i r hk; cases h; exact .sub hk
    · rename_i n1 n2
      have h3 : ∀ e r, k ≠ .datetime e r := by
        intro e r hk
        cases e
        · exact n2 r hk
        · exact n1 r hk
      split at h
      · cases h
      · rename_i hs
        have hs : strict = false := by simpa using hs
        dsimp only at h n1 n2
        split at h
        · cases h
        · rw [matched_ok, parsed_ok] at h
          obtain ⟨⟨d, hd, rfl⟩, rfl⟩ := h
          exact .text hs (.inl rfl) hd
        · rw [matched_ok, parsed_ok] at h
          obtain ⟨⟨d, hd, rfl⟩, rfl⟩ := h
          exact .text hs (.inr rfl) hd
        · cases h
        · rename_i m1 m2 m3 m4
          have h1 : PyTemporal.NoText ⟨k, ix, fl⟩ := by
            refine ⟨fun b hb => ?_, m3⟩
            cases b
            · exact m1 hb
            · exact m2 _ hb
          split at h
          · rename_i n hn
            rw [matched_ok] at h
            obtain ⟨h, rfl⟩ := h
            exact .int hs h1 m4 h3 rfl h
          · rename_i hn
            split at h
            · rename_i f hf
              rw [matched_ok] at h
              obtain ⟨h, rfl⟩ := h
              exact .float hs h1 m4 h3 rfl rfl h
            · rename_i hf
              split at h
              · split at h
                · rename_i d hd
                  cases h
                  exact .date hs rfl rfl rfl hd
                · cases h
              · cases h
  · intro h
    cases h with
    | datetime h => dsimp only at h; subst h; rfl
    | sub h => dsimp only at h; subst h; rfl
    | text lax h hd =>
      subst lax
      rcases h with h | h <;> dsimp only at h <;> subst h <;>
        simp [PyTemporal.validateDatetime, matched_ok, parsed_ok, hd]
    | int lax h1 h2 h3 hn ht =>
      subst lax
      dsimp only at hn
      subst hn
      cases k <;> first
        | exact absurd rfl (h1.1 _)
        | exact absurd rfl (h1.2 _)
        | exact absurd rfl (h2 _)
        | exact absurd rfl (h3 _ _)
        | simp [PyTemporal.validateDatetime, matched_ok, ht]
    | float lax h1 h2 h3 hn hf ht =>
      subst lax
      dsimp only at hn hf
      subst hn hf
      cases k <;> first
        | exact absurd rfl (h1.1 _)
        | exact absurd rfl (h1.2 _)
        | exact absurd rfl (h2 _)
        | exact absurd rfl (h3 _ _)
        | simp [PyTemporal.validateDatetime, matched_ok, ht]
    | date lax h hn hf hr =>
      subst lax
      dsimp only at h hn hf
      subst h hn hf
      simp [PyTemporal.validateDatetime, hr, midnight]

example : AsDatetime Demo.sp Demo.mul false ⟨.date true ⟨3, some ⟨2024, 2, 29⟩⟩, none, none⟩
    (.raw ⟨⟨2024, 2, 29⟩, ⟨0, 0, 0, 0, none⟩⟩) .lax := .date rfl rfl rfl rfl rfl

/-- **C106.** Timedeltas are taken exactly from what the table says. -/
theorem timedelta_iff (sp : Speedate) (mul : MulMillion) (strict : Bool) (x : PyTemporal) (v : EitherDelta)
    (e : Exactness) : x.validateTimedelta sp mul strict = .ok (v, e) ↔ AsTimedelta sp mul strict x v e := by
  obtain ⟨k, ix, fl⟩ := x
  constructor
  · intro h
    unfold PyTemporal.validateTimedelta at h
    split at h
    · rename_i d hk; cases h; exact .delta hk
    · rename_i d n1 hk; cases h; exact .sub hk (fun d' he => n1 d' (by rw [← he]))
    · rename_i n1 n2
      split at h
      · cases h
      · rename_i hs
        have hs : strict = false := by simpa using hs
        dsimp only at h n1 n2
        split at h
        · cases h
        · rw [matched_ok, parsed_ok] at h
          obtain ⟨⟨d, hd, rfl⟩, rfl⟩ := h
          exact .text hs (.inl rfl) hd
        · rw [matched_ok, parsed_ok] at h
          obtain ⟨⟨d, hd, rfl⟩, rfl⟩ := h
          exact .text hs (.inr rfl) hd
        · rename_i m1 m2 m3
          have h1 : PyTemporal.NoText ⟨k, ix, fl⟩ := by
            refine ⟨fun b hb => ?_, m3⟩
            cases b
            · exact m1 hb
            · exact m2 _ hb
          split at h
          · rename_i n hn
            rw [matched_ok, parsed_ok] at h
            obtain ⟨⟨d, hd, rfl⟩, rfl⟩ := h
            exact .int hs h1 n2 rfl hd
          · rename_i hn
            split at h
            · rename_i f hf
              rw [matched_ok, parsed_ok] at h
              obtain ⟨⟨d, hd, rfl⟩, rfl⟩ := h
              exact .float hs h1 n2 rfl rfl hd
            · cases h
  · intro h
    cases h with
    | delta h => dsimp only at h; subst h; rfl
    | sub h he =>
      dsimp only at h
      subst h
      cases v with
      | exact d => exact absurd rfl (he d)
      | _ => rfl
    | text lax h hd =>
      subst lax
      rcases h with h | h <;> dsimp only at h <;> subst h <;>
        simp [PyTemporal.validateTimedelta, matched_ok, parsed_ok, hd]
    | int lax h1 h2 hn ht =>
      subst lax
      dsimp only at hn
      subst hn
      cases k <;> first
        | exact absurd rfl (h1.1 _)
        | exact absurd rfl (h1.2 _)
        | exact absurd rfl (h2 _)
        | simp [PyTemporal.validateTimedelta, matched_ok, parsed_ok, ht]
    | float lax h1 h2 hn hf ht =>
      subst lax
      dsimp only at hn hf
      subst hn hf
      cases k <;> first
        | exact absurd rfl (h1.1 _)
        | exact absurd rfl (h1.2 _)
        | exact absurd rfl (h2 _)
        | simp [PyTemporal.validateTimedelta, matched_ok, parsed_ok, ht]

example : AsTimedelta Demo.sp Demo.mul false ⟨.bool true, some 1, some (.fin 1 0)⟩ (.raw ⟨true, 0, 1, 0⟩) .lax :=
  .int rfl ⟨nofun, nofun⟩ nofun rfl (by decide)

/-- **C106.** A duration is a `timedelta` object exactly if Python has one of that length, and then that one. -/
theorem duration_to_delta_iff (r : Duration) (d : Delta) :
    durationToDelta r = some d ↔ d.Valid ∧ d.total = r.signed := by
  constructor
  · intro h
    obtain ⟨p, dd, ss, uu⟩ := r
    unfold durationToDelta Delta.new at h
    unfold Duration.signed
    dsimp only at h ⊢
    cases p <;> simp only [if_true, Bool.false_eq_true, if_false] at h ⊢ <;> split at h
    · cases h
    · cases h
      unfold Delta.Valid Delta.total
      dsimp only
      omega
    · cases h
    · cases h
      unfold Delta.Valid Delta.total
      dsimp only
      omega
  · rintro ⟨hv, ht⟩
    unfold durationToDelta
    dsimp only
    refine Delta.new_of_valid hv _ _ _ ?_
    rw [ht]
    unfold Duration.signed
    cases r.positive <;> simp only [if_true, Bool.false_eq_true, if_false] <;> omega

example : durationToDelta ⟨false, 999999999, 1, 0⟩ = none ∧
    durationToDelta ⟨false, 999999998, 86399, 0⟩ = some ⟨-999999999, 1, 0⟩ := by decide

/-- **C106.** The length of an instance of a subclass of `timedelta` is that of its `total_seconds()`, to within a
microsecond. -/
theorem subclass_length (mul : MulMillion) (hm : mul.Good) (d : Delta) (num : Int) (k : Nat) :
    (∀ r, (EitherDelta.sub d (some (.fin num k))).toDuration mul = some r → Near r.signed num k) ∧
    (num.natAbs / 2 ^ k < 86400 * 1000000000 - 1 →
      ((EitherDelta.sub d (some (.fin num k))).toDuration mul).isSome) :=
  float_seconds_near mul hm num k

example : ((EitherDelta.sub ⟨0, 1, 500000⟩ (some (.fin 3 1))).toDuration Demo.mul).isSome := by decide

/-- **C106.** A text that does not read as a datetime but as a date is taken for a datetime exactly in lax mode: it is
midnight of that day. -/
theorem datetime_from_date_text (sp : Speedate) (mul : MulMillion) (cmp : DateTime → DateTime → Option Ordering)
    (strict : Bool) (x : PyTemporal) (b : List UInt8) (d : Date) (hx : x.HasText b)
    (h1 : sp.parseDateTime b = none) (h2 : sp.parseDate b = some d) (hy : d.year ≠ 0) (r : Either DateTime) :
    (∃ e, validateDatetime strict none cmp (PyTemporal.reader sp mul x) = .ok (r, e)) ↔
      strict = false ∧ r = .raw ⟨d, ⟨0, 0, 0, 0, none⟩⟩ := by
  obtain ⟨k, ix, fl⟩ := x
  cases strict with
  | true =>
    rcases hx with hx | hx <;> dsimp only at hx <;> subst hx <;>
      simp [validateDatetime, PyTemporal.reader, PyTemporal.validateDatetime, readOr]
  | false =>
    rcases hx with hx | hx <;> dsimp only at hx <;> subst hx <;>
      simp [validateDatetime, PyTemporal.reader, PyTemporal.validateDatetime, readOr, parsed, h1, h2, matched,
        Except.map, datetimeFromDate, PyTemporal.validateDate, Either.asRaw, checkAll, tryIntoPy, hy, midnight,
        eq_comm]

example : validateDatetime false none (fun _ _ => none) (PyTemporal.reader
    { Demo.sp with parseDateTime := fun _ => none, parseDate := fun _ => some ⟨2024, 2, 29⟩ } Demo.mul
    ⟨.str (some [50]), none, none⟩) = .ok (.raw ⟨⟨2024, 2, 29⟩, ⟨0, 0, 0, 0, none⟩⟩, .lax) := by decide

/-- **C106.** What is not taken is reported by one of the documented errors, but for date objects that cannot be
read. -/
theorem temporal_errors (sp : Speedate) (mul : MulMillion) (strict : Bool) (x : PyTemporal) (t : ErrType) :
    (x.validateDate sp strict = .error (.line t) → ∃ n ∈ readerErrors "date", t = .other n) ∧
    (x.validateTime sp mul strict = .error (.line t) → ∃ n ∈ readerErrors "time", t = .other n) ∧
    (x.validateDatetime sp mul strict = .error (.line t) → ∃ n ∈ readerErrors "datetime", t = .other n) ∧
    (x.validateTimedelta sp mul strict = .error (.line t) → ∃ n ∈ readerErrors "time_delta", t = .other n) := by
  have pe : ∀ {α β : Type} (mk : α → β) (err : String) (o : Option α) (e : Exactness),
      matched e (parsed mk err o) = .error (.line t) → t = .other err := by
    intro α β mk err o e h
    cases o with
    | none => cases h; rfl
    | some a => cases h
  have it : ∀ n us, matched Exactness.lax (intAsTime sp n us) = .error (.line t) → t = .other "time_parsing" := by
    intro n us h
    unfold intAsTime at h
    split at h
    · cases h; rfl
    · dsimp only at h
      split at h
      · cases h
      · cases h; rfl
  have idt : ∀ n us, matched Exactness.lax (intAsDatetime sp n us) = .error (.line t) →
      t = .other "datetime_parsing" := by
    intro n us h
    unfold intAsDatetime at h
    split at h
    · cases h
    · cases h; rfl
  have ft : ∀ f, matched Exactness.lax (floatAsTime sp mul f) = .error (.line t) → t = .other "time_parsing" := by
    intro f h
    cases f with
    | nan => cases h; rfl
    | posInf => exact it _ _ h
    | negInf => exact it _ _ h
    | fin num k => exact it _ _ h
  have fdt : ∀ f, matched Exactness.lax (floatAsDatetime sp mul f) = .error (.line t) →
      t = .other "datetime_parsing" := by
    intro f h
    cases f with
    | nan => cases h; rfl
    | posInf => exact idt _ _ h
    | negInf => exact idt _ _ h
    | fin num k => exact idt _ _ h
  refine ⟨fun h => ?_, fun h => ?_, fun h => ?_, fun h => ?_⟩
  · unfold PyTemporal.validateDate at h
    split at h
    · cases h
    · cases h; exact ⟨"date_type", by decide, rfl⟩
    · cases h
    · split at h
      · cases h; exact ⟨"date_type", by decide, rfl⟩
      · split at h
        · cases h; exact ⟨"string_unicode", by decide, rfl⟩
        · exact ⟨"date_parsing", by decide, pe _ _ _ _ h⟩
    · split at h
      · cases h; exact ⟨"date_type", by decide, rfl⟩
      · exact ⟨"date_parsing", by decide, pe _ _ _ _ h⟩
    · cases h; exact ⟨"date_type", by decide, rfl⟩
  · unfold PyTemporal.validateTime at h
    split at h
    · cases h
    · cases h
    · split at h
      · cases h; exact ⟨"time_type", by decide, rfl⟩
      · split at h
        · cases h; exact ⟨"string_unicode", by decide, rfl⟩
        · exact ⟨"time_parsing", by decide, pe _ _ _ _ h⟩
        · exact ⟨"time_parsing", by decide, pe _ _ _ _ h⟩
        · cases h; exact ⟨"time_type", by decide, rfl⟩
        · split at h
          · exact ⟨"time_parsing", by decide, it _ _ h⟩
          · split at h
            · exact ⟨"time_parsing", by decide, ft _ h⟩
            · cases h; exact ⟨"time_type", by decide, rfl⟩
  · unfold PyTemporal.validateDatetime at h
    split at h
    · cases h
    · cases h
    · split at h
      · cases h; exact ⟨"datetime_type", by decide, rfl⟩
      · split at h
        · cases h; exact ⟨"string_unicode", by decide, rfl⟩
        · exact ⟨"datetime_parsing", by decide, pe _ _ _ _ h⟩
        · exact ⟨"datetime_parsing", by decide, pe _ _ _ _ h⟩
        · cases h; exact ⟨"datetime_type", by decide, rfl⟩
        · split at h
          · exact ⟨"datetime_parsing", by decide, idt _ _ h⟩
          · split at h
            · exact ⟨"datetime_parsing", by decide, fdt _ h⟩
            · split at h
              · split at h
                · cases h
                · cases h
              · cases h; exact ⟨"datetime_type", by decide, rfl⟩
  · unfold PyTemporal.validateTimedelta at h
    split at h
    · cases h
    · cases h
    · split at h
      · cases h; exact ⟨"time_delta_type", by decide, rfl⟩
      · split at h
        · cases h; exact ⟨"string_unicode", by decide, rfl⟩
        · exact ⟨"time_delta_parsing", by decide, pe _ _ _ _ h⟩
        · exact ⟨"time_delta_parsing", by decide, pe _ _ _ _ h⟩
        · split at h
          · exact ⟨"time_delta_parsing", by decide, pe _ _ _ _ h⟩
          · split at h
            · exact ⟨"time_delta_parsing", by decide, pe _ _ _ _ h⟩
            · cases h; exact ⟨"time_delta_type", by decide, rfl⟩

/-- **C106.** The same for JSON; a number too large for a time is an error of parsing in lax mode. -/
theorem temporal_json_errors (sp : Speedate) (mul : MulMillion) (strict : Bool) (x : JsonTemporal) (t : ErrType) :
    (x.validateDate sp strict = .error (.line t) → t = .other "date_type" ∨ t = .other "date_parsing") ∧
    (x.validateTime sp mul strict = .error (.line t) → t = .other "time_type" ∨ t = .other "time_parsing") ∧
    (JsonTemporal.bigInt.validateTime sp mul false = .error (.line (.other "time_parsing"))) := by
  have pe : ∀ {α β : Type} (mk : α → β) (err : String) (o : Option α) (e : Exactness),
      matched e (parsed mk err o) = .error (.line t) → t = .other err := by
    intro α β mk err o e h
    cases o with
    | none => cases h; rfl
    | some a => cases h
  have it : ∀ n us, matched Exactness.lax (intAsTime sp n us) = .error (.line t) → t = .other "time_parsing" := by
    intro n us h
    unfold intAsTime at h
    split at h
    · cases h; rfl
    · dsimp only at h
      split at h
      · cases h
      · cases h; rfl
  have ft : ∀ f, matched Exactness.lax (floatAsTime sp mul f) = .error (.line t) → t = .other "time_parsing" := by
    intro f h
    cases f with
    | nan => cases h; rfl
    | posInf => exact it _ _ h
    | negInf => exact it _ _ h
    | fin num k => exact it _ _ h
  refine ⟨fun h => ?_, fun h => ?_, rfl⟩
  · cases x with
    | str b => exact .inr (pe _ _ _ _ h)
    | _ => cases h; exact .inl rfl
  · cases x with
    | str b => exact .inr (pe _ _ _ _ h)
    | int n =>
      cases strict with
      | false => exact .inr (it _ _ h)
      | true => cases h; exact .inl rfl
    | float f =>
      cases strict with
      | false => exact .inr (ft _ h)
      | true => cases h; exact .inl rfl
    | bigInt =>
      cases strict with
      | false => cases h; exact .inr rfl
      | true => cases h; exact .inl rfl
    | _ => cases h; exact .inl rfl

example : (⟨.bool true, some 1, none⟩ : PyTemporal).validateTime Demo.sp Demo.mul false =
    .error (.line (.other "time_type")) := by decide

end PC.Time
