import Verif.Props.DateTime

/-! More on dates, times, datetimes and timedeltas (C32, C34, C46, C62, C63): which timedeltas exist, that objects of the
right class are kept, what texts give and which constraint is reported. -/

namespace PC.Time

open PC.Float

/-- C32: `timedelta(days, seconds, microseconds)` is the timedelta of that many microseconds, and raises exactly if there is
none. -/
theorem delta_new_exact (days seconds microseconds : Int) (d : Delta) :
    Delta.new days seconds microseconds = some d ↔
      d.Valid ∧ d.total = (days * 86400 + seconds) * 1000000 + microseconds := by
  obtain ⟨dd, ss, us⟩ := d
  simp only [Delta.new, Delta.Valid, Delta.total]
  by_cases h : days + (seconds + microseconds / 1000000) / 86400 < -999999999 ∨
      days + (seconds + microseconds / 1000000) / 86400 > 999999999
  · rw [if_pos h]
    constructor
    · intro e; cases e
    · intro e; omega
  · rw [if_neg h]
    simp only [Option.some.injEq, Delta.mk.injEq]
    constructor <;> intro e <;> omega

example : Delta.new 0 (-1) 0 = some ⟨-1, 86399, 0⟩ ∧ Delta.new (-1000000000) 0 0 = none ∧
    Delta.new (-1000000000) 86400 0 = some ⟨-999999999, 0, 0⟩ := by decide

/-- C28, C62: an object of the class a schema asks for is returned as it is, in strict and in lax mode: a date (that is not a
datetime), a time, a datetime, a timedelta. -/
theorem instances_kept (sp : Speedate) (mul : MulMillion) (strict exact : Bool) (ix : Option Int) (fl : Option F64) :
    (∀ o, ∃ e, PyTemporal.validateDate sp strict ⟨.date exact o, ix, fl⟩ = .ok (.py o, e)) ∧
    (∀ o, ∃ e, PyTemporal.validateTime sp mul strict ⟨.time exact o, ix, fl⟩ = .ok (.py o, e)) ∧
    (∀ o, ∃ e, PyTemporal.validateDatetime sp mul strict ⟨.datetime exact o, ix, fl⟩ = .ok (.py o, e)) ∧
    (∀ d, ∃ e, PyTemporal.validateTimedelta sp mul strict ⟨.delta d, ix, fl⟩ = .ok (d, e)) := by
  refine ⟨fun o => ?_, fun o => ?_, fun o => ?_, fun d => ?_⟩
  · cases exact <;> exact ⟨_, rfl⟩
  · cases exact <;> exact ⟨_, rfl⟩
  · cases exact <;> exact ⟨_, rfl⟩
  · cases d <;> exact ⟨_, rfl⟩

example : PyTemporal.validateTimedelta Demo.sp Demo.mul true ⟨.delta (.exact ⟨1, 2, 3⟩), none, none⟩
    = .ok (.exact ⟨1, 2, 3⟩, .exact) := rfl

/-- A text as an input: JSON strings are texts, Python has `str` and `bytes`. -/
inductive Text (b : List UInt8) : Bool → (Speedate → MulMillion → Reader) → Prop
  | json : Text b true (fun sp mul => JsonTemporal.reader sp mul (.str b))
  | str (ix : Option Int) (fl : Option F64) :
      Text b false (fun sp mul => PyTemporal.reader sp mul ⟨.str (some b), ix, fl⟩)
  | bytes (ix : Option Int) (fl : Option F64) :
      Text b false (fun sp mul => PyTemporal.reader sp mul ⟨.bytes b, ix, fl⟩)

/-- C62: a text that is no datetime but a date is midnight of that day for a datetime schema, in lax mode; JSON or Python, `str`
or `bytes`.  In strict mode it is refused. -/
theorem datetime_of_date_text (sp : Speedate) (mul : MulMillion) (cmp : DateTime → DateTime → Option Ordering) (strict : Bool)
    (b : List UInt8) (d : Date) (h1 : sp.parseDateTime b = none) (h2 : sp.parseDate b = some d) (hy : d.year ≠ 0)
    {json : Bool} {x : Speedate → MulMillion → Reader} (hx : Text b json x) (r : Either DateTime) :
    (∃ e, validateDatetime strict none cmp (x sp mul) = .ok (r, e)) ↔ strict = false ∧ r = .raw ⟨d, midnight⟩ := by
  cases hx <;> cases strict <;>
    simp [validateDatetime, JsonTemporal.reader, PyTemporal.reader, JsonTemporal.validateDatetime, JsonTemporal.validateDate,
      PyTemporal.validateDatetime, PyTemporal.validateDate, readOr, datetimeFromDate, parsed, h1, h2, matched, Except.map,
      Either.asRaw, checkAll, tryIntoPy, hy, eq_comm]

/-- C62: a text that is neither is refused with the error of the other reading: in lax mode a date schema says it tried a datetime,
a datetime schema that it tried a date. -/
theorem text_refused (sp : Speedate) (mul : MulMillion) (cd : Date → Date → Option Ordering)
    (cdt : DateTime → DateTime → Option Ordering) (b : List UInt8) (h1 : sp.parseDateTime b = none) (h2 : sp.parseDate b = none)
    {json : Bool} {x : Speedate → MulMillion → Reader} (hx : Text b json x) :
    validateDate false none cd (x sp mul) = .error (.line (.other "date_from_datetime_parsing")) ∧
    validateDatetime false none cdt (x sp mul) = .error (.line (.other "datetime_from_date_parsing")) ∧
    validateDate true none cd (x sp mul) = .error (.line (.other (if json then "date_parsing" else "date_type"))) ∧
    validateDatetime true none cdt (x sp mul) =
      .error (.line (.other (if json then "datetime_parsing" else "datetime_type"))) := by
  cases hx <;>
    simp [validateDate, validateDatetime, JsonTemporal.reader, PyTemporal.reader, JsonTemporal.validateDatetime,
      JsonTemporal.validateDate, PyTemporal.validateDatetime, PyTemporal.validateDate, readOr, datetimeFromDate,
      dateFromDatetime, parsed, h1, h2, matched, Except.map]

/-- C63: a text is a time exactly if it parses as one; otherwise the error is `time_parsing`, JSON or Python. -/
theorem time_text (sp : Speedate) (mul : MulMillion) (b : List UInt8) (ix : Option Int) (fl : Option F64) :
    (∀ t, sp.parseTime b = some t →
      (∀ strict, JsonTemporal.validateTime sp mul strict (.str b) = .ok (.raw t, .strict)) ∧
      PyTemporal.validateTime sp mul false ⟨.str (some b), ix, fl⟩ = .ok (.raw t, .lax) ∧
      PyTemporal.validateTime sp mul false ⟨.bytes b, ix, fl⟩ = .ok (.raw t, .lax)) ∧
    (sp.parseTime b = none →
      (∀ strict, JsonTemporal.validateTime sp mul strict (.str b) = .error (.line (.other "time_parsing"))) ∧
      PyTemporal.validateTime sp mul false ⟨.str (some b), ix, fl⟩ = .error (.line (.other "time_parsing")) ∧
      PyTemporal.validateTime sp mul false ⟨.bytes b, ix, fl⟩ = .error (.line (.other "time_parsing"))) ∧
    PyTemporal.validateTime sp mul true ⟨.str (some b), ix, fl⟩ = .error (.line (.other "time_type")) := by
  refine ⟨fun t h => ?_, fun h => ?_, rfl⟩ <;>
    simp [JsonTemporal.validateTime, PyTemporal.validateTime, parsed, h, matched, Except.map]

/-- C63: a JSON integer beyond 64 bits is no time, datetime or timedelta; only a time schema says so as a parse error. -/
theorem json_big_int (sp : Speedate) (mul : MulMillion) :
    JsonTemporal.validateTime sp mul false .bigInt = .error (.line (.other "time_parsing")) ∧
    JsonTemporal.validateTime sp mul true .bigInt = .error (.line (.other "time_type")) ∧
    ∀ strict, JsonTemporal.validateDatetime sp mul strict .bigInt = .error (.line (.other "datetime_type")) ∧
      JsonTemporal.validateTimedelta sp mul strict .bigInt = .error (.line (.other "time_delta_type")) :=
  ⟨rfl, rfl, fun _ => ⟨rfl, rfl⟩⟩

/-- C32: likewise for timedeltas. -/
theorem timedelta_text (sp : Speedate) (mul : MulMillion) (b : List UInt8) (ix : Option Int) (fl : Option F64) :
    (∀ t, sp.parseDuration b = some t →
      (∀ strict, JsonTemporal.validateTimedelta sp mul strict (.str b) = .ok (.raw t, .strict)) ∧
      PyTemporal.validateTimedelta sp mul false ⟨.str (some b), ix, fl⟩ = .ok (.raw t, .lax) ∧
      PyTemporal.validateTimedelta sp mul false ⟨.bytes b, ix, fl⟩ = .ok (.raw t, .lax)) ∧
    (sp.parseDuration b = none →
      (∀ strict, JsonTemporal.validateTimedelta sp mul strict (.str b) = .error (.line (.other "time_delta_parsing"))) ∧
      PyTemporal.validateTimedelta sp mul false ⟨.str (some b), ix, fl⟩ = .error (.line (.other "time_delta_parsing")) ∧
      PyTemporal.validateTimedelta sp mul false ⟨.bytes b, ix, fl⟩ = .error (.line (.other "time_delta_parsing"))) ∧
    PyTemporal.validateTimedelta sp mul true ⟨.str (some b), ix, fl⟩ = .error (.line (.other "time_delta_type")) := by
  refine ⟨fun t h => ?_, fun h => ?_, rfl⟩ <;>
    simp [JsonTemporal.validateTimedelta, PyTemporal.validateTimedelta, parsed, h, matched, Except.map]

example : ∃ sp : Speedate, ∃ b d, sp.parseDateTime b = none ∧ sp.parseDate b = some d ∧ d.year ≠ 0 ∧
    sp.parseTime [] = none ∧ sp.parseTime [1] = some midnight ∧ sp.parseDuration b = none :=
  ⟨⟨fun _ => some ⟨2020, 1, 2⟩, fun _ => none, fun b => if b = [] then none else some midnight, fun _ => none,
    fun _ _ => none, fun _ _ => none⟩, [], ⟨2020, 1, 2⟩, rfl, rfl, by decide, rfl, rfl, rfl⟩

/-- C46: an instance of a subclass of `timedelta` is compared by its `total_seconds()`: it is accepted iff the duration of that
many seconds meets each bound; the instance is returned. -/
theorem timedelta_subclass_bounds (mul : MulMillion) (c : DeltaBounds) (d : Delta) (f : F64) (du : Duration)
    (h : floatAsDuration mul f = some du) (ex : Exactness) (r : Delta) (e' : Exactness) :
    validateTimedelta mul (some c) (.ok (.sub d (some f), ex)) = .ok (r, e') ↔
      r = d ∧ e' = ex ∧ (∀ b, c.le = some b → du.signed ≤ b.signed) ∧
      (∀ b, c.lt = some b → du.signed < b.signed) ∧ (∀ b, c.ge = some b → b.signed ≤ du.signed) ∧
      (∀ b, c.gt = some b → b.signed < du.signed) := by
  simp only [validateTimedelta, EitherDelta.toPy, EitherDelta.toDuration, subclassToDuration, h]
  split
  · rename_i t ht
    constructor
    · intro e; cases e
    · rintro ⟨_, _, q1, q2, q3, q4⟩
      have hn : ((bound c.le (fun b => decide (du.signed ≤ b.signed)) "less_than_equal").or <|
            (bound c.lt (fun b => decide (du.signed < b.signed)) "less_than").or <|
            (bound c.ge (fun b => decide (du.signed ≥ b.signed)) "greater_than_equal").or <|
            (bound c.gt (fun b => decide (du.signed > b.signed)) "greater_than")) = none := by
        simp only [Option.or_eq_none_iff, bound_none, decide_eq_true_eq]
        exact ⟨q1, q2, q3, q4⟩
      rw [hn] at ht; cases ht
  · rename_i ht
    simp only [Option.or_eq_none_iff, bound_none, decide_eq_true_eq] at ht
    simp only [Except.ok.injEq, Prod.mk.injEq]
    constructor
    · rintro ⟨rfl, rfl⟩; exact ⟨rfl, rfl, ht.1, ht.2.1, ht.2.2.1, ht.2.2.2⟩
    · rintro ⟨rfl, rfl, _⟩; exact ⟨rfl, rfl⟩

example : floatAsDuration Demo.mul (.fin 3 1) = some ⟨true, 0, 1, 500000⟩ ∧
    validateTimedelta Demo.mul (some ⟨some ⟨true, 0, 2, 0⟩, none, none, none⟩)
      (.ok (.sub ⟨0, 1, 500000⟩ (some (.fin 3 1)), .strict)) = .ok (⟨0, 1, 500000⟩, .strict) := by decide

/-- C34: `TzInfo(seconds)` for a float: the seconds are truncated towards zero, and the offset is accepted exactly if what remains is
less than a day; `nan` is no offset, `inf` is refused.  What is missing: floats down from -2^31 (`tz_min_accepted`). -/
theorem tz_new_exact_partial (s : F64) (h : ∀ n k, s = .fin n k → -(2 ^ 31) < n.tdiv (2 ^ k)) (hi : s ≠ .negInf) (r : Int32) :
    tzNew s = some r ↔ -86400 < r.toInt ∧ r.toInt < 86400 ∧
      ((s = .nan ∧ r = 0) ∨ ∃ n k, s = .fin n k ∧ r.toInt = n.tdiv (2 ^ k)) := by
  cases s with
  | nan =>
    rw [tzNew, tz_in_range_partial 0 (by decide)]
    constructor
    · rintro ⟨rfl, _⟩; exact ⟨by decide, by decide, .inl ⟨rfl, rfl⟩⟩
    · rintro ⟨_, _, ⟨_, rfl⟩ | ⟨n, k, e, _⟩⟩
      · exact ⟨rfl, by decide, by decide⟩
      · cases e
  | posInf =>
    rw [tzNew, tz_in_range_partial _ (by decide)]
    constructor
    · rintro ⟨_, _, h2⟩; exact absurd h2 (by decide)
    · rintro ⟨_, _, ⟨e, _⟩ | ⟨n, k, e, _⟩⟩ <;> cases e
  | negInf => exact absurd rfl hi
  | fin n k =>
    have h1 := h n k rfl
    generalize hm : max (-(2 ^ 31)) (min (n.tdiv (2 ^ k)) (2 ^ 31 - 1)) = m
    have hm1 : -(2 ^ 31) < m := by omega
    have hm2 : m ≤ 2 ^ 31 - 1 := by omega
    have hto : (Int32.ofInt m).toInt = m := by
      rw [Int32.toInt_ofInt]
      apply Int.bmod_eq_of_le <;> simp only [Int32.size] <;> omega
    have hne : Int32.ofInt m ≠ Int32.minValue := by
      intro e
      rw [e] at hto
      have : Int32.minValue.toInt = -(2 ^ 31) := by decide
      omega
    rw [tzNew, hm, tz_in_range_partial _ hne, hto]
    constructor
    · rintro ⟨rfl, h2, h3⟩
      rw [hto]
      exact ⟨h2, h3, .inr ⟨n, k, rfl, by omega⟩⟩
    · rintro ⟨h2, h3, ⟨e, _⟩ | ⟨n', k', e, h4⟩⟩
      · cases e
      · cases e
        have : m = r.toInt := by omega
        refine ⟨?_, by omega, by omega⟩
        rw [this, Int32.ofInt_toInt]

example : tzNew (.fin (-7) 1) = some (-3) ∧ tzNew .posInf = none ∧ tzNew (.fin (86400 * 2 - 1) 1) = some 86399 := by decide

/-- Of a list of conditions, the first that does not hold comes with the error `e`. -/
def FirstFailing : List (Prop × String) → String → Prop
  | [], _ => False
  | (p, e) :: rest, t => (¬ p ∧ t = e) ∨ (p ∧ FirstFailing rest t)

/-- C46: which constraint is reported.  The constraints are tried in the order `le`, `lt`, `ge`, `gt`, `now_op`, `tz_constraint`,
and the error is that of the first one the value does not meet. -/
theorem constraint_error {α : Type} (nowErr : NowOp → String) (c : Constraints α) (cmp : α → α → Option Ordering)
    (tzOf : α → Option Int) (a : α) (t : ErrType) :
    c.check nowErr cmp tzOf a = some t ↔ ∃ s, t = .other s ∧ FirstFailing
      [(∀ b, c.le = some b → cmp a b = some .lt ∨ cmp a b = some .eq, "less_than_equal"),
       (∀ b, c.lt = some b → cmp a b = some .lt, "less_than"),
       (∀ b, c.ge = some b → cmp a b = some .gt ∨ cmp a b = some .eq, "greater_than_equal"),
       (∀ b, c.gt = some b → cmp a b = some .gt, "greater_than"),
       (∀ n, c.now = some (.past, n) → cmp a n = some .lt ∨ cmp a n = none, nowErr .past),
       (∀ n, c.now = some (.future, n) → cmp a n = some .gt ∨ cmp a n = none, nowErr .future),
       (∀ o, c.tz = some (.aware o) → tzOf a ≠ none, "timezone_aware"),
       (∀ o, c.tz = some (.aware (some o)) → tzOf a = some o, "timezone_offset"),
       (c.tz = some .naive → tzOf a = none, "timezone_naive")] s := by
  have hb : ∀ (o : Option α) (p : α → Bool) (e : String) (k : Option ErrType) (q : Prop) (rest : List (Prop × String)),
      (q ↔ ∀ b, o = some b → p b = true) →
      (k = some t ↔ ∃ s, t = .other s ∧ FirstFailing rest s) →
      ((bound o p e).or k = some t ↔ ∃ s, t = .other s ∧ FirstFailing ((q, e) :: rest) s) := by
    intro o p e k q rest hq hk
    by_cases h : ∀ b, o = some b → p b = true
    · rw [(bound_none o p e).2 h, Option.none_or, hk]
      have h' : q := hq.2 h
      simp only [FirstFailing, h', not_true_eq_false, false_and, false_or, true_and]
    · have he : bound o p e = some (.other e) := by
        cases o with
        | none => exact absurd (fun b hb => by cases hb) h
        | some b =>
          have : p b ≠ true := fun hp => h (fun b' hb => by injection hb with hb; exact hb ▸ hp)
          simp [bound, this]
      rw [he]
      simp only [Option.some_or, Option.some.injEq, FirstFailing, hq]
      constructor
      · rintro rfl; exact ⟨e, rfl, .inl ⟨h, rfl⟩⟩
      · rintro ⟨s, rfl, ⟨_, rfl⟩ | ⟨h', _⟩⟩
        · rfl
        · exact absurd h' h
  unfold Constraints.check
  refine hb _ _ _ _ _ _ (by simp [ordLe]) (hb _ _ _ _ _ _ (by simp) (hb _ _ _ _ _ _ (by simp [ordGe])
    (hb _ _ _ _ _ _ (by simp) ?_)))
  have htz : ((match c.tz with | none => none | some tz => tz.check (tzOf a)) = some t) ↔
      ∃ s, t = .other s ∧ FirstFailing
        [(∀ o, c.tz = some (.aware o) → tzOf a ≠ none, "timezone_aware"),
         (∀ o, c.tz = some (.aware (some o)) → tzOf a = some o, "timezone_offset"),
         (c.tz = some .naive → tzOf a = none, "timezone_naive")] s := by
    cases c.tz with
    | none => simp [FirstFailing]
    | some z =>
      cases z with
      | naive => cases tzOf a <;> simp [FirstFailing, TzConstraint.check, eq_comm]
      | aware o =>
        cases o with
        | none => cases tzOf a <;> simp [FirstFailing, TzConstraint.check, eq_comm]
        | some o =>
          cases ha : tzOf a with
          | none => simp [FirstFailing, TzConstraint.check, eq_comm]
          | some x =>
            by_cases ho : o = x
            · simp [FirstFailing, TzConstraint.check, ho]
            · simp [FirstFailing, TzConstraint.check, ho, eq_comm]
  have hnow : ∀ (k : Option ErrType) (rest : List (Prop × String)),
      (k = some t ↔ ∃ s, t = .other s ∧ FirstFailing rest s) →
      ((match c.now with
        | none => none
        | some (op, now) =>
          match cmp a now with
          | some o => if op.compare o then none else some (ErrType.other (nowErr op))
          | none => none).or k = some t ↔
        ∃ s, t = .other s ∧ FirstFailing
          ((∀ n, c.now = some (.past, n) → cmp a n = some .lt ∨ cmp a n = none, nowErr .past) ::
           (∀ n, c.now = some (.future, n) → cmp a n = some .gt ∨ cmp a n = none, nowErr .future) :: rest) s) := by
    intro k rest hk
    cases hn : c.now with
    | none => simp [FirstFailing, hk]
    | some p =>
      obtain ⟨op, n⟩ := p
      dsimp only
      cases hc : cmp a n with
      | none => cases op <;> simp [FirstFailing, hc, hk]
      | some o => cases op <;> cases o <;> simp [NowOp.compare, FirstFailing, hc, hk, eq_comm]
  exact hnow _ _ htz

example : ({ le := none, lt := none, ge := none, gt := some 2, now := some (.past, 4),
             tz := some (.aware (some 0)) } : Constraints Nat).check dateNowErr
    (fun a b => some (compare a b)) (fun _ => some 1) 4 = some (.other "date_past") := by decide

/-- C46: a date schema reports `date_past` and `date_future`, a datetime schema `datetime_past` and `datetime_future`. -/
theorem now_error (strict : Bool) (ex : Exactness) (op : NowOp) (x : Reader) :
    (∀ (cmp : Date → Date → Option Ordering) (d now : Date) (o : Ordering), x.date strict = .ok (.raw d, ex) →
      cmp d now = some o → op.compare o = false →
      validateDate strict (some ⟨none, none, none, none, some (op, now), none⟩) cmp x =
        .error (.line (.other (if op = .past then "date_past" else "date_future")))) ∧
    (∀ (cmp : DateTime → DateTime → Option Ordering) (d now : DateTime) (o : Ordering),
      x.datetime strict = .ok (.raw d, ex) → cmp d now = some o → op.compare o = false →
      validateDatetime strict (some ⟨none, none, none, none, some (op, now), none⟩) cmp x =
        .error (.line (.other (if op = .past then "datetime_past" else "datetime_future")))) := by
  constructor
  · intro cmp d now o h1 h2 h3
    cases op <;> simp [validateDate, h1, readOr, checkAll, Either.asRaw, Constraints.check, bound, h2, h3, dateNowErr]
  · intro cmp d now o h1 h2 h3
    cases op <;> simp [validateDatetime, h1, readOr, checkAll, Either.asRaw, Constraints.check, bound, h2, h3, datetimeNowErr]

example : (⟨fun _ => .ok (.raw ⟨2020, 1, 2⟩, .lax), fun _ => .error .internal⟩ : Reader).date false =
    .ok (.raw ⟨2020, 1, 2⟩, .lax) ∧ NowOp.compare .past .eq = false := ⟨rfl, rfl⟩

end PC.Time
