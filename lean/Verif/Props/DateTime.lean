import Verif.Spec.DateTime

/-
C32: timedelta conversion round-trips, integer seconds are exact.
C33: float timestamps keep their fractional part.
C34: time zone offsets.
C46: time zone and now constraints.
C62: dates and datetimes at midnight.
-/

namespace PC.Time
open PC.Num PC.Float

/-! ### C32 -/

theorem Delta.new_of_valid {d : Delta} (h : d.Valid) (a b c : Int)
    (ht : (a * 86400 + b) * 1000000 + c = d.total) : Delta.new a b c = some d := by
  obtain ⟨days, seconds, us⟩ := d
  unfold Delta.Valid at h
  unfold Delta.total at ht
  dsimp only at h ht
  have h1 : c % 1000000 = us := by omega
  have h2 : (b + c / 1000000) % 86400 = seconds := by omega
  have h3 : a + (b + c / 1000000) / 86400 = days := by omega
  unfold Delta.new
  simp only [h1, h2, h3]
  rw [if_neg (by omega)]

/-- The signed value of a duration is the total of the `timedelta` it came from, and the
conversion never panics. -/
theorem delta_to_duration_value (d : Delta) (h : d.Valid) :
    ∃ r, deltaToDuration d = some r ∧ r.signed = d.total ∧ r.day ≤ 999999999 ∧
      r.second < 86400 ∧ r.microsecond < 1000000 := by
  obtain ⟨days, seconds, us⟩ := d
  unfold Delta.Valid at h
  dsimp only at h
  by_cases hp : days ≥ 0
  · refine ⟨⟨true, days.toNat, seconds.toNat, us.toNat⟩, ?_, ?_, ?_⟩
    · simp only [deltaToDuration, Duration.new, hp, if_true]
      have h1 : us.toNat / 1000000 = 0 := by omega
      have h2 : seconds.toNat / 86400 = 0 := by omega
      have h3 : us.toNat % 1000000 = us.toNat := by omega
      have h4 : seconds.toNat % 86400 = seconds.toNat := by omega
      simp only [h1, Nat.add_zero, h2, h3, h4]
      rw [if_neg (by omega)]
    · simp only [Duration.signed, Delta.total, if_true]; omega
    · dsimp only; omega
  · have hnew : ∀ dd ss uu : Nat, dd ≤ 999999999 → ss < 86400 → uu < 1000000 →
        Duration.new false dd ss uu = some ⟨false, dd, ss, uu⟩ := by
      intro dd ss uu h1 h2 h3
      have e1 : uu / 1000000 = 0 := by omega
      have e2 : ss / 86400 = 0 := by omega
      have e3 : uu % 1000000 = uu := by omega
      have e4 : ss % 86400 = ss := by omega
      simp only [Duration.new, e1, Nat.add_zero, e2, e3, e4]
      rw [if_neg (by omega)]
    simp only [deltaToDuration, hp, if_false]
    by_cases hu : us ≠ 0
    · rw [if_pos hu]; dsimp only
      by_cases hs : seconds + 1 ≠ 0
      · rw [if_pos hs]; dsimp only
        rw [hnew _ _ _ (by omega) (by omega) (by omega)]
        exact ⟨_, rfl, by simp [Duration.signed, Delta.total]; omega, by dsimp only; omega, by dsimp only; omega, by dsimp only; omega⟩
      · omega
    · rw [if_neg hu]; dsimp only
      by_cases hs : seconds ≠ 0
      · rw [if_pos hs]; dsimp only
        rw [hnew _ _ _ (by omega) (by omega) (by omega)]
        exact ⟨_, rfl, by simp [Duration.signed, Delta.total]; omega, by dsimp only; omega, by dsimp only; omega, by dsimp only; omega⟩
      · rw [if_neg hs]; dsimp only
        rw [hnew _ _ _ (by omega) (by omega) (by omega)]
        exact ⟨_, rfl, by simp [Duration.signed, Delta.total]; omega, by dsimp only; omega, by dsimp only; omega, by dsimp only; omega⟩

/-- A duration becomes the `timedelta` of its signed value, whenever that value is one Python can
hold. -/
theorem duration_to_delta_value (r : Duration) (d : Delta) (h : d.Valid)
    (hr : r.signed = d.total) : durationToDelta r = some d := by
  unfold durationToDelta
  apply Delta.new_of_valid h
  rw [← hr]
  unfold Duration.signed
  cases r.positive <;> simp only [if_true, if_false, Bool.false_eq_true] <;> omega

/-- C32: every Python `timedelta`, positive or negative, survives the conversion to a duration and
back. -/
theorem timedelta_round_trip (d : Delta) (h : d.Valid) :
    (deltaToDuration d).bind durationToDelta = some d := by
  obtain ⟨r, h1, h2, _⟩ := delta_to_duration_value d h
  rw [h1]
  exact duration_to_delta_value r d h h2

example : Delta.Valid ⟨-1, 86399, 999999⟩ ∧ deltaToDuration ⟨-1, 86399, 999999⟩ = some ⟨false, 0, 0, 1⟩ := by
  unfold Delta.Valid; decide

/-- C32 for integers, full statement: an accepted 64-bit integer becomes that many seconds. -/
def IntSecondsExact : Prop :=
  ∀ n : Int, -(2 ^ 63) ≤ n → n < 2 ^ 63 → ∀ r, intAsDuration n = some r → r.signed = n * 1000000

/-- C32 for integers below 2^32 days in magnitude: an integer is accepted iff it is less than
10^9 days in magnitude, and becomes exactly that many seconds.  What is missing: larger integers,
whose day count wraps around. -/
theorem int_seconds_exact_partial (n : Int) (hn : n.natAbs < 86400 * 2 ^ 32) :
    (n.natAbs < 86400 * 1000000000 →
      ∃ r, intAsDuration n = some r ∧ r.signed = n * 1000000) ∧
    (86400 * 1000000000 ≤ n.natAbs → intAsDuration n = none) := by
  have h1 : n.natAbs / 86400 < 2 ^ 32 := by omega
  have e1 : asU32 (n.natAbs / 86400) = n.natAbs / 86400 := Nat.mod_eq_of_lt h1
  have e2 : asU32 (n.natAbs % 86400) = n.natAbs % 86400 := Nat.mod_eq_of_lt (by omega)
  have e3 : n.natAbs % 86400 / 86400 = 0 := by omega
  have e4 : n.natAbs % 86400 % 86400 = n.natAbs % 86400 := by omega
  constructor
  · intro h
    simp only [intAsDuration, Duration.new, e1, e2, Nat.zero_div, Nat.add_zero, Nat.zero_mod, e3,
      e4]
    rw [if_neg (by omega)]
    refine ⟨_, rfl, ?_⟩
    unfold Duration.signed
    by_cases hp : n ≥ 0
    · simp only [hp, decide_true, if_true]; omega
    · simp only [hp, decide_false, Bool.false_eq_true, if_false]; omega
  · intro h
    simp only [intAsDuration, Duration.new, e1, e2, Nat.zero_div, Nat.add_zero, Nat.zero_mod, e3,
      e4]
    rw [if_pos (by omega)]

example : intAsDuration (-90061) = some ⟨false, 1, 3661, 0⟩ := by decide

/-- C32 fails for integers: 2^32 days are accepted as no time at all. -/
theorem int_seconds_wrap : intAsDuration (86400 * 2 ^ 32) = some ⟨true, 0, 0, 0⟩ := by decide

theorem not_int_seconds_exact : ¬ IntSecondsExact := by
  intro h
  have := h (86400 * 2 ^ 32) (by decide) (by decide) _ int_seconds_wrap
  exact absurd this (by decide)

/-- C32 for floats: an accepted float becomes a duration within one microsecond of it, and it is
accepted if it is less than 10^9 days (by a second at least) in magnitude. -/
theorem float_seconds_near (mul : MulMillion) (hm : mul.Good) (num : Int) (k : Nat) :
    (∀ r, floatAsDuration mul (.fin num k) = some r → Near r.signed num k) ∧
    (num.natAbs / 2 ^ k < 86400 * 1000000000 - 1 → (floatAsDuration mul (.fin num k)).isSome) := by
  have hpow : 0 < 2 ^ k := Nat.two_pow_pos k
  have hmod : num.natAbs % 2 ^ k < 2 ^ k := Nat.mod_lt _ hpow
  obtain ⟨g1, g2⟩ := hm _ _ hmod
  generalize hu : mul (num.natAbs % 2 ^ k) k = us at g1 g2
  have hus : us ≤ 1000000 := by
    have h1 : us * 2 ^ k < 1000001 * 2 ^ k := by
      have : 1000000 * (num.natAbs % 2 ^ k) + 2 ^ k ≤ 1000000 * 2 ^ k + 2 ^ k := by omega
      omega
    have := Nat.lt_of_mul_lt_mul_right h1
    omega
  have hdiv := Nat.div_add_mod num.natAbs (2 ^ k)
  generalize hw : num.natAbs / 2 ^ k = w at hdiv
  generalize hf : num.natAbs % 2 ^ k = f at *
  have hwc : 2 ^ k * w = w * 2 ^ k := Nat.mul_comm _ _
  simp only [floatAsDuration, hu, hw, hf, Duration.new, satU32]
  constructor
  · intro r hr
    split at hr
    · cases hr
    · rename_i hnot
      injection hr with hr
      subst hr
      have hsat : min (w / 86400) (2 ^ 32 - 1) = w / 86400 := by omega
      simp only [hsat]
      have hval : (((w / 86400 + (w % 86400 + us / 1000000) / 86400 : Nat) : Int) * 86400 +
          ((w % 86400 + us / 1000000) % 86400 : Nat)) * 1000000 + (us % 1000000 : Nat) =
          w * 1000000 + us := by omega
      unfold Near Duration.signed
      dsimp only
      rw [hval]
      have hp : ((2 ^ k : Nat) : Int) = 2 ^ k := by simp
      have q1 : ((us * 2 ^ k : Nat) : Int) < ((1000000 * f + 2 ^ k : Nat) : Int) := by exact_mod_cast g1
      have q2 : ((1000000 * f : Nat) : Int) < ((us * 2 ^ k + 2 ^ k : Nat) : Int) := by exact_mod_cast g2
      have q3 : ((w * 2 ^ k + f : Nat) : Int) = (num.natAbs : Int) := by
        exact_mod_cast (by omega : w * 2 ^ k + f = num.natAbs)
      simp only [Int.natCast_add, Int.natCast_mul, hp] at q1 q2 q3
      generalize (2 : Int) ^ k = P at *
      generalize hU : (us : Int) * P = U at *
      generalize hW : (w : Int) * P = W at *
      have hexp : ((w : Int) * 1000000 + us) * P = W * 1000000 + U := by
        rw [Int.add_mul, hU, Int.mul_right_comm, hW]
      by_cases hpos : num ≥ 0
      · simp only [hpos, decide_true, if_true, Int.one_mul, hexp]
        have : (num.natAbs : Int) = num := by omega
        omega
      · simp only [hpos, decide_false, Bool.false_eq_true, if_false, Int.neg_mul, Int.one_mul, hexp]
        have : (num.natAbs : Int) = -num := by omega
        omega
  · intro h
    rw [if_neg (by omega)]
    rfl

/-! ### C33 -/

/-- C33, full statement: a float timestamp of moderate size becomes an instant within one
microsecond of it. -/
def FloatTimestampNear (sp : Speedate) (mul : MulMillion) (instant : DateTime → Int) : Prop :=
  ∀ num k dt, (num.natAbs ≤ 20000000000 * 2 ^ k) →
    floatAsDatetime sp mul (.fin num k) = .ok (.raw dt) → Near (instant dt) num k

/-- C33 for timestamps that are not negative, or whole.  What is missing: negative timestamps with
a fraction, see `negative_timestamp_wrong`. -/
theorem float_timestamp_near_partial (sp : Speedate) (mul : MulMillion) (hm : mul.Good)
    (instant : DateTime → Int) (hi : sp.Counts instant) (num : Int) (k : Nat)
    (hn : 0 ≤ num ∨ num % 2 ^ k = 0) (hsize : num.natAbs ≤ 20000000000 * 2 ^ k) (dt : DateTime)
    (h : floatAsDatetime sp mul (.fin num k) = .ok (.raw dt)) : Near (instant dt) num k := by
  have hpow : 0 < 2 ^ k := Nat.two_pow_pos k
  have hp : ((2 ^ k : Nat) : Int) = 2 ^ k := by simp
  have hpI : (0 : Int) < 2 ^ k := by rw [← hp]; exact_mod_cast hpow
  have hmod : num.natAbs % 2 ^ k < 2 ^ k := Nat.mod_lt _ hpow
  obtain ⟨g1, g2⟩ := hm _ _ hmod
  have hdm := Int.mul_ediv_add_emod num (2 ^ k)
  have hfrac : ((num.natAbs % 2 ^ k : Nat) : Int) = num % 2 ^ k := by
    rcases hn with hn | hn
    · rw [Int.natCast_emod, hp, Int.natAbs_of_nonneg hn]
    · rw [hn]
      have : (2 ^ k : Nat) ∣ num.natAbs := by
        apply Int.ofNat_dvd_left.1
        rw [hp]
        exact Int.dvd_of_emod_eq_zero hn
      rw [Nat.mod_eq_zero_of_dvd this]; rfl
  have hub : num / 2 ^ k ≤ 20000000000 := by
    apply Int.ediv_le_of_le_mul hpI
    have : ((num.natAbs : Nat) : Int) ≤ ((20000000000 * 2 ^ k : Nat) : Int) := by exact_mod_cast hsize
    rw [Int.natCast_mul, hp] at this
    have h2 : num ≤ (num.natAbs : Int) := by omega
    exact Int.le_trans h2 this
  have hlb : -20000000000 ≤ num / 2 ^ k := by
    rw [Int.le_ediv_iff_mul_le hpI]
    have : ((num.natAbs : Nat) : Int) ≤ ((20000000000 * 2 ^ k : Nat) : Int) := by exact_mod_cast hsize
    rw [Int.natCast_mul, hp] at this
    have h2 : -num ≤ (num.natAbs : Int) := by omega
    rw [Int.neg_mul]
    omega
  have hsat : satI64 (num / 2 ^ k) = num / 2 ^ k := by unfold satI64; omega
  simp only [floatAsDatetime, intAsDatetime, hsat] at h
  generalize hus : mul (num.natAbs % 2 ^ k) k = us at *
  cases hf : sp.fromTimestamp (num / 2 ^ k) us with
  | none => rw [hf] at h; cases h
  | some dt' =>
    rw [hf] at h
    injection h with h
    injection h with h
    subst h
    have hins := hi _ _ _ hlb hub hf
    unfold Near
    rw [hins]
    have q1 : ((us * 2 ^ k : Nat) : Int) < ((1000000 * (num.natAbs % 2 ^ k) + 2 ^ k : Nat) : Int) := by
      exact_mod_cast g1
    have q2 : ((1000000 * (num.natAbs % 2 ^ k) : Nat) : Int) < ((us * 2 ^ k + 2 ^ k : Nat) : Int) := by
      exact_mod_cast g2
    simp only [Int.natCast_add, Int.natCast_mul, hp, hfrac] at q1 q2
    generalize num / 2 ^ k = w at *
    generalize num % 2 ^ k = f at *
    have hexp : (w * 1000000 + (us : Int)) * 2 ^ k = 2 ^ k * w * 1000000 + us * 2 ^ k := by
      rw [Int.add_mul, Int.mul_right_comm, Int.mul_comm w (2 ^ k)]
    rw [hexp]
    generalize (2 : Int) ^ k * w = W at *
    generalize (us : Int) * 2 ^ k = U at *
    omega

namespace Demo

/-- Round to the nearest microsecond, halves up. -/
def mul : MulMillion := fun n k => (2000000 * n + 2 ^ k) / (2 * 2 ^ k)

theorem mul_good : mul.Good := by
  intro n k _
  have hp : 0 < 2 ^ k := Nat.two_pow_pos k
  unfold mul
  generalize 2 ^ k = P at *
  have h1 := Nat.div_add_mod (2000000 * n + P) (2 * P)
  have h2 := Nat.mod_lt (2000000 * n + P) (show 0 < 2 * P by omega)
  generalize (2000000 * n + P) / (2 * P) = q at *
  generalize (2000000 * n + P) % (2 * P) = r at *
  have h3 : 2 * P * q = 2 * (q * P) := by rw [Nat.mul_assoc, Nat.mul_comm P q]
  rw [h3] at h1
  generalize q * P = Q at *
  omega

/-- A calendar with nothing but seconds: the "year" holds the second (shifted to be natural) and
the microsecond field the rest. -/
def sp : Speedate where
  parseDate _ := some ⟨2020, 1, 2⟩
  parseDateTime _ := some ⟨⟨2020, 1, 2⟩, midnight⟩
  parseTime _ := none
  parseDuration _ := none
  fromTimestamp s us := some ⟨⟨(s + 10 ^ 20).toNat, 1, 1⟩, ⟨0, 0, 0, us, some 0⟩⟩
  timeFromTimestamp _ _ := none

/-- The instant of a datetime of this calendar. -/
def instant (dt : DateTime) : Int := (dt.date.year - 10 ^ 20) * 1000000 + dt.time.microsecond

theorem sp_counts : sp.Counts instant := by
  intro s us dt h1 h2 h
  injection h with h
  subst h
  simp only [instant]
  omega

end Demo

example : ∃ dt, floatAsDatetime Demo.sp Demo.mul (.fin 5 2) = .ok (.raw dt) ∧
    Demo.instant dt = 1250000 := ⟨_, rfl, by decide⟩

/-- C33 fails for negative fractions: whatever the calendar and however the product is rounded,
-1.25 becomes the instant at -1.75 seconds. -/
theorem negative_timestamp_wrong (sp : Speedate) (mul : MulMillion) (hm : mul.Good)
    (instant : DateTime → Int) (hi : sp.Counts instant) (dt : DateTime)
    (h : floatAsDatetime sp mul (.fin (-5) 2) = .ok (.raw dt)) : instant dt = -1750000 := by
  obtain ⟨g1, g2⟩ := hm 1 2 (by decide)
  have hus : mul 1 2 = 250000 := by omega
  have e1 : satI64 (-5 / 2 ^ 2) = -2 := by decide
  have e2 : (-5 : Int).natAbs % 2 ^ 2 = 1 := by decide
  simp only [floatAsDatetime, intAsDatetime, e1, e2, hus] at h
  cases hf : sp.fromTimestamp (-2) 250000 with
  | none => rw [hf] at h; cases h
  | some dt' =>
    rw [hf] at h
    injection h with h
    injection h with h
    subst h
    rw [hi _ _ _ (by decide) (by decide) hf]
    decide

theorem not_float_timestamp_near : ¬ FloatTimestampNear Demo.sp Demo.mul Demo.instant := by
  intro h
  have h1 := h (-5) 2 _ (by decide) rfl
  have h2 := negative_timestamp_wrong Demo.sp Demo.mul Demo.mul_good Demo.instant Demo.sp_counts _ rfl
  rw [h2] at h1
  exact absurd h1.2 (by decide)

/-! ### C34 -/

/-- C34, full statement: the offset of every constructed `TzInfo` is less than a day. -/
def TzInRange : Prop := ∀ f s, tzNew f = some s → -86400 < s.toInt ∧ s.toInt < 86400

theorem wrapAbs_toInt (s : Int32) (h : s ≠ Int32.minValue) : (wrapAbs s).toInt = s.toInt.natAbs := by
  have hlo : -2147483648 ≤ s.toInt := Int32.le_toInt s
  have hne : s.toInt ≠ -2147483648 := by
    intro e
    apply h
    apply Int32.toInt_inj.1
    rw [e]; rfl
  unfold wrapAbs
  by_cases hs : s < 0
  · rw [if_pos hs]
    have hs' : s.toInt < 0 := by
      have := Int32.lt_iff_toInt_lt.1 hs
      simpa using this
    rw [Int32.toInt_neg]
    have hhi := Int32.toInt_le s
    rw [Int.bmod_eq_of_le] <;> omega
  · rw [if_neg hs]
    have hs' : ¬ s.toInt < 0 := by
      intro e
      apply hs
      apply Int32.lt_iff_toInt_lt.2
      simpa using e
    omega

/-- C34 for every 32-bit offset but the smallest: it is accepted iff it is less than a day, and
kept.  What is missing: the smallest one, see `tz_min_accepted`. -/
theorem tz_in_range_partial (s : Int32) (h : s ≠ Int32.minValue) (r : Int32) :
    tzTryFrom s = some r ↔ r = s ∧ -86400 < s.toInt ∧ s.toInt < 86400 := by
  have hw := wrapAbs_toInt s h
  have hge : wrapAbs s ≥ 86400 ↔ (86400 : Int) ≤ s.toInt.natAbs := by
    rw [← hw]
    have := @Int32.le_iff_toInt_le 86400 (wrapAbs s)
    have h2 : (86400 : Int32).toInt = 86400 := by decide
    rw [h2] at this
    exact this
  unfold tzTryFrom
  by_cases hb : wrapAbs s ≥ 86400
  · rw [if_pos hb]
    have := hge.1 hb
    constructor
    · intro e; cases e
    · rintro ⟨_, h1, h2⟩; omega
  · rw [if_neg hb]
    have : ¬ (86400 : Int) ≤ s.toInt.natAbs := fun e => hb (hge.2 e)
    constructor
    · intro e; injection e with e; exact ⟨e.symm, by omega, by omega⟩
    · rintro ⟨rfl, _⟩; rfl

example : tzTryFrom (-86399) = some (-86399) ∧ tzTryFrom 86400 = none := by decide

/-- C34 fails for the smallest 32-bit integer: in release builds its absolute value overflows, and
the offset (of about 68 years) is accepted; `TzInfo(-1e20)` or `TzInfo(-inf)` get there. -/
theorem tz_min_accepted : tzNew .negInf = some Int32.minValue ∧
    tzNew (.fin (-(10 ^ 20)) 0) = some Int32.minValue := by decide

theorem not_tz_in_range : ¬ TzInRange := by
  intro h
  have := h _ _ tz_min_accepted.1
  exact absurd this.1 (by decide)

/-- Reading a decimal digit. -/
def digit (c : Char) : Int := (c.toNat : Int) - 48

/-- Reading the string form of an offset. -/
def readTz : List Char → Int
  | s :: a :: b :: _ :: c :: d :: rest =>
    let sign : Int := if s = '+' then 1 else -1
    let secs : Int :=
      match rest with
      | _ :: e :: f :: _ => digit e * 10 + digit f
      | _ => 0
    sign * ((digit a * 10 + digit b) * 3600 + (digit c * 10 + digit d) * 60 + secs)
  | _ => 0

theorem pad2_eq (n : Nat) (h : n < 100) :
    pad2 n = [Nat.digitChar (n / 10), Nat.digitChar (n % 10)] := by
  unfold pad2
  by_cases h1 : n < 10
  · rw [if_pos h1, Nat.toDigits_of_lt_base h1]
    rw [Nat.div_eq_of_lt h1, Nat.mod_eq_of_lt h1]
    rfl
  · rw [if_neg h1]
    rw [Nat.toDigits_of_base_le (by omega) (by omega)]
    rw [Nat.toDigits_of_lt_base (by omega)]
    rfl

theorem digit_digitChar (n : Nat) (h : n < 10) : digit (Nat.digitChar n) = n := by
  have : ∀ m : Fin 10, digit (Nat.digitChar m) = (m : Nat) := by decide
  exact this ⟨n, h⟩

theorem pad2_read (n : Nat) (h : n < 100) :
    digit (Nat.digitChar (n / 10)) * 10 + digit (Nat.digitChar (n % 10)) = n := by
  rw [digit_digitChar _ (by omega), digit_digitChar _ (by omega)]
  omega

/-- C34: the string form of an offset in range determines it: reading it gives the offset back. -/
theorem tz_str_faithful (s : Int) (h : -86400 < s ∧ s < 86400) : readTz (tzStr s) = s := by
  unfold tzStr
  by_cases h0 : s = 0
  · rw [if_pos h0, h0]; rfl
  · rw [if_neg h0]
    have t1 : ((s.tdiv 60).tdiv 60).natAbs = s.natAbs / 3600 := by
      simp only [Int.natAbs_tdiv]
      show s.natAbs / 60 / 60 = _
      omega
    have t2 : ((s.tdiv 60).tmod 60).natAbs = s.natAbs / 60 % 60 := by
      simp only [Int.natAbs_tmod, Int.natAbs_tdiv]; rfl
    have t3 : (s.tmod 60).natAbs = s.natAbs % 60 := by
      simp only [Int.natAbs_tmod]; rfl
    simp only [t1, t2, t3]
    rw [pad2_eq _ (by omega), pad2_eq (s.natAbs / 60 % 60) (by omega)]
    have r1 := pad2_read (s.natAbs / 3600) (by omega)
    have r2 := pad2_read (s.natAbs / 60 % 60) (by omega)
    by_cases hz : s.tmod 60 ≠ 0
    · have r3 := pad2_read (s.natAbs % 60) (by omega)
      rw [if_pos hz, pad2_eq _ (by omega)]
      by_cases hs : s ≥ 0
      · simp only [if_pos hs, List.cons_append, List.nil_append, readTz, r1, r2, r3, if_true]
        omega
      · have hne : ¬ ('-' = '+') := by decide
        simp only [if_neg hs, List.cons_append, List.nil_append, readTz, r1, r2, r3, if_neg hne]
        omega
    · have hz' : s.natAbs % 60 = 0 := by rw [← t3]; omega
      rw [if_neg hz]
      by_cases hs : s ≥ 0
      · simp only [if_pos hs, List.cons_append, List.nil_append, readTz, r1, r2, if_true]
        omega
      · have hne : ¬ ('-' = '+') := by decide
        simp only [if_neg hs, List.cons_append, List.nil_append, readTz, r1, r2, if_neg hne]
        omega

/-- C34: distinct offsets in range have distinct string forms. -/
theorem tz_str_injective (s t : Int) (hs : -86400 < s ∧ s < 86400) (ht : -86400 < t ∧ t < 86400)
    (h : tzStr s = tzStr t) : s = t := by
  rw [← tz_str_faithful s hs, ← tz_str_faithful t ht, h]

example : tzStr (-19800) = "-05:30".toList ∧ tzStr 3661 = "+01:01:01".toList ∧
    tzStr (-1) = "-00:00:01".toList ∧ readTz "-05:30".toList = -19800 := by decide

/-- C34: `utcoffset` is a `timedelta` of exactly the offset. -/
theorem tz_utcoffset (s : Int) (h : -86400 < s ∧ s < 86400) :
    ∃ d, tzUtcoffset s = some d ∧ d.Valid ∧ d.total = s * 1000000 := by
  unfold tzUtcoffset Delta.new
  simp only [Int.zero_ediv, Int.add_zero, Int.zero_emod, Int.zero_add]
  rw [if_neg (by omega)]
  refine ⟨_, rfl, ?_, ?_⟩
  · unfold Delta.Valid; dsimp only; omega
  · unfold Delta.total; dsimp only; omega

/-- C34: two `TzInfo` compare as their offsets do. -/
theorem tz_cmp (s t : Int) : tzCmp s (some (t * 1000000)) = some (compare s t) := by
  unfold tzCmp
  by_cases h : t * 1000000 ≥ 0
  · simp only [if_pos h]
    have : (t * 1000000 + 500000) / 1000000 = t := by omega
    rw [this]
  · simp only [if_neg h]
    have : -((-(t * 1000000) + 500000) / 1000000) = t := by omega
    rw [this]

example : tzCmp 3600 (some (3600 * 1000000)) = some .eq := by decide

/-- **C34.** A timezone of this library equals another exactly if their offsets agree when that of the other is
rounded to a whole second, halves away from zero. -/
theorem tz_eq_iff (s us : Int) :
    tzCmp s (some us) = some .eq ↔ 2 * (us - s * 1000000).natAbs < 1000000 ∨
      (0 < s ∧ us = s * 1000000 - 500000) ∨ (s < 0 ∧ us = s * 1000000 + 500000) := by
  unfold tzCmp
  simp only [Option.some.injEq]
  rw [Int.compare_eq_eq]
  split <;> omega

example : tzCmp 1 (some 500000) = some .eq ∧ tzCmp 1 (some 1500000) = some .lt := by decide

/-- **C34 fails.** Equality of timezones is not transitive: two different offsets within a second are equal to the
same timezone of this library, so that no hash can agree with it. -/
theorem tz_eq_not_transitive (s : Int) :
    ∃ us vs : Int, us ≠ vs ∧ tzCmp s (some us) = some .eq ∧ tzCmp s (some vs) = some .eq :=
  ⟨s * 1000000, s * 1000000 + 1, by omega, (tz_eq_iff s _).2 (Or.inl (by omega)), (tz_eq_iff s _).2 (Or.inl (by omega))⟩

/-! ### C46 -/

/-- C46: a time zone constraint accepts exactly what it asks for. -/
theorem tz_check_exact (c : TzConstraint) (tz : Option Int) : c.check tz = none ↔ c.Allows tz := by
  cases c with
  | naive => cases tz <;> simp [TzConstraint.check, TzConstraint.Allows]
  | aware o =>
    cases o with
    | none => cases tz <;> simp [TzConstraint.check, TzConstraint.Allows]
    | some e =>
      cases tz with
      | none => simp [TzConstraint.check, TzConstraint.Allows]
      | some a => simp [TzConstraint.check, TzConstraint.Allows, eq_comm]

theorem bound_none {α : Type} (c : Option α) (p : α → Bool) (err : String) :
    bound c p err = none ↔ ∀ b, c = some b → p b = true := by
  cases c with
  | none => simp [bound]
  | some b => simp [bound]

/-- C46: constraints on dates, times and datetimes accept exactly the values that meet them,
whatever the order (so also when a naive and an aware value are incomparable). -/
theorem constraints_exact {α : Type} (nowErr : NowOp → String) (c : Constraints α) (cmp : α → α → Option Ordering)
    (tzOf : α → Option Int) (a : α) : c.check nowErr cmp tzOf a = none ↔ c.Holds cmp tzOf a := by
  unfold Constraints.check
  simp only [Option.or_eq_none_iff, bound_none]
  constructor
  · rintro ⟨h1, h2, h3, h4, h5, h6⟩
    refine ⟨?_, ?_, ?_, ?_, ?_, ?_, ?_⟩
    · intro b hb; simpa [ordLe] using h1 b hb
    · intro b hb; simpa using h2 b hb
    · intro b hb; simpa [ordGe] using h3 b hb
    · intro b hb; simpa using h4 b hb
    · intro n hn
      rw [hn] at h5
      dsimp only at h5
      cases hc : cmp a n with
      | none => exact .inr rfl
      | some o => rw [hc] at h5; cases o <;> simp_all [NowOp.compare]
    · intro n hn
      rw [hn] at h5
      dsimp only at h5
      cases hc : cmp a n with
      | none => exact .inr rfl
      | some o => rw [hc] at h5; cases o <;> simp_all [NowOp.compare]
    · intro t ht
      rw [ht] at h6
      exact (tz_check_exact _ _).1 h6
  · intro h
    refine ⟨?_, ?_, ?_, ?_, ?_, ?_⟩
    · intro b hb; simpa [ordLe] using h.le b hb
    · intro b hb; simpa using h.lt b hb
    · intro b hb; simpa [ordGe] using h.ge b hb
    · intro b hb; simpa using h.gt b hb
    · cases hn : c.now with
      | none => rfl
      | some p =>
        obtain ⟨op, n⟩ := p
        dsimp only
        cases op with
        | past => rcases h.past n hn with e | e <;> simp [e, NowOp.compare]
        | future => rcases h.future n hn with e | e <;> simp [e, NowOp.compare]
    · cases ht : c.tz with
      | none => rfl
      | some t => exact (tz_check_exact _ _).2 (h.tz t ht)

example : ({ le := some 5, lt := none, ge := none, gt := some 2, now := some (.past, 4),
             tz := some (.aware (some 0)) } : Constraints Nat).check datetimeNowErr
    (fun a b => some (compare a b)) (fun _ => some 0) 3 = none := by decide

/-- C46: `now_op` accepts neither the present instant nor, for `past`, a later one; for `future`,
an earlier one. -/
theorem now_op_exact (op : NowOp) (o : Ordering) :
    op.compare o = true ↔ (op = .past ∧ o = .lt) ∨ (op = .future ∧ o = .gt) := by
  cases op <;> cases o <;> simp [NowOp.compare]

/-- C46 for the whole datetime validator: an input read as `d` is accepted iff its value meets the
constraints and its year exists; the value returned is the one read. -/
theorem datetime_accepts_iff (strict : Bool) (c : Constraints DateTime)
    (cmp : DateTime → DateTime → Option Ordering) (x : Reader) (d : Either DateTime) (ex : Exactness)
    (h : x.datetime strict = .ok (d, ex)) (r : Either DateTime) (e' : Exactness) :
    validateDatetime strict (some c) cmp x = .ok (r, e') ↔
      r = d ∧ e' = ex ∧ (∃ a, d.asRaw = some a ∧ c.Holds cmp (fun dt => dt.time.tzOffset) a) ∧
      (∀ a, d = .raw a → a.date.year ≠ 0) := by
  unfold validateDatetime
  rw [h]
  simp only [readOr, checkAll]
  cases hr : d.asRaw with
  | none => simp
  | some a =>
    dsimp only
    cases hc : c.check datetimeNowErr cmp (fun dt => dt.time.tzOffset) a with
    | some t =>
      have : ¬ c.Holds cmp (fun dt => dt.time.tzOffset) a := by
        intro hh; rw [(constraints_exact _ _ _ _ _).2 hh] at hc; cases hc
      simp [this]
    | none =>
      have hh := (constraints_exact _ _ _ _ _).1 hc
      cases d with
      | py o => simp [tryIntoPy, matched, Except.map, hh, eq_comm]
      | raw b =>
        by_cases hy : b.date.year = 0
        · simp [tryIntoPy, matched, Except.map, hy]
        · simp [tryIntoPy, matched, Except.map, hy, hh, eq_comm]

/-- C46 for timedelta bounds: an exact Python `timedelta` is accepted iff its value meets each
bound (bounds that are themselves valid durations), and is returned unchanged. -/
theorem timedelta_bounds_exact (mul : MulMillion) (c : DeltaBounds) (d : Delta) (h : d.Valid)
    (ex : Exactness) (r : Delta) (e' : Exactness) :
    validateTimedelta mul (some c) (.ok (.exact d, ex)) = .ok (r, e') ↔
      r = d ∧ e' = ex ∧ (∀ b, c.le = some b → d.total ≤ b.signed) ∧
      (∀ b, c.lt = some b → d.total < b.signed) ∧ (∀ b, c.ge = some b → b.signed ≤ d.total) ∧
      (∀ b, c.gt = some b → b.signed < d.total) := by
  obtain ⟨du, h1, h2, _⟩ := delta_to_duration_value d h
  simp only [validateTimedelta, EitherDelta.toPy, EitherDelta.toDuration, h1, h2]
  split
  · rename_i t ht
    constructor
    · intro e; cases e
    · rintro ⟨_, _, q1, q2, q3, q4⟩
      have hn : ((bound c.le (fun b => decide (d.total ≤ b.signed)) "less_than_equal").or <|
            (bound c.lt (fun b => decide (d.total < b.signed)) "less_than").or <|
            (bound c.ge (fun b => decide (d.total ≥ b.signed)) "greater_than_equal").or <|
            (bound c.gt (fun b => decide (d.total > b.signed)) "greater_than")) = none := by
        simp only [Option.or_eq_none_iff, bound_none, decide_eq_true_eq]
        exact ⟨q1, q2, q3, q4⟩
      rw [hn] at ht; cases ht
  · rename_i ht
    simp only [Option.or_eq_none_iff, bound_none, decide_eq_true_eq] at ht
    simp only [Except.ok.injEq, Prod.mk.injEq]
    constructor
    · rintro ⟨rfl, rfl⟩; exact ⟨rfl, rfl, ht.1, ht.2.1, ht.2.2.1, ht.2.2.2⟩
    · rintro ⟨rfl, rfl, _⟩; exact ⟨rfl, rfl⟩

example : validateTimedelta Demo.mul (some ⟨some ⟨true, 0, 0, 0⟩, none, none, none⟩)
    (.ok (.exact ⟨-1, 86399, 999999⟩, .exact)) = .ok (⟨-1, 86399, 999999⟩, .exact) := by decide

/-! ### C62: dates and datetimes -/

/-- The readers of a Python object. -/
def PyTemporal.reader (sp : Speedate) (mul : MulMillion) (x : PyTemporal) : Reader where
  date := fun s => x.validateDate sp s
  datetime := fun s => x.validateDatetime sp mul s

/-- The readers of a JSON value. -/
def JsonTemporal.reader (sp : Speedate) (mul : MulMillion) (x : JsonTemporal) : Reader where
  date := fun s => x.validateDate sp s
  datetime := fun s => x.validateDatetime sp mul s

/-- C62: a datetime object is accepted as a date exactly in lax mode and at midnight (in whatever
zone), and then gives its own date. -/
theorem date_of_datetime (sp : Speedate) (mul : MulMillion)
    (cmp : Date → Date → Option Ordering) (strict exact : Bool) (o : PyRef DateTime) (dt : DateTime)
    (ho : o.raw = some dt) (hy : dt.date.year ≠ 0) (ix : Option Int) (fl : Option F64)
    (r : Either Date) :
    (∃ e, validateDate strict none cmp (PyTemporal.reader sp mul ⟨.datetime exact o, ix, fl⟩)
        = .ok (r, e)) ↔
      strict = false ∧ dt.time.IsMidnight ∧ r = .raw dt.date := by
  have hmid : dt.time = { midnight with tzOffset := dt.time.tzOffset } ↔ dt.time.IsMidnight := by
    obtain ⟨d, ⟨h, m, s, u, tz⟩⟩ := dt
    simp [midnight, Time.IsMidnight]
  have hd : PyTemporal.validateDate sp strict ⟨.datetime exact o, ix, fl⟩
      = .error (.line (.other "date_type")) := by cases exact <;> rfl
  have hdt : ∃ ex, PyTemporal.validateDatetime sp mul false ⟨.datetime exact o, ix, fl⟩
      = .ok (.py o, ex) := by cases exact <;> exact ⟨_, rfl⟩
  obtain ⟨ex, hdt⟩ := hdt
  cases strict with
  | true => simp [validateDate, PyTemporal.reader, hd, readOr]
  | false =>
    by_cases hm : dt.time.IsMidnight
    · have := hmid.2 hm
      simp only [validateDate, PyTemporal.reader, hd, readOr, dateFromDatetime, hdt, Either.asRaw, ho,
        if_pos this, checkAll, tryIntoPy, if_neg hy, matched, Except.map, Bool.false_eq_true,
        if_false]
      constructor
      · rintro ⟨e, he⟩
        injection he with he
        injection he with he _
        exact ⟨trivial, hm, he.symm⟩
      · rintro ⟨_, _, rfl⟩; exact ⟨_, rfl⟩
    · have hne : ¬ dt.time = { midnight with tzOffset := dt.time.tzOffset } := fun e => hm (hmid.1 e)
      simp only [validateDate, PyTemporal.reader, hd, readOr, dateFromDatetime, hdt, Either.asRaw, ho,
        if_neg hne, Bool.false_eq_true, if_false]
      constructor
      · rintro ⟨e, he⟩; cases he
      · rintro ⟨_, h, _⟩; exact absurd h hm

/-- C62: a date object (that is no number) is accepted as a datetime exactly in lax mode, as
midnight of that day without a time zone. -/
theorem datetime_of_date (sp : Speedate) (mul : MulMillion)
    (cmp : DateTime → DateTime → Option Ordering) (strict exact : Bool) (o : PyRef Date) (d : Date)
    (ho : o.raw = some d) (hy : d.year ≠ 0) (r : Either DateTime) :
    (∃ e, validateDatetime strict none cmp (PyTemporal.reader sp mul ⟨.date exact o, none, none⟩)
        = .ok (r, e)) ↔ strict = false ∧ r = .raw ⟨d, midnight⟩ := by
  cases strict with
  | true =>
    cases exact <;>
      simp [validateDatetime, PyTemporal.reader, readOr, PyTemporal.validateDatetime]
  | false =>
    have hdt : PyTemporal.validateDatetime sp mul false ⟨.date exact o, none, none⟩
        = .ok (.raw ⟨d, midnight⟩, .lax) := by
      cases exact <;> simp [PyTemporal.validateDatetime, ho]
    simp only [validateDatetime, PyTemporal.reader, hdt, readOr, checkAll, tryIntoPy, if_neg hy,
      matched, Except.map]
    constructor
    · rintro ⟨e, he⟩
      injection he with he
      injection he with he _
      exact ⟨trivial, he.symm⟩
    · rintro ⟨_, rfl⟩; exact ⟨_, rfl⟩

/-- C62: a JSON text that does not read as a date but reads as a datetime is accepted as a date
exactly in lax mode and at midnight. -/
theorem date_of_datetime_text (sp : Speedate) (mul : MulMillion)
    (cmp : Date → Date → Option Ordering) (strict : Bool) (b : List UInt8) (dt : DateTime)
    (h1 : sp.parseDate b = none) (h2 : sp.parseDateTime b = some dt) (hy : dt.date.year ≠ 0)
    (r : Either Date) :
    (∃ e, validateDate strict none cmp (JsonTemporal.reader sp mul (.str b)) = .ok (r, e)) ↔
      strict = false ∧ dt.time.IsMidnight ∧ r = .raw dt.date := by
  have hmid : dt.time = { midnight with tzOffset := dt.time.tzOffset } ↔ dt.time.IsMidnight := by
    obtain ⟨d, ⟨h, m, s, u, tz⟩⟩ := dt
    simp [midnight, Time.IsMidnight]
  cases strict with
  | true =>
    simp [validateDate, JsonTemporal.reader, JsonTemporal.validateDate, parsed, h1, matched,
      Except.map, readOr]
  | false =>
    by_cases hm : dt.time.IsMidnight
    · have := hmid.2 hm
      simp only [validateDate, JsonTemporal.reader, JsonTemporal.validateDate, parsed, h1, matched,
        Except.map, readOr, dateFromDatetime, JsonTemporal.validateDatetime, h2, Either.asRaw,
        if_pos this, checkAll, tryIntoPy, if_neg hy, Bool.false_eq_true, if_false]
      constructor
      · rintro ⟨e, he⟩
        injection he with he
        injection he with he _
        exact ⟨trivial, hm, he.symm⟩
      · rintro ⟨_, _, rfl⟩; exact ⟨_, rfl⟩
    · have hne : ¬ dt.time = { midnight with tzOffset := dt.time.tzOffset } := fun e => hm (hmid.1 e)
      simp only [validateDate, JsonTemporal.reader, JsonTemporal.validateDate, parsed, h1, matched,
        Except.map, readOr, dateFromDatetime, JsonTemporal.validateDatetime, h2, Either.asRaw,
        if_neg hne, Bool.false_eq_true, if_false]
      constructor
      · rintro ⟨e, he⟩; cases he
      · rintro ⟨_, h, _⟩; exact absurd h hm

example : validateDate false none (fun _ _ => none)
    (PyTemporal.reader Demo.sp Demo.mul
      ⟨.datetime true ⟨1, some ⟨⟨2024, 2, 29⟩, ⟨0, 0, 0, 0, some 3600⟩⟩⟩, none, none⟩)
    = .ok (.raw ⟨2024, 2, 29⟩, .lax) := by decide

example : validateDate false none (fun _ _ => none)
    (PyTemporal.reader Demo.sp Demo.mul
      ⟨.datetime true ⟨1, some ⟨⟨2024, 2, 29⟩, ⟨0, 0, 1, 0, none⟩⟩⟩, none, none⟩)
    = .error (.line (.other "date_from_datetime_inexact")) := by decide

/-! ### C63: times of day from numbers -/

/-- Microseconds since midnight. -/
def Time.micros (t : Time) : Nat :=
  ((t.hour * 60 + t.minute) * 60 + t.second) * 1000000 + t.microsecond

/-- speedate accepts as a time exactly the numbers of seconds below a day (the microseconds being
less than a second) and places the time that long after midnight. -/
def Speedate.CountsTime (sp : Speedate) : Prop :=
  (∀ s us, us ≤ 1000000 → ((sp.timeFromTimestamp s us).isSome ↔ s * 1000000 + us < 86400000000)) ∧
  ∀ s us t, sp.timeFromTimestamp s us = some t → t.micros = s * 1000000 + us

/-- C63: an integer is accepted as a time of day iff it is at least 0 and less than the seconds of
a day, and gives the time that many seconds after midnight. -/
theorem int_time_exact (sp : Speedate) (hs : sp.CountsTime) (n : Int) :
    ((∃ t, intAsTime sp n 0 = .ok t) ↔ 0 ≤ n ∧ n < 86400) ∧
    (∀ t, intAsTime sp n 0 = .ok t → ∃ v, t = .raw v ∧ (v.micros : Int) = n * 1000000) := by
  unfold intAsTime
  by_cases hneg : n < 0
  · rw [if_pos hneg]
    constructor
    · constructor
      · rintro ⟨t, h⟩; cases h
      · rintro ⟨h, _⟩; omega
    · intro t h; cases h
  · rw [if_neg hneg]
    dsimp only
    generalize hm : (if n > 2 ^ 32 - 1 then 2 ^ 32 - 1 else n.toNat : Nat) = m
    have hmn : (m < 86400 ↔ n < 86400) ∧ (n < 86400 → (m : Int) = n) := by
      by_cases hbig : n > 2 ^ 32 - 1
      · rw [if_pos hbig] at hm; omega
      · rw [if_neg hbig] at hm; omega
    have h1 := hs.1 m 0 (by omega)
    cases hf : sp.timeFromTimestamp m 0 with
    | none =>
      rw [hf] at h1
      have hlt : ¬ m * 1000000 + 0 < 86400000000 := fun e => by simpa using h1.2 e
      constructor
      · constructor
        · rintro ⟨t, h⟩; cases h
        · rintro ⟨_, h⟩; omega
      · intro t h; cases h
    | some v =>
      rw [hf] at h1
      have hlt : m * 1000000 + 0 < 86400000000 := h1.1 rfl
      have hv := hs.2 _ _ _ hf
      constructor
      · exact ⟨fun _ => by omega, fun _ => ⟨_, rfl⟩⟩
      · intro t h
        injection h with h
        exact ⟨v, h.symm, by omega⟩

/-- C63: a float accepted as a time of day is not negative, and gives a time within one
microsecond of it. -/
theorem float_time_near (sp : Speedate) (hs : sp.CountsTime) (mul : MulMillion) (hm : mul.Good)
    (num : Int) (k : Nat) (t : Either Time) (h : floatAsTime sp mul (.fin num k) = .ok t) :
    0 ≤ num ∧ ∃ v, t = .raw v ∧ Near v.micros num k := by
  have hpow : 0 < 2 ^ k := Nat.two_pow_pos k
  have hp : ((2 ^ k : Nat) : Int) = 2 ^ k := by simp
  have hpI : (0 : Int) < 2 ^ k := by rw [← hp]; exact_mod_cast hpow
  have hmod : num.natAbs % 2 ^ k < 2 ^ k := Nat.mod_lt _ hpow
  obtain ⟨g1, g2⟩ := hm _ _ hmod
  generalize hus : mul (num.natAbs % 2 ^ k) k = us at g1 g2
  have husle : us ≤ 1000000 := by
    have h1 : us * 2 ^ k < 1000001 * 2 ^ k := by
      have : 1000000 * (num.natAbs % 2 ^ k) + 2 ^ k ≤ 1000000 * 2 ^ k + 2 ^ k := by omega
      omega
    have := Nat.lt_of_mul_lt_mul_right h1
    omega
  simp only [floatAsTime, intAsTime, hus] at h
  by_cases hneg : satI64 (num / 2 ^ k) < 0
  · rw [if_pos hneg] at h; cases h
  rw [if_neg hneg] at h
  have hfloor : 0 ≤ num / 2 ^ k := by unfold satI64 at hneg; omega
  have hnum : 0 ≤ num := by
    rcases Int.lt_or_le num 0 with hn | hn
    · have := Int.ediv_neg_of_neg_of_pos hn hpI; omega
    · exact hn
  refine ⟨hnum, ?_⟩
  generalize hmm : (if satI64 (num / 2 ^ k) > 2 ^ 32 - 1 then 2 ^ 32 - 1
    else (satI64 (num / 2 ^ k)).toNat : Nat) = m at h
  cases hf : sp.timeFromTimestamp m us with
  | none => rw [hf] at h; cases h
  | some v =>
    rw [hf] at h
    injection h with h
    refine ⟨v, h.symm, ?_⟩
    have hv := hs.2 _ _ _ hf
    have hlt := (hs.1 m us husle).1 (by rw [hf]; rfl)
    have hmw : (m : Int) = num / 2 ^ k := by
      have hm1 : m < 86400 := by omega
      unfold satI64 at hmm
      split at hmm <;> omega
    have hdm := Int.mul_ediv_add_emod num (2 ^ k)
    have hfrac : ((num.natAbs % 2 ^ k : Nat) : Int) = num % 2 ^ k := by
      rw [Int.natCast_emod, hp, Int.natAbs_of_nonneg hnum]
    have q1 : ((us * 2 ^ k : Nat) : Int) < ((1000000 * (num.natAbs % 2 ^ k) + 2 ^ k : Nat) : Int) := by
      exact_mod_cast g1
    have q2 : ((1000000 * (num.natAbs % 2 ^ k) : Nat) : Int) < ((us * 2 ^ k + 2 ^ k : Nat) : Int) := by
      exact_mod_cast g2
    simp only [Int.natCast_add, Int.natCast_mul, hp, hfrac] at q1 q2
    unfold Near
    rw [hv, Int.natCast_add, Int.natCast_mul, hmw]
    generalize num / 2 ^ k = w at *
    generalize num % 2 ^ k = f at *
    have hexp : (w * ((1000000 : Nat) : Int) + (us : Int)) * 2 ^ k
        = 2 ^ k * w * 1000000 + us * 2 ^ k := by
      rw [Int.add_mul, Int.mul_right_comm, Int.mul_comm w (2 ^ k)]
      rfl
    rw [hexp]
    generalize (2 : Int) ^ k * w = W at *
    generalize (us : Int) * 2 ^ k = U at *
    omega

namespace Demo

/-- A clock that counts. -/
def clock : Speedate where
  parseDate _ := none
  parseDateTime _ := none
  parseTime _ := none
  parseDuration _ := none
  fromTimestamp _ _ := none
  timeFromTimestamp s us :=
    if s * 1000000 + us < 86400000000 then
      some ⟨0, 0, (s * 1000000 + us) / 1000000, (s * 1000000 + us) % 1000000, none⟩
    else none

theorem clock_counts : clock.CountsTime := by
  constructor
  · intro s us _
    unfold clock
    dsimp only
    split <;> simp_all
  · intro s us t h
    unfold clock at h
    dsimp only at h
    split at h
    · injection h with h
      subst h
      unfold Time.micros
      dsimp only
      omega
    · cases h

end Demo

example : intAsTime Demo.clock 86399 0 = .ok (.raw ⟨0, 0, 86399, 0, none⟩) ∧
    intAsTime Demo.clock 86400 0 = .error (.line (.other "time_parsing")) ∧
    floatAsTime Demo.clock Demo.mul (.fin 5 2) = .ok (.raw ⟨0, 0, 1, 250000, none⟩) := by decide

/-! ### C28: strict and lax -/

/-- C28 for dates, times, datetimes and timedeltas read from Python objects: what strict mode
accepts, lax mode accepts with the same value and exactness. -/
theorem strict_lax_temporal (sp : Speedate) (mul : MulMillion) (x : PyTemporal) :
    (∀ m, x.validateDate sp true = .ok m → x.validateDate sp false = .ok m) ∧
    (∀ m, x.validateTime sp mul true = .ok m → x.validateTime sp mul false = .ok m) ∧
    (∀ m, x.validateDatetime sp mul true = .ok m → x.validateDatetime sp mul false = .ok m) ∧
    (∀ m, x.validateTimedelta sp mul true = .ok m → x.validateTimedelta sp mul false = .ok m) := by
  obtain ⟨k, ix, fl⟩ := x
  refine ⟨?_, ?_, ?_, ?_⟩ <;> intro m h
  · cases k with
    | date e r => cases e <;> exact h
    | _ => first | (exact h) | (simp [PyTemporal.validateDate] at h)
  · cases k with
    | time e r => cases e <;> exact h
    | _ => simp [PyTemporal.validateTime] at h
  · cases k with
    | datetime e r => cases e <;> exact h
    | _ => simp [PyTemporal.validateDatetime] at h
  · cases k with
    | delta d => cases d <;> exact h
    | _ => simp [PyTemporal.validateTimedelta] at h

/-- C28 for JSON inputs. -/
theorem strict_lax_temporal_json (sp : Speedate) (mul : MulMillion) (x : JsonTemporal) :
    (∀ m, x.validateDate sp true = .ok m → x.validateDate sp false = .ok m) ∧
    (∀ m, x.validateTime sp mul true = .ok m → x.validateTime sp mul false = .ok m) ∧
    (∀ m, x.validateDatetime sp mul true = .ok m → x.validateDatetime sp mul false = .ok m) ∧
    (∀ m, x.validateTimedelta sp mul true = .ok m → x.validateTimedelta sp mul false = .ok m) := by
  refine ⟨?_, ?_, ?_, ?_⟩ <;> intro m h <;> cases x <;>
    simp_all [JsonTemporal.validateDate, JsonTemporal.validateTime,
      JsonTemporal.validateDatetime, JsonTemporal.validateTimedelta]

/-- C28 for the date and datetime validators with their fallbacks and constraints. -/
theorem strict_lax_date_schema (c : Option (Constraints Date))
    (cmp : Date → Date → Option Ordering) (x : Reader) (m : Either Date × Exactness)
    (hx : ∀ m, x.date true = .ok m → x.date false = .ok m)
    (h : validateDate true c cmp x = .ok m) : validateDate false c cmp x = .ok m := by
  unfold validateDate at *
  cases hd : x.date true with
  | error e => rw [hd] at h; cases e <;> simp [readOr] at h
  | ok p => rw [hd] at h; rw [hx p hd]; exact h

/-- C28 for the datetime validator. -/
theorem strict_lax_datetime_schema (c : Option (Constraints DateTime))
    (cmp : DateTime → DateTime → Option Ordering) (x : Reader) (m : Either DateTime × Exactness)
    (hx : ∀ m, x.datetime true = .ok m → x.datetime false = .ok m)
    (h : validateDatetime true c cmp x = .ok m) : validateDatetime false c cmp x = .ok m := by
  unfold validateDatetime at *
  cases hd : x.datetime true with
  | error e => rw [hd] at h; cases e <;> simp [readOr] at h
  | ok p => rw [hd] at h; rw [hx p hd]; exact h

example : PyTemporal.validateDate Demo.sp true ⟨.date false ⟨7, some ⟨2024, 1, 1⟩⟩, none, none⟩
    = .ok (.py ⟨7, some ⟨2024, 1, 1⟩⟩, .strict) := rfl

/-- C60 fails for timedeltas: a bool is no duration in JSON, but one second (or none) in Python. -/
theorem bool_timedelta_disagrees :
    PyTemporal.validateTimedelta Demo.sp Demo.mul false ⟨.bool true, some 1, some (.fin 1 0)⟩
      = .ok (.raw ⟨true, 0, 1, 0⟩, .lax) ∧
    JsonTemporal.validateTimedelta Demo.sp Demo.mul false (.bool true)
      = .error (.line (.other "time_delta_type")) := by
  constructor <;> decide

/-- The Python object a JSON value stands for, as the temporal readers see it. -/
def JsonTemporal.toPy (big : Option F64) : JsonTemporal → PyTemporal
  | .str b => ⟨.str (some b), none, none⟩
  | .int n => ⟨.other, some n, none⟩
  | .bigInt => ⟨.other, none, big⟩
  | .float f => ⟨.other, none, some f⟩
  | .bool b => ⟨.bool b, some (if b then 1 else 0), some (.fin (if b then 1 else 0) 0)⟩
  | .other => ⟨.other, none, none⟩

/-- The value of a result, forgetting the exactness. -/
def value {β : Type} (r : TMatch β) : Option β := r.toOption.map Prod.fst

/-- C60 for temporal values in lax mode, for texts, 64-bit ints, floats and non-scalars: JSON and
Python inputs are read alike.  What is missing: bools as timedeltas
(`bool_timedelta_disagrees`), and ints beyond 64 bits, which Python reads through a float. -/
theorem json_python_temporal_partial (sp : Speedate) (mul : MulMillion) (big : Option F64)
    (x : JsonTemporal) (hb : x ≠ .bigInt) :
    value (x.validateDate sp false) = value ((x.toPy big).validateDate sp false) ∧
    value (x.validateTime sp mul false) = value ((x.toPy big).validateTime sp mul false) ∧
    value (x.validateDatetime sp mul false) = value ((x.toPy big).validateDatetime sp mul false) ∧
    ((∀ b, x ≠ .bool b) → value (x.validateTimedelta sp mul false)
      = value ((x.toPy big).validateTimedelta sp mul false)) := by
  have hv : ∀ {β : Type} (e e' : Exactness) (r : Except TErr β),
      value (matched e r) = value (matched e' r) := by
    intro β e e' r; cases r <;> rfl
  cases x with
  | str b => exact ⟨hv _ _ _, hv _ _ _, hv _ _ _, fun _ => hv _ _ _⟩
  | int n => exact ⟨rfl, rfl, rfl, fun _ => rfl⟩
  | bigInt => exact absurd rfl hb
  | float f => exact ⟨rfl, rfl, rfl, fun _ => rfl⟩
  | bool b => exact ⟨rfl, rfl, rfl, fun h => absurd rfl (h b)⟩
  | other => exact ⟨rfl, rfl, rfl, fun _ => rfl⟩

example : value (JsonTemporal.validateDate Demo.sp false (.str [1])) = some (.raw ⟨2020, 1, 2⟩) := rfl

end PC.Time
