import Verif.Lemmas.Decimal
import Mathlib.Tactic.NormNum.NatLog
import Mathlib.Tactic.NormNum.DivMod

/-
C81: the constraints of decimals are exact, as far as the precision of the context goes.
-/

namespace PC.Decimal

/-- C81, `max_digits` and `decimal_places`: a decimal, not zero, that the context holds without rounding passes iff its
value fits; how it is written (`1.50` or `1.5`, `1E+2` or `100`) makes no difference. -/
theorem digits_exact_partial {ctx : Context} (v : DecimalV) (s : Bool) {c : Nat} {e : Int} (h : ctx.Holds c e) (hc : c ≠ 0) :
    checkDigits ctx v c e = none ↔ DigitsFit v (finValue s c e) := by
  obtain ⟨h1, h2, h3⟩ := checks_holds h hc s
  unfold checkDigits
  dsimp only
  split
  · rename_i h
    obtain ⟨m, hm, h⟩ := exceeds_iff.1 h
    simp only [reduceCtorEq, false_iff]
    exact fun hf => (h1 m).1 h (hf.1 m hm)
  · rename_i hm
    split
    · rename_i h
      obtain ⟨p, hp, h⟩ := exceeds_iff.1 h
      simp only [reduceCtorEq, false_iff]
      exact fun hf => (h2 p).1 h (hf.2.1 p hp)
    · rename_i hp
      split
      · rename_i h
        obtain ⟨w, hw, h⟩ := exceeds_iff.1 h
        obtain ⟨m, p, h4, h5, rfl⟩ := maxWhole_iff.1 hw
        simp only [reduceCtorEq, false_iff]
        exact fun hf => (h3 _).1 h (hf.2.2 m p h4 h5)
      · rename_i hw
        refine iff_of_true rfl ⟨fun m h => by_contra fun hn => ?_, fun p h => by_contra fun hn => ?_,
          fun m p h4 h5 => by_contra fun hn => ?_⟩
        · exact hm (exceeds_iff.2 ⟨m, h, (h1 m).2 hn⟩)
        · exact hp (exceeds_iff.2 ⟨p, h, (h2 p).2 hn⟩)
        · exact hw (exceeds_iff.2 ⟨m - p, maxWhole_iff.2 ⟨m, p, h4, h5, rfl⟩, (h3 _).2 hn⟩)

-- 1.50 has one decimal place, and does not have none
example : checkDigits .default ⟨false, none, none, none, none, none, none, some 1⟩ 150 (-2) = none ∧
    checkDigits .default ⟨false, none, none, none, none, none, none, some 0⟩ 150 (-2) ≠ none := by
  have h : Context.default.Holds 150 (-2) := by
    have hnd : numDigits 150 = 3 := by norm_num [numDigits]
    refine ⟨?_, by decide, ?_⟩ <;> rw [hnd] <;> decide
  rw [Ne, digits_exact_partial _ false h (by decide), digits_exact_partial _ false h (by decide)]
  constructor
  · refine ⟨fun _ h => (by cases h), ?_, fun _ _ h => by cases h⟩
    rintro _ ⟨⟩
    exact ⟨15, by norm_num [finValue]⟩
  · rintro ⟨_, h, _⟩
    obtain ⟨n, hn⟩ := h 0 rfl
    have h2 : (15 : ℚ) = n * 10 := by rw [← hn]; norm_num [finValue]
    have h3 : (15 : ℤ) = n * 10 := by exact_mod_cast h2
    omega

/-- Which error: the first constraint that does not hold. -/
theorem digits_error_partial {ctx : Context} (v : DecimalV) (s : Bool) {c : Nat} {e : Int} (h : ctx.Holds c e) (hc : c ≠ 0)
    {t : ErrType} (ht : checkDigits ctx v c e = some t) :
    (∃ m, v.maxDigits = some m ∧ ¬ Digits m (finValue s c e) ∧ t = .other "decimal_max_digits") ∨
    (∃ p, v.decimalPlaces = some p ∧ ¬ Places p (finValue s c e) ∧ t = .other "decimal_max_places") ∨
    (∃ m p, v.maxDigits = some m ∧ v.decimalPlaces = some p ∧ ¬ Whole (m - p) (finValue s c e) ∧
      t = .other "decimal_whole_digits") := by
  obtain ⟨h1, h2, h3⟩ := checks_holds h hc s
  unfold checkDigits at ht
  dsimp only at ht
  split at ht
  · rename_i h
    obtain ⟨m, hm, h⟩ := exceeds_iff.1 h
    cases ht
    exact .inl ⟨m, hm, (h1 m).1 h, rfl⟩
  · split at ht
    · rename_i h
      obtain ⟨p, hp, h⟩ := exceeds_iff.1 h
      cases ht
      exact .inr (.inl ⟨p, hp, (h2 p).1 h, rfl⟩)
    · split at ht
      · rename_i h
        obtain ⟨w, hw, h⟩ := exceeds_iff.1 h
        obtain ⟨m, p, h4, h5, rfl⟩ := maxWhole_iff.1 hw
        cases ht
        exact .inr (.inr ⟨m, p, h4, h5, (h3 _).1 h, rfl⟩)
      · cases ht

-- 123.4 with max_digits=3
example : checkDigits .default ⟨false, none, none, none, none, none, some 3, none⟩ 1234 (-1) =
    some (.other "decimal_max_digits") := by
  have h : Context.default.Holds 1234 (-1) := by
    have hnd : numDigits 1234 = 4 := by norm_num [numDigits]
    refine ⟨?_, by decide, ?_⟩ <;> rw [hnd] <;> decide
  cases hc : checkDigits .default ⟨false, none, none, none, none, none, some 3, none⟩ 1234 (-1) with
  | some t =>
    rcases digits_error_partial _ false h (by decide) hc with ⟨_, _, _, rfl⟩ | ⟨_, hp, _⟩ | ⟨_, _, _, hp, _⟩
    · rfl
    · cases hp
    · cases hp
  | none =>
    obtain ⟨n, k, hk, hn, hx⟩ := ((digits_exact_partial _ false h (by decide)).1 hc).1 3 rfl
    rw [show finValue false 1234 (-1) = 1234 / 10 by norm_num [finValue]] at hx
    have hn' := abs_lt.1 hn
    have h1 : 1 ≤ k := whole_of_int (c := 1234) (k := 1) (by decide) (by rw [← hx]; norm_num)
    have h3 : (1234 : ℚ) ≤ n := by
      rw [← hx]
      have : (10 : ℚ) ^ 1 ≤ 10 ^ k := pow_le_pow_right₀ (by norm_num) h1
      linarith
    have h4 : (1234 : ℤ) ≤ n := by exact_mod_cast h3
    norm_num at hn'
    omega

/-- C81 for zero: it needs one digit, and one before the point unless it is written with decimal places. -/
theorem zero_digits (ctx : Context) (v : DecimalV) (e : Int) : checkDigits ctx v 0 e = none ↔
    (∀ m, v.maxDigits = some m → 1 ≤ m) ∧ ∀ m p, v.maxDigits = some m → v.decimalPlaces = some p → p < m ∨ e < 0 := by
  have h0 : digitsInfo 0 0 = (0, 1) := by simp [digitsInfo, numDigits]
  have h1 : ∀ m, (m < (digitsInfo 0 e).2 ∧ m < 1) ↔ ¬ 1 ≤ m := by
    intro m
    rcases exp_cases e with ⟨k, rfl⟩ | ⟨k, hk, rfl⟩
    · rw [info_nonneg]; simp only [numDigits, Nat.log_zero_right]; omega
    · rw [info_neg 0 hk]; simp only [numDigits, Nat.log_zero_right]; omega
  have h3 : ∀ m p, (m - p < (digitsInfo 0 e).2 - (digitsInfo 0 e).1 ∧ m - p < 1) ↔ ¬ (p < m ∨ e < 0) := by
    intro m p
    rcases exp_cases e with ⟨k, rfl⟩ | ⟨k, hk, rfl⟩
    · rw [info_nonneg]; simp only [numDigits, Nat.log_zero_right]; omega
    · rw [info_neg 0 hk]; simp only [numDigits, Nat.log_zero_right]; omega
  have hn : (normalize ctx 0 e).getD (0, e) = (0, 0) := by simp [normalize]
  unfold checkDigits
  dsimp only
  rw [hn, h0]
  split
  · rename_i h
    obtain ⟨m, hm, h⟩ := exceeds_iff.1 h
    simp only [reduceCtorEq, false_iff]
    exact fun hf => (h1 m).1 h (hf.1 m hm)
  · rename_i hm
    rw [if_neg (by rw [exceeds_iff]; simp)]
    split
    · rename_i h
      obtain ⟨w, hw, h⟩ := exceeds_iff.1 h
      obtain ⟨m, p, h4, h5, rfl⟩ := maxWhole_iff.1 hw
      simp only [reduceCtorEq, false_iff]
      exact fun hf => (h3 m p).1 h (hf.2 m p h4 h5)
    · rename_i hw
      refine iff_of_true rfl ⟨fun m h => by_contra fun hn => ?_, fun m p h4 h5 => by_contra fun hn => ?_⟩
      · exact hm (exceeds_iff.2 ⟨m, h, (h1 m).2 hn⟩)
      · exact hw (exceeds_iff.2 ⟨m - p, maxWhole_iff.2 ⟨m, p, h4, h5, rfl⟩, (h3 m p).2 hn⟩)

/-- C81: a finite decimal is accepted iff its digits fit, it is a multiple, and it lies within the bounds; it is returned as
it is.  Shown for decimals other than zero that the context holds without rounding, as it does the quotient by `multiple_of`. -/
theorem accepted_exact_partial {ctx : Context} (v : DecimalV) (hv : v.Proper) (s : Bool) {c : Nat} {e : Int} (h : ctx.Holds c e)
    (hc : c ≠ 0)
    (hm : ∀ m, v.multipleOf = some m → ∃ y, m.value = some y ∧ y ≠ 0 ∧ |finValue s c e / y| < 10 ^ ctx.prec ∧
      |finValue s c e / y| < 10 ^ (ctx.emax + 1) ∧
      ∃ n j : ℤ, |n| < 10 ^ ctx.prec ∧ ctx.etiny ≤ j ∧ finValue s c e / y = n * 10 ^ j)
    (d : Dec) : v.check ctx (.fin s c e) = .ok d ↔
    d = .fin s c e ∧ DigitsFit v (finValue s c e) ∧
      (∀ m y, v.multipleOf = some m → m.value = some y → ∃ k : ℤ, finValue s c e = k * y) ∧ InBounds v (.fin s c e) := by
  have hmul : checkMultiple ctx v (.fin s c e) = .ok d ↔ d = .fin s c e ∧
      (∀ m y, v.multipleOf = some m → m.value = some y → ∃ k : ℤ, finValue s c e = k * y) ∧ InBounds v (.fin s c e) := by
    rw [checkMultiple]
    cases hmo : v.multipleOf with
    | none => simp [bounds_ok hv (d := .fin s c e) rfl, and_comm, eq_comm]
    | some m =>
      obtain ⟨y, h1, h2, h3, h4, n, j, h5, h6, h7⟩ := hm m hmo
      cases m with
      | nan _ => cases h1
      | inf _ => cases h1
      | fin s' c' e' =>
        cases h1
        have hc' : c' ≠ 0 := by rintro rfl; exact h2 (by simp [finValue])
        have hmul : isMultiple ctx (.fin s c e) (.fin s' c' e') =
            some (decide ((finValue s c e / finValue s' c' e').den = 1)) := by
          rw [isMultiple, if_neg hc', roundQ_exact h7 h5 h6 h4]
          dsimp only
          rw [if_neg (not_le.2 h3)]
        have hk : (finValue s c e / finValue s' c' e').den = 1 ↔ ∃ k : ℤ, finValue s c e = k * finValue s' c' e' := by
          rw [den_one]
          simp only [div_eq_iff h2]
        simp only [hmul]
        by_cases hd : (finValue s c e / finValue s' c' e').den = 1
        · rw [decide_eq_true hd]
          have := hk.1 hd
          dsimp only
          rw [bounds_ok hv (d := .fin s c e) rfl]
          constructor
          · rintro ⟨a, b⟩
            refine ⟨b.symm, ?_, a⟩
            rintro _ _ ⟨⟩ ⟨⟩
            exact this
          · rintro ⟨a, _, b⟩
            exact ⟨b, a.symm⟩
        · rw [decide_eq_false hd]
          have := mt hk.2 hd
          simp only [reduceCtorEq, false_iff]
          exact fun hf => this (hf.2.1 _ _ rfl rfl)
  have hdig := digits_exact_partial v s h hc
  have hck : v.check ctx (.fin s c e) = if (v.maxDigits.isSome || v.decimalPlaces.isSome) = true then
      match checkDigits ctx v c e with
      | some t => .err t
      | none => checkMultiple ctx v (.fin s c e)
    else checkMultiple ctx v (.fin s c e) := by
    unfold DecimalV.check
    dsimp only
    by_cases hcd : (v.maxDigits.isSome || v.decimalPlaces.isSome) = true
    · rw [if_pos (by rw [hcd, Bool.or_true])]
      rfl
    · simp only [hcd, if_false, ite_self, Bool.false_eq_true]
  rw [hck]
  by_cases hcd : (v.maxDigits.isSome || v.decimalPlaces.isSome) = true
  · rw [if_pos hcd]
    cases hch : checkDigits ctx v c e with
    | none =>
      have hf := hdig.1 hch
      dsimp only
      rw [hmul]
      exact ⟨fun ⟨a, b⟩ => ⟨a, hf, b⟩, fun ⟨a, _, b⟩ => ⟨a, b⟩⟩
    | some t =>
      have : ¬ DigitsFit v (finValue s c e) := fun hf => by rw [hdig.2 hf] at hch; cases hch
      simp [this]
  · have hn : v.maxDigits = none ∧ v.decimalPlaces = none := by simpa using hcd
    have hf : DigitsFit v (finValue s c e) := by simp [DigitsFit, hn]
    rw [if_neg hcd, hmul]
    simp [hf]

-- 12.50 with max_digits=4, decimal_places=2, multiple_of=0.05, 0 < x <= 99.99
example : (⟨false, some (.fin false 5 (-2)), some (.fin false 9999 (-2)), none, none, some (.fin false 0 0), some 4, some 2⟩ :
    DecimalV).check .default (.fin false 1250 (-2)) = .ok (.fin false 1250 (-2)) := by
  have hnd : numDigits 1250 = 4 := by norm_num [numDigits]
  rw [accepted_exact_partial]
  · refine ⟨rfl, ⟨?_, ?_, ?_⟩, ?_, ?_⟩
    · rintro _ ⟨⟩
      exact ⟨1250, 2, by decide, by norm_num, by norm_num [finValue]⟩
    · rintro _ ⟨⟩
      exact ⟨1250, by norm_num [finValue]⟩
    · rintro _ _ ⟨⟩ ⟨⟩
      norm_num [Whole, finValue, abs_lt]
    · rintro _ _ ⟨⟩ ⟨⟩
      exact ⟨250, by norm_num [finValue]⟩
    · simp only [InBounds, Option.some.injEq, forall_eq', reduceCtorEq, false_imp_iff, implies_true, true_and, Less]
      norm_num [finValue]
  · intro b hb
    rcases hb with hb | hb | hb | hb <;> cases hb <;> rfl
  · refine ⟨?_, by decide, ?_⟩ <;> rw [hnd] <;> decide
  · decide
  · rintro _ ⟨⟩
    refine ⟨_, rfl, by norm_num [finValue], ?_, ?_, 250, 0, by norm_num [Context.default], by decide, by norm_num [finValue]⟩
    · norm_num [finValue, Context.default, abs_lt]
    · have : (|finValue false 1250 (-2) / finValue false 5 (-2)| : ℚ) = 250 := by norm_num [finValue]
      rw [this]
      calc (250 : ℚ) < 10 ^ (3 : ℤ) := by norm_num
        _ ≤ 10 ^ (Context.default.emax + 1) := zpow_le_zpow_right₀ (by norm_num) (by decide)

/-- C81, `multiple_of`: a multiple is accepted if the factor has no more digits than the precision. -/
theorem multiple_accepted {ctx : Context} (ht : ctx.etiny ≤ 0) (hp : ctx.prec ≤ ctx.emax + 1) {s s' : Bool} {c c' : Nat}
    {e e' : Int} (hc : c' ≠ 0) {k : ℤ} (hk : |k| < 10 ^ ctx.prec) (h : finValue s c e = k * finValue s' c' e') :
    isMultiple ctx (.fin s c e) (.fin s' c' e') = some true := by
  have h0 : finValue s' c' e' ≠ 0 := by
    have : (c' : ℚ) ≠ 0 := by exact_mod_cast hc
    have h10 := (zpow_pos10 e').ne'
    cases s' <;> simp [finValue, this, h10]
  have hq : finValue s c e / finValue s' c' e' = k := by rw [h, mul_div_cancel_right₀ _ h0]
  have hk' : |(k : ℚ)| < 10 ^ ctx.prec := by exact_mod_cast hk
  have hm : |(k : ℚ)| < 10 ^ (ctx.emax + 1) :=
    lt_of_lt_of_le hk' (by rw [← zpow_natCast]; exact zpow_le_zpow_right₀ (by norm_num) hp)
  rw [isMultiple, if_neg hc, hq, roundQ_exact (n := k) (j := 0) (by simp) hk ht hm]
  dsimp only
  rw [if_neg (not_le.2 hk')]
  rfl

example : isMultiple .default (.fin false 1250 (-2)) (.fin true 5 (-1)) = some true :=
  multiple_accepted (k := -25) (by decide) (by decide) (by decide) (by norm_num [Context.default]) (by norm_num [finValue])

/-- C81, `multiple_of`, the other way: what is accepted is a multiple up to an error of half a unit in the last place of the
quotient. -/
theorem accepted_near_multiple {ctx : Context} {s s' : Bool} {c c' : Nat} {e e' : Int}
    (h : isMultiple ctx (.fin s c e) (.fin s' c' e') = some true) : ∃ k : ℤ, |k| < 10 ^ ctx.prec ∧
    |finValue s c e / finValue s' c' e' - k| ≤
      max (|finValue s c e / finValue s' c' e'| * 10 ^ (1 - ctx.prec : ℤ)) (10 ^ ctx.etiny) / 2 := by
  rw [isMultiple] at h
  split at h
  · cases h
  · split at h
    · cases h
    · rename_i r hr
      split at h
      · cases h
      · rename_i hlt
        simp only [Option.some.injEq, decide_eq_true_eq] at h
        obtain ⟨k, rfl⟩ := den_one.1 h
        exact ⟨k, by exact_mod_cast not_le.1 hlt, roundQ_near hr⟩

-- 10 is accepted for 2.5
example : ∃ k : ℤ, |k| < 10 ^ 28 ∧ |finValue false 10 0 / finValue false 25 (-1) - k| ≤
    max (|finValue false 10 0 / finValue false 25 (-1)| * 10 ^ (1 - (28 : ℕ) : ℤ)) (10 ^ Context.default.etiny) / 2 :=
  accepted_near_multiple (multiple_accepted (ctx := .default) (k := 4) (by decide) (by decide) (by decide)
    (by norm_num [Context.default]) (by norm_num [finValue]))

/-- C81: NaN and the infinities are refused unless they are allowed; NaN lies within no bound. -/
theorem not_finite (ctx : Context) (v : DecimalV) {d : Dec} (hd : d.value = none) :
    (v.allowInfNan = false → v.check ctx d = .err (.other "finite_number")) ∧
    (v.allowInfNan = true → v.maxDigits = none → v.decimalPlaces = none → v.multipleOf = none → v.Proper →
      ∀ d', v.check ctx d = .ok d' ↔ d' = d ∧ InBounds v d) := by
  constructor
  · intro h
    unfold DecimalV.check
    rw [if_pos (by simp [h])]
    cases d with
    | fin s c e => cases hd
    | _ => rfl
  · intro h h1 h2 h3 hv d'
    unfold DecimalV.check
    rw [if_neg (by simp [h, h1, h2])]
    simp only [checkMultiple, h3]
    cases hn : d.isNan with
    | false => rw [bounds_ok hv hn, and_comm, eq_comm]
    | true =>
      cases d with
      | nan sg =>
        have hb : ∀ (b : Option Dec) pass t next d', bound b pass t (.nan sg) next = .ok d' ↔ b = none ∧ next = .ok d' := by
          intro b pass t next d'
          cases b <;> simp [bound, Dec.isNan]
        simp only [checkBounds, hb, InBounds]
        have hl : ∀ b, ¬ Less (.nan sg) b ∧ ¬ Less b (.nan sg) ∧ ¬ Same (.nan sg) b := by
          intro b
          cases b with
          | inf s => cases s <;> simp [Less, Same]
          | _ => simp [Less, Same]
        simp only [hl, or_false, Res.ok.injEq]
        cases v.le <;> cases v.lt <;> cases v.ge <;> cases v.gt <;> simp [eq_comm]
      | inf _ => cases hn
      | fin _ _ _ => cases hn

-- the infinity above a bound
example : (⟨true, none, none, none, some (.fin false 3 0), none, none, none⟩ : DecimalV).check .default (.inf false) =
    .ok (.inf false) := by
  refine ((not_finite .default _ (d := .inf false) rfl).2 rfl rfl rfl rfl ?_ _).2 ⟨rfl, ?_⟩
  · rintro b (h | h | h | h) <;> cases h
    rfl
  · refine ⟨fun _ h => (by cases h), fun _ h => (by cases h), ?_, fun _ h => (by cases h)⟩
    rintro _ ⟨⟩
    exact .inl trivial

/-! ### Where it fails -/

theorem strip_pow (n : Nat) (e : Int) : strip (10 ^ n) e = (1, e + n) := by
  induction n generalizing e with
  | zero => rw [strip]; simp
  | succ n ih =>
    rw [strip, dif_neg (by positivity), if_pos (by rw [pow_succ]; simp), pow_succ, Nat.mul_div_cancel _ (by decide), ih]
    simp only [Prod.mk.injEq, true_and]
    push_cast
    ring

/-- C81 fails beyond the precision of the context: `Decimal('1.00000000000000000000000000001')`, with 30 digits, passes
`max_digits=5, decimal_places=2`, as `normalize()` rounds it to 1. -/
theorem long_decimal_accepted : ∃ v c e, checkDigits .default v c e = none ∧ ¬ DigitsFit v (finValue false c e) ∧
    v.check .default (.fin false c e) = .ok (.fin false c e) := by
  have hf : fix .default (10 ^ 29 + 1) (-29) = some (10 ^ 27, -27) := by
    have h1 : numDigits (10 ^ 29 + 1) = 30 := by norm_num [numDigits]
    have h2 : roundEven (10 ^ 29 + 1) (10 ^ (2 : Nat)) = 10 ^ 27 := by norm_num [roundEven]
    have h3 : numDigits (10 ^ 27) = 28 := by norm_num [numDigits]
    have h4 : max (((30 : Nat) : Int) + -29 - (Context.default.prec : Int)) Context.default.etiny = -27 := by decide
    simp only [fix, h1]
    rw [h4, if_neg (by decide), if_pos (by decide), show ((-27 : Int) - -29).toNat = 2 by decide, h2, h3, if_neg (by decide)]
  have hn : normalize .default (10 ^ 29 + 1) (-29) = some (1, 0) := by
    rw [normalize, if_neg (by decide), hf]
    simp only [Option.map_some, strip_pow]
    rfl
  have hd : checkDigits .default ⟨false, none, none, none, none, none, some 5, some 2⟩ (10 ^ 29 + 1) (-29) = none := by
    rw [checkDigits, hn]
    norm_num [digitsInfo, numDigits, exceeds, DecimalV.maxWhole]
  refine ⟨⟨false, none, none, none, none, none, some 5, some 2⟩, 10 ^ 29 + 1, -29, hd, ?_, ?_⟩
  · rintro ⟨_, h, _⟩
    obtain ⟨n, h⟩ := h 2 rfl
    have h2 : (10 ^ 29 + 1 : ℚ) = n * 10 ^ 27 := by
      rw [← h]
      norm_num [finValue]
    have h3 : (10 ^ 29 + 1 : ℤ) = n * 10 ^ 27 := by exact_mod_cast h2
    omega
  · generalize 10 ^ 29 + 1 = c at hd
    simp [DecimalV.check, hd, checkMultiple, checkBounds, bound]

/-- C81 fails for zero: `Decimal('0')` is refused with `max_digits=2, decimal_places=2`, though `Decimal('0.0')` is not. -/
theorem zero_refused : ∃ v, DigitsFit v 0 ∧ checkDigits .default v 0 0 ≠ none ∧ checkDigits .default v 0 (-1) = none := by
  refine ⟨⟨false, none, none, none, none, none, some 2, some 2⟩, ⟨?_, ?_, ?_⟩, ?_, ?_⟩
  · rintro m ⟨⟩; exact ⟨0, 0, by decide, by norm_num, by norm_num⟩
  · rintro m ⟨⟩; exact ⟨0, by norm_num⟩
  · rintro m p ⟨⟩ ⟨⟩; norm_num [Whole]
  · rw [Ne, zero_digits]; simp
  · rw [zero_digits]; simp

/-- C81 fails for `multiple_of` beyond the precision: 1000000000000000000000000000.5 passes `multiple_of=1`. -/
theorem half_is_multiple_of_one : isMultiple .default (.fin false (10 ^ 28 + 5) (-1)) (.fin false 1 0) = some true ∧
    ¬ ∃ k : ℤ, finValue false (10 ^ 28 + 5) (-1) = k * finValue false 1 0 := by
  have hq : finValue false (10 ^ 28 + 5) (-1) / finValue false 1 0 = (10 ^ 28 + 5) / 10 := by norm_num [finValue]
  have hlog : Int.log 10 (|(10 ^ 28 + 5) / 10| : ℚ) = 27 := by
    have hpos : (0 : ℚ) < |(10 ^ 28 + 5) / 10| := by norm_num
    have h1 := (Int.lt_zpow_iff_log_lt (b := 10) (x := 28) (by decide) hpos).1 (by rw [abs_of_pos] <;> norm_num)
    have h2 := (Int.zpow_le_iff_le_log (b := 10) (x := 27) (by decide) hpos).1 (by rw [abs_of_pos] <;> norm_num)
    omega
  have hL : lastPlace .default ((10 ^ 28 + 5) / 10) = 0 := by rw [lastPlace, hlog]; decide
  have hfl : ⌊((10 ^ 28 + 5) / 10 : ℚ)⌋ = 10 ^ 27 := by rw [Int.floor_eq_iff]; norm_num
  have hr : roundEvenQ ((10 ^ 28 + 5) / 10) = 10 ^ 27 := by
    rw [roundEvenQ, hfl]
    norm_num
  constructor
  · rw [isMultiple, if_neg (by decide), hq, roundQ, if_neg (by norm_num)]
    simp only [hL, zpow_zero, div_one, mul_one, hr]
    have hlt : |((10 ^ 27 : ℤ) : ℚ)| < 10 ^ (Context.default.emax + 1) := by
      calc |((10 ^ 27 : ℤ) : ℚ)| < 10 ^ (28 : ℤ) := by norm_num
        _ ≤ 10 ^ (Context.default.emax + 1) := zpow_le_zpow_right₀ (by norm_num) (by decide)
    rw [if_pos hlt]
    dsimp only
    rw [if_neg (by norm_num [Context.default])]
    rfl
  · rintro ⟨k, h⟩
    have h2 : (10 ^ 28 + 5 : ℚ) = k * 10 := by
      have : finValue false (10 ^ 28 + 5) (-1) * 10 = 10 ^ 28 + 5 := by norm_num [finValue]
      rw [← this, h]
      norm_num [finValue]
    have h3 : (10 ^ 28 + 5 : ℤ) = k * 10 := by exact_mod_cast h2
    omega

/-- C81 fails for large multiples: with `multiple_of=1`, `Decimal('1E+28')` makes validation raise `decimal.InvalidOperation`;
so do the infinities, and any value with `multiple_of=0`. -/
theorem large_multiple_raises :
    (⟨false, some (.fin false 1 0), none, none, none, none, none, none⟩ : DecimalV).check .default (.fin false 1 28) = .raise ∧
    (∀ s, (⟨true, some (.fin false 1 0), none, none, none, none, none, none⟩ : DecimalV).check .default (.inf s) = .raise) ∧
    ∀ s c e, (⟨true, some (.fin false 0 0), none, none, none, none, none, none⟩ : DecimalV).check .default (.fin s c e) = .raise := by
  refine ⟨?_, fun _ => rfl, fun _ _ _ => rfl⟩
  have hm : isMultiple .default (.fin false 1 28) (.fin false 1 0) = none := by
    have hq : finValue false 1 28 / finValue false 1 0 = (1 : ℤ) * 10 ^ (28 : ℤ) := by norm_num [finValue]
    have hlt : |((1 : ℤ) * 10 ^ (28 : ℤ) : ℚ)| < 10 ^ (Context.default.emax + 1) := by
      calc |((1 : ℤ) * 10 ^ (28 : ℤ) : ℚ)| < 10 ^ (29 : ℤ) := by norm_num
        _ ≤ 10 ^ (Context.default.emax + 1) := zpow_le_zpow_right₀ (by norm_num) (by decide)
    rw [isMultiple, if_neg (by decide), hq, roundQ_exact (n := 1) (j := 28) rfl (by norm_num [Context.default]) (by decide) hlt]
    dsimp only
    rw [if_pos (by norm_num [Context.default])]
  simp [DecimalV.check, checkMultiple, hm]

end PC.Decimal
