import Verif.Lemmas.Floats

/-
C25: a float is read as an integer iff it is one, in range.  C57: float bounds.
-/

namespace PC.Float
open PC.Num

/-- C25: a float is accepted as an int, with result `n`, iff it is finite and equal to the integer
`n`, which lies strictly between -2^63 and 2^63. -/
theorem float_as_int_exact (x : F64) (n : Int) :
    floatAsInt x = .ok n ↔ x.value = some (n : Rat) ∧ -2 ^ 63 < n ∧ n < 2 ^ 63 := by
  cases x with
  | nan => simp [floatAsInt, F64.value]
  | posInf => simp [floatAsInt, F64.value]
  | negInf => simp [floatAsInt, F64.value]
  | fin num k =>
    have hp := pow2_pos k
    have hval : (F64.fin num k).value = some (n : Rat) ↔ num = n * 2 ^ k := by
      simp only [F64.value, Option.some.injEq]
      rw [← Rat.mkRat_one n, Rat.mkRat_eq_iff (pow2_ne k) (by decide)]
      simp
    rw [hval]
    have hdvd : num.tmod (2 ^ k) = 0 ↔ ∃ m, num = m * 2 ^ k := by
      rw [← Int.dvd_iff_tmod_eq_zero]
      exact ⟨fun ⟨c, h⟩ => ⟨c, by rw [h, Int.mul_comm]⟩, fun ⟨c, h⟩ => ⟨c, by rw [h, Int.mul_comm]⟩⟩
    simp only [floatAsInt]
    by_cases hm : num.tmod (2 ^ k) = 0
    · obtain ⟨m, rfl⟩ := hdvd.1 hm
      rw [if_neg (fun h => h hm)]
      have hr : (-(2 ^ 63) * 2 ^ k < m * 2 ^ k ∧ m * 2 ^ k < 2 ^ 63 * 2 ^ k) ↔
          (-2 ^ 63 < m ∧ m < 2 ^ 63) := by
        rw [Int.mul_lt_mul_right hp, Int.mul_lt_mul_right hp]
      have he : m * 2 ^ k = n * 2 ^ k ↔ m = n :=
        ⟨fun h => Int.eq_of_mul_eq_mul_right (Int.ne_of_gt hp) h, fun h => by rw [h]⟩
      rw [he]
      by_cases hc : -2 ^ 63 < m ∧ m < 2 ^ 63
      · rw [if_pos (hr.2 hc), Int.mul_tdiv_cancel _ (Int.ne_of_gt hp)]
        constructor
        · intro h; injection h with h; subst h; exact ⟨rfl, hc⟩
        · rintro ⟨h, _⟩; rw [h]
      · rw [if_neg (mt hr.1 hc)]
        constructor
        · intro h; cases h
        · rintro ⟨rfl, h⟩; exact absurd h hc
    · rw [if_pos hm]
      constructor
      · intro h; cases h
      · rintro ⟨h, _⟩; exact absurd (hdvd.2 ⟨n, h⟩) hm

-- 6.0 given as 24 / 4
example : floatAsInt (.fin 24 2) = .ok 6 := by decide
example : floatAsInt (.fin 25 2) = .err (.other "int_from_float") := by decide

/-- C25, which error: not finite, not an integer, or out of range. -/
theorem float_as_int_errors (x : F64) :
    (x.value = none → floatAsInt x = .err (.other "finite_number")) ∧
    (∀ q, x.value = some q → (∀ n : Int, q ≠ n) → floatAsInt x = .err (.other "int_from_float")) ∧
    (∀ n : Int, x.value = some (n : Rat) → ¬ (-2 ^ 63 < n ∧ n < 2 ^ 63) →
      floatAsInt x = .err (.other "int_parsing_size")) := by
  refine ⟨?_, ?_, ?_⟩
  · cases x <;> simp [F64.value, floatAsInt]
  · intro q hq hn
    cases x with
    | nan => cases hq
    | posInf => cases hq
    | negInf => cases hq
    | fin num k =>
      simp only [floatAsInt]
      rw [if_pos]
      intro hm
      obtain ⟨c, hc⟩ := Int.dvd_iff_tmod_eq_zero.2 hm
      simp only [F64.value, Option.some.injEq] at hq
      apply hn c
      rw [← hq, ← Rat.mkRat_one c, Rat.mkRat_eq_iff (pow2_ne k) (by decide), hc]
      simp [Int.mul_comm]
  · intro n hn hr
    cases h : floatAsInt x with
    | ok m =>
      obtain ⟨h1, h2⟩ := (float_as_int_exact x m).1 h
      rw [hn] at h1
      injection h1 with h1
      rw [Rat.intCast_inj] at h1
      subst h1
      exact absurd h2 hr
    | panic =>
      exfalso
      cases x <;> simp only [floatAsInt, reduceCtorEq] at h
      (repeat' split at h) <;> cases h
    | err t =>
      cases x with
      | nan => cases hn
      | posInf => cases hn
      | negInf => cases hn
      | fin num k =>
        have hnum : num = n * 2 ^ k := by
          simp only [F64.value, Option.some.injEq] at hn
          rw [← Rat.mkRat_one n, Rat.mkRat_eq_iff (pow2_ne k) (by decide)] at hn
          simpa using hn
        have hm : num.tmod (2 ^ k) = 0 :=
          Int.dvd_iff_tmod_eq_zero.1 ⟨n, by rw [hnum, Int.mul_comm]⟩
        simp only [floatAsInt] at h
        rw [if_neg (fun h => h hm)] at h
        split at h
        · cases h
        · injection h with h; rw [h]

/-- The bound below is not that of the machine integers: -2^63 fits in an `i64` but the float of
that value is rejected. -/
theorem min_float_rejected :
    (F64.fin (-2 ^ 63) 0).value = some ((i64Min : Int) : Rat) ∧
    floatAsInt (.fin (-2 ^ 63) 0) = .err (.other "int_parsing_size") := by
  constructor
  · simp only [F64.value, i64Min, Option.some.injEq]
    rw [← Rat.mkRat_one]
    rfl
  · decide

/-- A decimal is accepted as an int iff it is finite and integral; the int is the decimal. -/
theorem decimal_as_int_exact (finite : Bool) (num den : Int) (n : Int) :
    decimalAsInt finite num den = .ok n ↔ finite = true ∧ den = 1 ∧ n = num := by
  unfold decimalAsInt
  cases finite with
  | false => simp
  | true =>
    simp only [Bool.not_true, Bool.false_eq_true, if_false, true_and]
    cases h : extractI64 den with
    | none =>
      simp only [reduceCtorEq, false_iff]
      rintro ⟨h1, _⟩
      subst h1
      exact absurd h (by decide)
    | some d =>
      have hd := extractI64_some h
      have : d = 1 ↔ den = 1 := by
        rw [← hd, ← Int64.toInt_inj]; exact Iff.rfl
      by_cases hc : d = 1
      · simp only [hc, ne_eq, not_true_eq_false, if_false]
        constructor
        · intro h; injection h with h; exact ⟨this.1 hc, h.symm⟩
        · rintro ⟨_, h⟩; rw [h]
      · simp only [hc, ne_eq, not_false_eq_true, if_true, reduceCtorEq, false_iff]
        rintro ⟨h1, _⟩; exact hc (this.2 h1)

example : decimalAsInt true 12 1 = .ok 12 := by decide

/-- C57: a float passes the constraints iff it is finite (unless infinities and NaN are allowed),
passes the `multiple_of` test and lies within the bounds; it is returned unchanged. -/
theorem float_constraints_exact (c : ConstrainedFloat) (x : F64) :
    (c.check x = .ok x ∨ ∃ t, c.check x = .err t) ∧
    (c.check x = .ok x ↔ (c.allowInfNan = true ∨ x.value ≠ none) ∧
      (∀ m, c.multipleOf = some m → m x = true) ∧ Within c.le c.lt c.ge c.gt x) := by
  have hfin : x.isFinite = true ↔ x.value ≠ none := by cases x <;> simp [F64.isFinite, F64.value]
  have hle : bound c.le (fun o => o == .lt || o == .eq) "less_than_equal" x = none ↔
      ∀ b, c.le = some b → Le x b := by
    rw [bound_none]
    constructor
    · intro h b hb
      obtain ⟨o, h1, h2⟩ := h b hb
      exact (cmp_le_iff x b).1 (by cases o <;> simp_all)
    · intro h b hb
      rcases (cmp_le_iff x b).2 (h b hb) with h | h
      · exact ⟨_, h, rfl⟩
      · exact ⟨_, h, rfl⟩
  have hlt : bound c.lt (fun o => o == .lt) "less_than" x = none ↔
      ∀ b, c.lt = some b → Lt x b := by
    rw [bound_none]
    constructor
    · intro h b hb
      obtain ⟨o, h1, h2⟩ := h b hb
      exact (cmp_lt_iff x b).1 (by cases o <;> simp_all)
    · intro h b hb
      exact ⟨_, (cmp_lt_iff x b).2 (h b hb), rfl⟩
  have hge : bound c.ge (fun o => o == .gt || o == .eq) "greater_than_equal" x = none ↔
      ∀ b, c.ge = some b → Le b x := by
    rw [bound_none]
    constructor
    · intro h b hb
      obtain ⟨o, h1, h2⟩ := h b hb
      exact (cmp_ge_iff x b).1 (by cases o <;> simp_all)
    · intro h b hb
      rcases (cmp_ge_iff x b).2 (h b hb) with h | h
      · exact ⟨_, h, rfl⟩
      · exact ⟨_, h, rfl⟩
  have hgt : bound c.gt (fun o => o == .gt) "greater_than" x = none ↔
      ∀ b, c.gt = some b → Lt b x := by
    rw [bound_none]
    constructor
    · intro h b hb
      obtain ⟨o, h1, h2⟩ := h b hb
      exact (cmp_gt_iff x b).1 (by cases o <;> simp_all)
    · intro h b hb
      exact ⟨_, (cmp_gt_iff x b).2 (h b hb), rfl⟩
  have hmul : (c.multipleOf.map fun m => m x) = some false ↔ ¬ ∀ m, c.multipleOf = some m → m x = true := by
    cases c.multipleOf with
    | none => simp
    | some m => simp
  unfold ConstrainedFloat.check Within
  rw [← hle, ← hlt, ← hge, ← hgt, ← hfin]
  by_cases h1 : (!c.allowInfNan && !x.isFinite) = true
  · rw [if_pos h1]
    have : ¬ (c.allowInfNan = true ∨ x.isFinite = true) := by
      simp only [Bool.and_eq_true, Bool.not_eq_true'] at h1
      rintro (h | h)
      · rw [h1.1] at h; cases h
      · rw [h1.2] at h; cases h
    exact ⟨.inr ⟨_, rfl⟩, by simp [this]⟩
  · rw [if_neg h1]
    have h1' : c.allowInfNan = true ∨ x.isFinite = true := by
      cases ha : c.allowInfNan <;> cases hb : x.isFinite <;> simp_all
    by_cases h2 : (c.multipleOf.map fun m => m x) = some false
    · rw [if_pos h2]
      exact ⟨.inr ⟨_, rfl⟩, by simp [hmul.1 h2]⟩
    · rw [if_neg h2]
      have h2' : ∀ m, c.multipleOf = some m → m x = true := Decidable.not_not.1 (mt hmul.2 h2)
      simp only [h1', true_and]
      cases bound c.le (fun o => o == .lt || o == .eq) "less_than_equal" x with
      | some t => exact ⟨.inr ⟨_, rfl⟩, by simp⟩
      | none =>
        cases bound c.lt (fun o => o == .lt) "less_than" x with
        | some t => exact ⟨.inr ⟨_, rfl⟩, by simp⟩
        | none =>
          cases bound c.ge (fun o => o == .gt || o == .eq) "greater_than_equal" x with
          | some t => exact ⟨.inr ⟨_, rfl⟩, by simp⟩
          | none =>
            cases bound c.gt (fun o => o == .gt) "greater_than" x with
            | some t => exact ⟨.inr ⟨_, rfl⟩, by simp⟩
            | none => exact ⟨.inl rfl, by simp; exact h2'⟩

-- 2.5 is below 3 and not below 2; NaN is within no bound
example : (ConstrainedFloat.check ⟨true, none, none, some (.fin 3 0), none, none⟩ (.fin 5 1))
    = .ok (.fin 5 1) := by decide
example : (ConstrainedFloat.check ⟨true, none, none, some (.fin 2 0), none, none⟩ (.fin 5 1))
    = .err (.other "less_than") := by decide
example : (ConstrainedFloat.check ⟨true, none, none, none, some (.fin 2 0), none⟩ .nan)
    = .err (.other "greater_than_equal") := by decide

/-- C57: whether or not a schema has constraints, and so whichever validator is built for it, the same floats pass. -/
theorem float_schema_exact (c : ConstrainedFloat) (x : F64) :
    floatSchema c x = c.check x ∧
    (floatSchema c x = .ok x ∨ ∃ t, floatSchema c x = .err t) ∧
    (floatSchema c x = .ok x ↔ (c.allowInfNan = true ∨ x.value ≠ none) ∧
      (∀ m, c.multipleOf = some m → m x = true) ∧ Within c.le c.lt c.ge c.gt x) := by
  have h : floatSchema c x = c.check x := by
    unfold floatSchema
    by_cases h : (c.multipleOf.isSome || c.le.isSome || c.lt.isSome || c.ge.isSome || c.gt.isSome) = true
    · rw [if_pos h]
    · rw [if_neg h]
      obtain ⟨a, m, le, lt, ge, gt⟩ := c
      cases m <;> cases le <;> cases lt <;> cases ge <;> cases gt <;> first | rfl | exact absurd rfl h
  rw [h]
  exact ⟨rfl, float_constraints_exact c x⟩

example : floatSchema ⟨false, none, none, none, none, none⟩ .nan = .err (.other "finite_number") := by decide
example : floatSchema ⟨true, none, none, none, none, none⟩ .nan = .ok .nan := by decide

/-- C57: NaN is within no bound. -/
theorem nan_within_no_bound {le lt ge gt : Option F64} (h : Within le lt ge gt .nan) :
    le = none ∧ lt = none ∧ ge = none ∧ gt = none := by
  obtain ⟨h1, h2, h3, h4⟩ := h
  refine ⟨?_, ?_, ?_, ?_⟩
  · cases le with
    | none => rfl
    | some b => exact absurd rfl (h1 b rfl).1
  · cases lt with
    | none => rfl
    | some b => exact absurd rfl (h2 b rfl).1
  · cases ge with
    | none => rfl
    | some b => exact absurd rfl (h3 b rfl).2.1
  · cases gt with
    | none => rfl
    | some b => exact absurd rfl (h4 b rfl).2.1

end PC.Float
