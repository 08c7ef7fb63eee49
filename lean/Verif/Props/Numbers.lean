import Verif.Lemmas.Numbers

/-
C23: integer constraints are exact for machine integers and big integers alike.
-/

namespace PC.Num

/-- C23, full statement: an integer is accepted, unchanged, iff it meets the constraints, whatever
representation it and the constraints arrived in; anything else is a validation error.  This is
false: see `multiple_of_zero_panics` and `multiple_of_minus_one_panics`. -/
def ConstraintsExact : Prop :=
  ∀ (multipleOf le lt ge gt : Option EitherInt) (e : EitherInt),
    let r := (ConstrainedInt.ofInts multipleOf le lt ge gt).check e
    (r = .ok e ∨ ∃ t, r = .err t) ∧
    (r = .ok e ↔ Satisfies (multipleOf.map EitherInt.val) (le.map EitherInt.val)
      (lt.map EitherInt.val) (ge.map EitherInt.val) (gt.map EitherInt.val) e.val)

/-- The inputs on which the remainder is defined: `multiple_of` is not zero and we do not ask
whether `i64::MIN` is a multiple of minus one. -/
def RemDefined (multipleOf : Option EitherInt) (e : EitherInt) : Prop :=
  ∀ m, multipleOf = some m → m.val ≠ 0 ∧ ¬ (m.val = -1 ∧ e.val = i64Min)

/-- C23: apart from the two panicking cases, an integer is accepted, unchanged, iff it meets all
the constraints mathematically; otherwise a validation error is raised. -/
theorem int_constraints_exact_partial (multipleOf le lt ge gt : Option EitherInt) (e : EitherInt)
    (h : RemDefined multipleOf e) :
    let r := (ConstrainedInt.ofInts multipleOf le lt ge gt).check e
    (r = .ok e ∨ ∃ t, r = .err t) ∧
    (r = .ok e ↔ Satisfies (multipleOf.map EitherInt.val) (le.map EitherInt.val)
      (lt.map EitherInt.val) (ge.map EitherInt.val) (gt.map EitherInt.val) e.val) := by
  have hb : ∀ c : ConstrainedInt, c = ConstrainedInt.ofInts multipleOf le lt ge gt →
      (c.bounds e e.asInt = .ok e ↔
        (∀ b, le.map EitherInt.val = some b → e.val ≤ b) ∧
        (∀ b, lt.map EitherInt.val = some b → e.val < b) ∧
        (∀ b, ge.map EitherInt.val = some b → b ≤ e.val) ∧
        (∀ b, gt.map EitherInt.val = some b → b < e.val)) := by
    intro c hc
    rw [bounds_ok, upper_none, lower_none, asInt_val, hc]
    simp only [ConstrainedInt.ofInts, constraint_val, and_assoc]
  intro r
  cases hm : multipleOf with
  | none =>
    subst hm
    have hr : r = (ConstrainedInt.ofInts none le lt ge gt).bounds e e.asInt := rfl
    rw [hr]
    refine ⟨bounds_cases _ _ _, ?_⟩
    rw [hb _ rfl]
    simp [Satisfies]
  | some m =>
    subst hm
    obtain ⟨h0, h1⟩ := h m rfl
    cases hrem : e.asInt.rem m.asInt with
    | none =>
      exfalso
      rcases (rem_none_iff _ _).1 hrem with hz | ⟨ha, hb⟩
      · rw [asInt_val] at hz; exact h0 hz
      · apply h1
        rw [← asInt_val m, ← asInt_val e, ha, hb]
        exact ⟨rfl, rfl⟩
    | some q =>
      have hr : r = if !q.beq (.big 0) then .err (.other "multiple_of")
          else (ConstrainedInt.ofInts (some m) le lt ge gt).bounds e e.asInt := by
        show (match e.asInt.rem m.asInt with
          | none => Checked.panic
          | some r => if !r.beq (.big 0) then .err (.other "multiple_of")
            else (ConstrainedInt.ofInts (some m) le lt ge gt).bounds e e.asInt) = _
        rw [hrem]
      have hq : q.beq (.big 0) = true ↔ m.val ∣ e.val := by
        rw [beq_zero_iff, rem_some hrem, asInt_val, asInt_val, Int.dvd_iff_tmod_eq_zero]
      by_cases hd : q.beq (.big 0) = true
      · rw [hd] at hr
        have hr : r = (ConstrainedInt.ofInts (some m) le lt ge gt).bounds e e.asInt := hr
        rw [hr]
        refine ⟨bounds_cases _ _ _, ?_⟩
        rw [hb _ rfl]
        simp [Satisfies, hq.1 hd]
      · have hd' : q.beq (.big 0) = false := by simpa using hd
        rw [hd'] at hr
        have hr : r = .err (.other "multiple_of") := hr
        rw [hr]
        refine ⟨.inr ⟨_, rfl⟩, ?_⟩
        constructor
        · intro h; cases h
        · intro h; exact absurd (h.1 _ rfl) (mt hq.2 hd)

-- 2^70 is a multiple of 2^65 in range; the bounds are given as a string-parsed and a machine int
example : (ConstrainedInt.ofInts (some (.py (2^65))) (some (.big (2^70))) none
    (some (.i64 5)) none).check (.py (2^70)) = .ok (.py (2^70)) := by decide
example : RemDefined (some (.py (2^65))) (.py (2^70)) := by
  intro m h; cases h; decide
example : (ConstrainedInt.ofInts (some (.py (2^65))) none none none none).check (.py (2^70 + 1))
    = .err (.other "multiple_of") := by decide

/-- C23 fails: with `multiple_of=0` validation panics, whatever the integer. -/
theorem multiple_of_zero_panics (e : EitherInt) (le lt ge gt : Option EitherInt) :
    (ConstrainedInt.ofInts (some (.py 0)) le lt ge gt).check e = .panic := by
  have h : e.asInt.rem (EitherInt.py 0).asInt = none :=
    (rem_none_iff _ _).2 (.inl (by decide))
  show (match e.asInt.rem (EitherInt.py 0).asInt with
    | none => Checked.panic
    | some r => if !r.beq (.big 0) then .err (.other "multiple_of")
      else (ConstrainedInt.ofInts (some (.py 0)) le lt ge gt).bounds e e.asInt) = _
  rw [h]

example : (ConstrainedInt.ofInts (some (.py 0)) none none none none).check (.py 7) = .panic := by
  decide

/-- C23 fails: with `multiple_of=-1` validating `-2**63` panics. -/
theorem multiple_of_minus_one_panics :
    (ConstrainedInt.ofInts (some (.py (-1))) none none none none).check (.py (-2^63)) = .panic := by
  decide

theorem constraints_not_exact : ¬ ConstraintsExact := by
  intro h
  have := (h (some (.py 0)) none none none none (.py 7)).1
  revert this
  rw [multiple_of_zero_panics]
  rintro (h | ⟨t, h⟩) <;> cases h

/-- Which error is reported: divisibility first, then the upper bounds, then the lower ones. -/
theorem int_error_kind {multipleOf le lt ge gt : Option EitherInt} {e : EitherInt} {t : ErrType}
    (h : (ConstrainedInt.ofInts multipleOf le lt ge gt).check e = .err t) :
    (t = .other "multiple_of" ∧ ∃ m, multipleOf = some m ∧ ¬ m.val ∣ e.val) ∨
    (t = .other "less_than_equal" ∧ ∃ b, le = some b ∧ b.val < e.val) ∨
    (t = .other "less_than" ∧ ∃ b, lt = some b ∧ b.val ≤ e.val) ∨
    (t = .other "greater_than_equal" ∧ ∃ b, ge = some b ∧ e.val < b.val) ∨
    (t = .other "greater_than" ∧ ∃ b, gt = some b ∧ e.val ≤ b.val) := by
  have key : ∀ mo, (ConstrainedInt.ofInts mo le lt ge gt).bounds e e.asInt = .err t →
      (t = .other "less_than_equal" ∧ ∃ b, le = some b ∧ b.val < e.val) ∨
      (t = .other "less_than" ∧ ∃ b, lt = some b ∧ b.val ≤ e.val) ∨
      (t = .other "greater_than_equal" ∧ ∃ b, ge = some b ∧ e.val < b.val) ∨
      (t = .other "greater_than" ∧ ∃ b, gt = some b ∧ e.val ≤ b.val) := by
    intro mo h
    unfold ConstrainedInt.bounds at h
    cases hu : (ConstrainedInt.ofInts mo le lt ge gt).upper e.asInt with
    | some t' =>
      rw [hu] at h; cases h
      rcases upper_some hu with ⟨h1, b, h2, h3⟩ | ⟨h1, b, h2, h3⟩
      · refine .inl ⟨h1, ?_⟩
        obtain ⟨b', hb, rfl⟩ := Option.map_eq_some_iff.1 h2
        exact ⟨b', hb, by rwa [asInt_val, asInt_val] at h3⟩
      · refine .inr (.inl ⟨h1, ?_⟩)
        obtain ⟨b', hb, rfl⟩ := Option.map_eq_some_iff.1 h2
        exact ⟨b', hb, by rwa [asInt_val, asInt_val] at h3⟩
    | none =>
      rw [hu] at h
      cases hl : (ConstrainedInt.ofInts mo le lt ge gt).lower e.asInt with
      | none => simp only [hl] at h; cases h
      | some t' =>
        simp only [hl] at h; cases h
        rcases lower_some hl with ⟨h1, b, h2, h3⟩ | ⟨h1, b, h2, h3⟩
        · refine .inr (.inr (.inl ⟨h1, ?_⟩))
          obtain ⟨b', hb, rfl⟩ := Option.map_eq_some_iff.1 h2
          exact ⟨b', hb, by rwa [asInt_val, asInt_val] at h3⟩
        · refine .inr (.inr (.inr ⟨h1, ?_⟩))
          obtain ⟨b', hb, rfl⟩ := Option.map_eq_some_iff.1 h2
          exact ⟨b', hb, by rwa [asInt_val, asInt_val] at h3⟩
  cases hm : multipleOf with
  | none => subst hm; exact .inr (key none h)
  | some m =>
    subst hm
    have h' : (match e.asInt.rem m.asInt with
      | none => Checked.panic
      | some r => if !r.beq (.big 0) then .err (.other "multiple_of")
        else (ConstrainedInt.ofInts (some m) le lt ge gt).bounds e e.asInt) = .err t := h
    cases hrem : e.asInt.rem m.asInt with
    | none => rw [hrem] at h'; cases h'
    | some q =>
      rw [hrem] at h'
      have hq : q.beq (.big 0) = true ↔ m.val ∣ e.val := by
        rw [beq_zero_iff, rem_some hrem, asInt_val, asInt_val, Int.dvd_iff_tmod_eq_zero]
      by_cases hd : q.beq (.big 0) = true
      · simp only [hd, Bool.not_true] at h'
        exact .inr (key (some m) h')
      · have hd' : q.beq (.big 0) = false := by simpa using hd
        simp only [hd', Bool.not_false, if_true] at h'
        cases h'
        exact .inl ⟨rfl, m, rfl, mt hq.2 hd⟩

example : (ConstrainedInt.ofInts none none (some (.py 3)) none none).check (.i64 3)
    = .err (.other "less_than") := by decide

end PC.Num
