import Verif.Lemmas.Complex

/-
C87: which inputs a `complex` schema accepts, and when the text that is written for a complex
number is read back.
-/

namespace PC.Complex
variable {M : Type}

/-! ### Validation -/

/-- A schema accepts an input exactly if it stands for a complex number, and, if the schema is
strict, without a conversion; the result is that number. -/
theorem accepted_iff (E : Env M) (strict : Bool) (input : Input M) (st : VState (Input M))
    (c : Cx M) :
    (∃ st', validate E strict input st = some (.ok c, st')) ↔
      ∃ exactly, Means E input c exactly ∧ (strict = true → exactly = true) := by
  unfold validate
  constructor
  · rintro ⟨st', h⟩
    cases input with
    | py x =>
      cases x with
      | complex c' => cases h; exact ⟨true, .py, fun _ => rfl⟩
      | str s =>
        cases strict with
        | true => cases h
        | false =>
          simp only [Input.validateComplex, Py.validateComplex, stringToComplex] at h
          cases hp : E.parse s with
          | none => rw [hp] at h; cases h
          | some p => rw [hp] at h; cases h; exact ⟨false, .pyText hp, fun h => h⟩
      | float f =>
        cases strict with
        | true => cases h
        | false => cases h; exact ⟨false, .pyFloat, fun h => h⟩
      | int n =>
        cases strict with
        | true => cases h
        | false =>
          simp only [Input.validateComplex, Py.validateComplex, Bool.false_eq_true, if_false] at h
          by_cases hf : fitsI64 n = true
          · rw [if_pos hf] at h
            cases h
            simp only [fitsI64, Bool.and_eq_true, decide_eq_true_eq] at hf
            exact ⟨false, .pyInt hf.1 hf.2, fun h => h⟩
          · rw [if_neg hf] at h
            cases h
      | other => cases strict <;> cases h
    | json x =>
      cases x with
      | str s =>
        simp only [Input.validateComplex, Js.validateComplex, stringToComplex] at h
        cases hp : E.parse s with
        | none => rw [hp] at h; cases h
        | some p => rw [hp] at h; cases h; exact ⟨true, .jsonText hp, fun _ => rfl⟩
      | float f =>
        cases strict with
        | true => cases h
        | false => cases h; exact ⟨false, .jsonFloat, fun h => h⟩
      | int n =>
        cases strict with
        | true => cases h
        | false => cases h; exact ⟨false, .jsonInt, fun h => h⟩
      | bigInt n => cases h
      | other => cases h
    | string s =>
      simp only [Input.validateComplex, stringToComplex] at h
      cases hp : E.parse s with
      | none => rw [hp] at h; cases h
      | some p => rw [hp] at h; cases h; exact ⟨true, .string hp, fun _ => rfl⟩
    | mapping => cases h
  · rintro ⟨exactly, hm, hs⟩
    cases hm with
    | py => exact ⟨_, rfl⟩
    | pyText hp =>
      cases strict with
      | true => exact absurd (hs rfl) (by decide)
      | false =>
        simp only [Input.validateComplex, Py.validateComplex, stringToComplex, hp]
        exact ⟨_, rfl⟩
    | pyFloat =>
      cases strict with
      | true => exact absurd (hs rfl) (by decide)
      | false => exact ⟨_, rfl⟩
    | @pyInt n h1 h2 =>
      cases strict with
      | true => exact absurd (hs rfl) (by decide)
      | false =>
        have hf : fitsI64 n = true := by
          simp only [fitsI64, Bool.and_eq_true, decide_eq_true_eq]; exact ⟨h1, h2⟩
        simp only [Input.validateComplex, Py.validateComplex, Bool.false_eq_true, if_false, hf,
          if_true]
        exact ⟨_, rfl⟩
    | jsonText hp => simp only [Input.validateComplex, Js.validateComplex, stringToComplex, hp]; exact ⟨_, rfl⟩
    | jsonFloat =>
      cases strict with
      | true => exact absurd (hs rfl) (by decide)
      | false => exact ⟨_, rfl⟩
    | jsonInt =>
      cases strict with
      | true => exact absurd (hs rfl) (by decide)
      | false => exact ⟨_, rfl⟩
    | string hp => simp only [Input.validateComplex, stringToComplex, hp]; exact ⟨_, rfl⟩

def st0 : VState (Input Nat) := VState.new {} .init .off

example : Means sampleEnv (.json (.str "00-0j".toList)) ⟨.fin false 1, .fin true 0⟩ true :=
  .jsonText rfl

/-- The exactness is that of a conversion exactly if there was one, and never `exact`. -/
theorem state_after (E : Env M) (strict : Bool) (input : Input M) (st st' : VState (Input M))
    (c : Cx M) (exactly : Bool) (hm : Means E input c exactly)
    (h : validate E strict input st = some (.ok c, st')) :
    st' = st.floorExactness (if exactly then .strict else .lax) := by
  unfold validate at h
  cases hm with
  | py => cases h; rfl
  | pyText hp =>
    cases strict with
    | true => cases h
    | false =>
      simp only [Input.validateComplex, Py.validateComplex, stringToComplex, hp] at h
      cases h; rfl
  | pyFloat => cases strict <;> cases h; rfl
  | @pyInt n h1 h2 =>
    cases strict with
    | true => cases h
    | false =>
      have hf : fitsI64 n = true := by
        simp only [fitsI64, Bool.and_eq_true, decide_eq_true_eq]; exact ⟨h1, h2⟩
      simp only [Input.validateComplex, Py.validateComplex, Bool.false_eq_true, if_false, hf,
        if_true] at h
      cases h; rfl
  | jsonText hp =>
    simp only [Input.validateComplex, Js.validateComplex, stringToComplex, hp] at h
    cases h; rfl
  | jsonFloat => cases strict <;> cases h; rfl
  | jsonInt => cases strict <;> cases h; rfl
  | string hp =>
    simp only [Input.validateComplex, stringToComplex, hp] at h
    cases h; rfl

example : validate sampleEnv false (.py (.float (.fin true 3))) st0
    = some (.ok ⟨.fin true 3, .fin false 0⟩, st0.floorExactness .lax) := rfl

/-- The only inputs that make the validator panic are Python integers of more than 64 bits, given
to a schema that is not strict. -/
theorem panics_iff (E : Env M) (strict : Bool) (input : Input M) (st : VState (Input M)) :
    validate E strict input st = none ↔
      strict = false ∧ ∃ n : Int, input = .py (.int n) ∧ ¬ (-(2 ^ 63) ≤ n ∧ n < 2 ^ 63) := by
  unfold validate
  constructor
  · intro h
    have key : input.validateComplex E strict = .panic := by
      cases hv : input.validateComplex E strict with
      | panic => rfl
      | error t => rw [hv] at h; cases h
      | ok c e => rw [hv] at h; cases h
    cases input with
    | py x =>
      cases x with
      | complex c => cases key
      | str s =>
        cases strict <;> simp only [Input.validateComplex, Py.validateComplex] at key
        · cases hs : stringToComplex E s <;> rw [hs] at key <;> cases key
        · cases key
      | float f => cases strict <;> cases key
      | int n =>
        cases strict with
        | true => cases key
        | false =>
          refine ⟨rfl, n, rfl, fun hn => ?_⟩
          have hf : fitsI64 n = true := by
            simp only [fitsI64, Bool.and_eq_true, decide_eq_true_eq]; exact hn
          simp only [Input.validateComplex, Py.validateComplex, Bool.false_eq_true, if_false, hf,
            if_true] at key
          cases key
      | other => cases strict <;> cases key
    | json x =>
      cases x with
      | str s =>
        simp only [Input.validateComplex, Js.validateComplex] at key
        cases hs : stringToComplex E s <;> rw [hs] at key <;> cases key
      | float f => cases strict <;> cases key
      | int n => cases strict <;> cases key
      | bigInt n => cases key
      | other => cases key
    | string s =>
      simp only [Input.validateComplex] at key
      cases hs : stringToComplex E s <;> rw [hs] at key <;> cases key
    | mapping => cases key
  · rintro ⟨rfl, n, rfl, hn⟩
    have hf : fitsI64 n = false := by
      rw [Bool.eq_false_iff]
      simp only [fitsI64, ne_eq, Bool.and_eq_true, decide_eq_true_eq]; exact hn
    simp only [Input.validateComplex, Py.validateComplex, Bool.false_eq_true, if_false, hf]

example : validate sampleEnv false (.py (.int (2 ^ 63))) st0 = none := rfl

/-- `strict` of the call has no influence. -/
theorem call_strict_ignored (E : Env M) (strict : Bool) (input : Input M) (st : VState (Input M))
    (s : Option Bool) :
    (validate E strict input { st with extra := { st.extra with strict := s } }).map Prod.fst =
      (validate E strict input st).map Prod.fst := by
  unfold validate
  cases input.validateComplex E strict <;> rfl

/-- A strict call of a schema that is not strict accepts an integer. -/
theorem strict_call_coerces_witness :
    ((validate sampleEnv false (.py (.int 5)) { st0 with extra := { strict := some true } }).map
      Prod.fst) = some (.ok ⟨.fin false 5, .fin false 0⟩) := rfl

/-! ### Writing -/

/-- The text of a number is read back as that number, unless its real part is the negative zero,
or it has a real part other than zero and its imaginary part is not a number or the negative
zero. -/
theorem roundtrip_iff [DecidableEq M] (E : Env M) (hP : E.Python) (hD : E.Plain) (strict : Bool)
    (c : Cx M) (st : VState (Input M)) :
    (∃ st', validate E strict (.json (.str (complexToStr E c))) st = some (.ok c, st')) ↔
      c.re ≠ .fin true E.zero ∧
        (¬ E.IsZero c.re → c.im ≠ .nan ∧ c.im ≠ .fin true E.zero) := by
  have hm : (∃ st', validate E strict (.json (.str (complexToStr E c))) st = some (.ok c, st')) ↔
      E.parse (complexToStr E c) = some (c.re, c.im) := by
    rw [accepted_iff]
    constructor
    · rintro ⟨_, hm, -⟩
      cases hm with
      | jsonText hp => exact hp
    · exact fun hp => ⟨true, .jsonText hp, fun _ => rfl⟩
  rw [hm, parse_toStr E hP hD]
  by_cases hz : c.re.isZero E = true
  · rw [if_pos hz]
    obtain ⟨neg, hn⟩ := (isZero_iff E c.re).1 hz
    have : E.IsZero c.re := ⟨neg, hn⟩
    simp only [this, not_true_eq_false, false_imp_iff, and_true, Option.some.injEq, Prod.mk.injEq]
    rw [hn]
    cases neg <;> simp [Env.posZero]
  · rw [if_neg hz]
    have hz' : ¬ E.IsZero c.re := fun h => hz ((isZero_iff E c.re).2 h)
    have hn : c.re ≠ .fin true E.zero := fun h => hz' ⟨true, h⟩
    by_cases hi : c.im = .nan ∨ c.im = .fin true E.zero
    · rw [if_pos hi]
      simp only [reduceCtorEq, false_iff, not_and, not_imp]
      exact fun _ => ⟨hz', fun h1 h2 => hi.elim h1 h2⟩
    · rw [if_neg hi]
      simp only [true_iff]
      exact ⟨hn, fun _ => ⟨fun h => hi (Or.inl h), fun h => hi (Or.inr h)⟩⟩

/-- The text is refused exactly in the second case; otherwise only the sign of a real part of zero
is lost. -/
theorem unreadable_iff [DecidableEq M] (E : Env M) (hP : E.Python) (hD : E.Plain) (strict : Bool)
    (c : Cx M) (st : VState (Input M)) :
    ((¬ ∃ c' st', validate E strict (.json (.str (complexToStr E c))) st = some (.ok c', st')) ↔
      ¬ E.IsZero c.re ∧ (c.im = .nan ∨ c.im = .fin true E.zero)) ∧
    ∀ c' st', validate E strict (.json (.str (complexToStr E c))) st = some (.ok c', st') →
      c'.im = c.im ∧ (c'.re = c.re ∨ (E.IsZero c'.re ∧ E.IsZero c.re)) := by
  have hm : ∀ c', (∃ st', validate E strict (.json (.str (complexToStr E c))) st
      = some (.ok c', st')) ↔ E.parse (complexToStr E c) = some (c'.re, c'.im) := by
    intro c'
    rw [accepted_iff]
    constructor
    · rintro ⟨_, hm, -⟩
      cases hm with
      | jsonText hp => exact hp
    · exact fun hp => ⟨true, .jsonText hp, fun _ => rfl⟩
  have hp := parse_toStr E hP hD c
  by_cases hz : c.re.isZero E = true
  · rw [if_pos hz] at hp
    have hz' := (isZero_iff E c.re).1 hz
    refine ⟨?_, ?_⟩
    · refine iff_of_false ?_ (fun h => h.1 hz')
      intro h
      obtain ⟨st', h'⟩ := (hm ⟨E.posZero, c.im⟩).2 hp
      exact h ⟨_, st', h'⟩
    · intro c' st' h
      have := (hm c').1 ⟨st', h⟩
      rw [hp] at this
      cases c'
      cases this
      exact ⟨rfl, Or.inr ⟨⟨false, rfl⟩, hz'⟩⟩
  · rw [if_neg hz] at hp
    have hz' : ¬ E.IsZero c.re := fun h => hz ((isZero_iff E c.re).2 h)
    by_cases hi : c.im = .nan ∨ c.im = .fin true E.zero
    · rw [if_pos hi] at hp
      refine ⟨iff_of_true ?_ ⟨hz', hi⟩, ?_⟩
      · rintro ⟨c', st', h⟩
        have := (hm c').1 ⟨st', h⟩
        rw [hp] at this
        cases this
      · intro c' st' h
        have := (hm c').1 ⟨st', h⟩
        rw [hp] at this
        cases this
    · rw [if_neg hi] at hp
      refine ⟨iff_of_false ?_ (fun h => hi h.2), ?_⟩
      · intro h
        obtain ⟨st', h'⟩ := (hm c).2 hp
        exact h ⟨c, st', h'⟩
      · intro c' st' h
        have := (hm c').1 ⟨st', h⟩
        rw [hp] at this
        cases c'
        cases this
        exact ⟨rfl, Or.inl rfl⟩

example : sampleEnv.Python ∧ sampleEnv.Plain := ⟨sample_python, sample_plain⟩

/-- Two complex numbers that are read back are written differently. -/
theorem text_injective [DecidableEq M] (E : Env M) (hP : E.Python) (hD : E.Plain) (c c' : Cx M)
    (h : c.re ≠ .fin true E.zero ∧ (¬ E.IsZero c.re → c.im ≠ .nan ∧ c.im ≠ .fin true E.zero))
    (h' : c'.re ≠ .fin true E.zero ∧ (¬ E.IsZero c'.re → c'.im ≠ .nan ∧ c'.im ≠ .fin true E.zero))
    (he : complexToStr E c = complexToStr E c') : c = c' := by
  obtain ⟨s1, h1⟩ := (roundtrip_iff E hP hD true c (VState.new {} .init .off)).2 h
  obtain ⟨s2, h2⟩ := (roundtrip_iff E hP hD true c' (VState.new {} .init .off)).2 h'
  rw [he, h2] at h1
  cases h1
  rfl

example : (Cx.mk (Fl.fin false 2) (Fl.fin true 1)).re ≠ .fin true sampleEnv.zero ∧
    (Cx.mk (Fl.fin false 2) (Fl.fin true 1)).im ≠ .fin true sampleEnv.zero := by
  constructor <;> (intro h; cases h)

/-- The code writes `1+-0j` and `1NaNj`, which no schema reads. -/
theorem unreadable_witnesses :
    complexToStr sampleEnv ⟨.fin false 1, .fin true 0⟩ = "00+-0j".toList ∧
    complexToStr sampleEnv ⟨.fin false 1, .nan⟩ = "00NaNj".toList ∧
    sampleEnv.parse "00+-0j".toList = none ∧ sampleEnv.parse "00NaNj".toList = none :=
  ⟨rfl, rfl, rfl, rfl⟩

end PC.Complex
