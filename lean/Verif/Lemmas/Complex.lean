import Verif.Spec.Complex

namespace PC.Complex
variable {M : Type}

def OkChar (c : Char) : Prop := c ≠ ' ' ∧ c ≠ '(' ∧ c ≠ ')' ∧ c ≠ '_'

theorem show_plain (E : Env M) (h : E.Plain) (f : Fl M) : ∀ c ∈ f.show E, OkChar c := by
  intro c hc
  unfold OkChar
  cases f with
  | nan => simp only [Fl.show] at hc; revert c; decide
  | inf neg => cases neg <;> simp only [Fl.show] at hc <;> revert c <;> decide
  | fin neg m =>
    simp only [Fl.show, List.mem_append] at hc
    rcases hc with hc | hc
    · cases neg
      · simp at hc
      · simp at hc; subst hc; decide
    · exact h m c hc

theorem toStr_plain [DecidableEq M] (E : Env M) (h : E.Plain) (c : Cx M) :
    ∀ x ∈ complexToStr E c, OkChar x := by
  intro x hx
  have hj : OkChar 'j' := by unfold OkChar; decide
  have hp : OkChar '+' := by unfold OkChar; decide
  have im := show_plain E h c.im
  have re := show_plain E h c.re
  unfold complexToStr at hx
  dsimp only at hx
  split at hx
  · split at hx <;> simp only [List.mem_append, List.mem_singleton, List.append_nil] at hx
    · rcases hx with (hx | rfl) | hx | rfl
      · exact re x hx
      · exact hp
      · exact im x hx
      · exact hj
    · rcases hx with hx | hx | rfl
      · exact re x hx
      · exact im x hx
      · exact hj
  · simp only [List.mem_append, List.mem_singleton] at hx
    rcases hx with hx | rfl
    · exact im x hx
    · exact hj

theorem isZero_iff [DecidableEq M] (E : Env M) (f : Fl M) : f.isZero E = true ↔ E.IsZero f := by
  unfold Env.IsZero
  cases f with
  | nan => simp [Fl.isZero]
  | inf n => simp [Fl.isZero]
  | fin neg m =>
    simp only [Fl.isZero, decide_eq_true_eq, Fl.fin.injEq]
    constructor
    · rintro rfl; exact ⟨neg, rfl, rfl⟩
    · rintro ⟨_, _, h⟩; exact h

theorem py_plus (E : Env M) (one : M) (strtod : List Char → Option (Fl M × List Char))
    {s r : List Char} {z : Fl M} (h : strtod s = some (z, '+' :: r)) :
    pyComplex E one strtod s = match strtod ('+' :: r) with
      | some (y, rest) => endsInJ z y rest
      | none => endsInJ z (.fin false one) r := by
  unfold pyComplex
  rw [h]
  rfl

theorem py_minus (E : Env M) (one : M) (strtod : List Char → Option (Fl M × List Char))
    {s r : List Char} {z : Fl M} (h : strtod s = some (z, '-' :: r)) :
    pyComplex E one strtod s = match strtod ('-' :: r) with
      | some (y, rest) => endsInJ z y rest
      | none => endsInJ z (.fin true one) r := by
  unfold pyComplex
  rw [h]
  rfl

theorem py_minus_number (E : Env M) (one : M) (strtod : List Char → Option (Fl M × List Char))
    {s t r rest : List Char} {z y : Fl M} (h : strtod s = some (z, t)) (ht : t = '-' :: r)
    (h' : strtod t = some (y, rest)) : pyComplex E one strtod s = endsInJ z y rest := by
  subst ht
  rw [py_minus E one strtod h, h']

/-- What Python makes of the text of a complex number. -/
theorem py_reads [DecidableEq M] (E : Env M) (one : M)
    (strtod : List Char → Option (Fl M × List Char)) (h : Strtod E strtod) (c : Cx M) :
    pyComplex E one strtod (complexToStr E c) =
      if c.re.isZero E then some (E.posZero, c.im)
      else if c.im = .nan ∨ c.im = .fin true E.zero then none
      else some (c.re, c.im) := by
  obtain ⟨re, im⟩ := c
  unfold complexToStr
  cases hz : re.isZero E with
  | true =>
    simp only [Bool.not_true, Bool.false_eq_true, if_false, if_true]
    unfold pyComplex
    rw [h.shown im ['j'] .j]
    rfl
  | false =>
    simp only [Bool.not_false, if_true, Bool.false_eq_true, if_false]
    cases im with
    | nan =>
      simp only [Fl.nonneg, Bool.false_eq_true, if_false, true_or, if_true, List.append_nil]
      unfold pyComplex
      rw [h.shown re _ (show Stop ((Fl.nan : Fl M).show E ++ ['j']) from .n)]
      rfl
    | inf neg =>
      cases neg with
      | false =>
        simp only [Fl.nonneg, Bool.not_false, if_true, reduceCtorEq, or_self, if_false,
          List.append_assoc, List.cons_append, List.nil_append]
        rw [py_plus E one strtod (h.shown re _ .plus)]
        have := h.plusInf ['j'] .j
        rw [List.cons_append] at this
        rw [this]
        rfl
      | true =>
        simp only [Fl.nonneg, Bool.not_true, Bool.false_eq_true, reduceCtorEq, or_self, if_false,
          List.append_nil]
        have hs := h.shown (.inf true) ['j'] .j
        have hr := h.shown re _ (show Stop ((Fl.inf true : Fl M).show E ++ ['j']) from .minus)
        exact py_minus_number E one strtod hr rfl hs
    | fin neg m =>
      cases neg with
      | false =>
        simp only [Fl.nonneg, Bool.not_false, Bool.true_or, if_true, reduceCtorEq, Fl.fin.injEq,
          Bool.false_eq_true, false_and, or_self, if_false, List.append_assoc, List.cons_append,
          List.nil_append]
        rw [py_plus E one strtod (h.shown re _ .plus)]
        have := h.plus m ['j'] .j
        rw [List.cons_append] at this
        rw [this]
        rfl
      | true =>
        by_cases hm : m = E.zero
        · subst hm
          simp only [Fl.nonneg, Bool.not_true, Bool.false_or, decide_true, if_true, or_true,
            List.append_assoc, List.cons_append, List.nil_append]
          rw [py_plus E one strtod (h.shown re _ .plus)]
          simp only [Fl.show, if_true, List.cons_append, List.nil_append]
          rw [h.twoSigns]
          rfl
        · simp only [Fl.nonneg, Bool.not_true, Bool.false_or, hm, decide_false,
            Bool.false_eq_true, if_false, reduceCtorEq, Fl.fin.injEq, and_false, or_self,
            List.append_nil]
          have hs := h.shown (.fin true m) ['j'] .j
          have hr := h.shown re _ (show Stop ((Fl.fin true m : Fl M).show E ++ ['j']) from .minus)
          exact py_minus_number E one strtod hr rfl hs

theorem parse_toStr [DecidableEq M] (E : Env M) (hP : E.Python) (hD : E.Plain) (c : Cx M) :
    E.parse (complexToStr E c) =
      if c.re.isZero E then some (E.posZero, c.im)
      else if c.im = .nan ∨ c.im = .fin true E.zero then none
      else some (c.re, c.im) := by
  obtain ⟨one, strtod, h, hp⟩ := hP
  rw [hp _ (toStr_plain E hD c)]
  exact py_reads E one strtod h c

/-! ### An environment that meets the assumptions -/

/-- Magnitudes are written in unary, for the examples. -/
def unary (m : Nat) : List Char := List.replicate (m + 1) '0'

/-- The number of leading noughts, and the rest. -/
def noughts : List Char → Nat × List Char
  | '0' :: r => ((noughts r).1 + 1, (noughts r).2)
  | r => (0, r)

/-- A number without a sign. -/
def unsigned (neg : Bool) : List Char → Option (Fl Nat × List Char)
  | 'i' :: 'n' :: 'f' :: r => some (.inf neg, r)
  | s =>
    match noughts s with
    | (0, _) => none
    | (m + 1, r) => some (.fin neg m, r)

/-- A number, perhaps with a sign. -/
def sampleStrtod : List Char → Option (Fl Nat × List Char)
  | 'N' :: 'a' :: 'N' :: r => some (.nan, r)
  | '-' :: r => unsigned true r
  | '+' :: r => unsigned false r
  | r => unsigned false r

def sampleBase : Env Nat := ⟨0, unary, fun n => .fin (n < 0) n.natAbs, fun _ => none⟩

def sampleEnv : Env Nat := { sampleBase with parse := pyComplex sampleBase 1 sampleStrtod }

theorem noughts_replicate (k : Nat) (r : List Char) (h : Stop r) :
    noughts (List.replicate k '0' ++ r) = (k, r) := by
  induction k with
  | zero => cases h <;> rfl
  | succ k ih => rw [List.replicate_succ, List.cons_append, noughts, ih]

theorem unsigned_unary (neg : Bool) (m : Nat) (r : List Char) (h : Stop r) :
    unsigned neg (unary m ++ r) = some (.fin neg m, r) := by
  have := noughts_replicate (m + 1) r h
  unfold unary
  rw [List.replicate_succ, List.cons_append] at this ⊢
  have e : ∀ t, unsigned neg ('0' :: t) = match noughts ('0' :: t) with
      | (0, _) => none
      | (m + 1, r) => some (.fin neg m, r) := fun _ => rfl
  rw [e, this]

theorem sample_strtod : Strtod sampleEnv sampleStrtod where
  shown f r h := by
    cases f with
    | nan => rfl
    | inf neg => cases neg <;> rfl
    | fin neg m =>
      cases neg with
      | true => exact unsigned_unary true m r h
      | false => exact unsigned_unary false m r h
  plus m r h := unsigned_unary false m r h
  plusInf r _ := rfl
  twoSigns r := rfl

theorem sample_python : sampleEnv.Python := ⟨1, sampleStrtod, sample_strtod, fun _ _ => rfl⟩

theorem sample_plain : sampleEnv.Plain := by
  intro m c hc
  have : c = '0' := List.eq_of_mem_replicate hc
  subst this
  decide

end PC.Complex
