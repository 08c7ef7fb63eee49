import Verif.Spec.IntParse

/-
Lemmas about reading integers from strings.
-/

namespace PC.IntParse
open PC.Num

/-! ### Characters -/

theorem digit_ne {c : Char} (h : isDigit c = true) :
    c ≠ '-' ∧ c ≠ '+' ∧ c ≠ '.' ∧ c ≠ '_' ∧ isSpace c = false := by
  have hd : '0' ≤ c ∧ c ≤ '9' := by simpa [isDigit] using h
  have h1 : 48 ≤ c.toNat := hd.1
  have h2 : c.toNat ≤ 57 := hd.2
  have ne : ∀ d : Char, (d.toNat < 48 ∨ 57 < d.toNat) → c ≠ d := by
    intro d hd e; subst e; omega
  refine ⟨ne _ (by decide), ne _ (by decide), ne _ (by decide), ne _ (by decide), ?_⟩
  simp only [isSpace, Bool.or_eq_false_iff, Bool.and_eq_false_iff, decide_eq_false_iff_not,
    beq_eq_false_iff_ne]
  omega

theorem digit19 {c : Char} : ('1' ≤ c ∧ c ≤ '9') ↔ isDigit c = true ∧ c ≠ '0' := by
  have key : ∀ a b : Char, a ≤ b ↔ a.toNat ≤ b.toNat := fun a b => Iff.rfl
  have e : c = '0' ↔ c.toNat = 48 := by
    constructor
    · intro h; subst h; rfl
    · intro h; exact Char.toNat_inj.1 h
  simp only [isDigit, decide_eq_true_eq, key, e, ne_eq]
  have h1 : ('1' : Char).toNat = 49 := rfl
  have h0 : ('0' : Char).toNat = 48 := rfl
  have h9 : ('9' : Char).toNat = 57 := rfl
  omega

theorem zero_digit : isDigit '0' = true := by decide

/-! ### `jiterInt` -/

theorem jiterDigits_ok {len : Nat} {ds : List Char} {n : Nat}
    (h : jiterDigits len ds = some (.ok n)) :
    ds ≠ [] ∧ ds.all isDigit = true ∧ n = digitsVal ds := by
  cases ds with
  | nil => cases h
  | cons c rest =>
    simp only [jiterDigits] at h
    refine ⟨by simp, ?_⟩
    by_cases hc : c = '0'
    · rw [if_pos hc] at h
      by_cases hr : rest.isEmpty = true
      · rw [if_pos hr] at h; cases h
        have : rest = [] := by simpa using hr
        subst hc; subst this; exact ⟨by decide, by decide⟩
      · rw [if_neg hr] at h; cases h
    · rw [if_neg hc] at h
      by_cases hd : (c :: rest).all isDigit = true
      · rw [if_pos hd] at h
        by_cases hl : len > 4300
        · rw [if_pos hl] at h; cases h
        · rw [if_neg hl] at h; cases h; exact ⟨hd, rfl⟩
      · rw [if_neg hd] at h; cases h

theorem jiterDigits_complete {len : Nat} {ds : List Char} (hl : len ≤ 4300) (hne : ds ≠ [])
    (hd : ds.all isDigit = true) (h0 : ds = ['0'] ∨ ds.head? ≠ some '0') :
    jiterDigits len ds = some (.ok (digitsVal ds)) := by
  cases ds with
  | nil => exact absurd rfl hne
  | cons c rest =>
    simp only [jiterDigits]
    by_cases hc : c = '0'
    · rw [if_pos hc]
      rcases h0 with h0 | h0
      · injection h0 with h1 h2
        subst h2
        subst hc
        decide
      · exact absurd (by simp [hc]) h0
    · rw [if_neg hc, if_pos hd, if_neg (by omega)]

/-- The strings `jiterInt` accepts are a sign and digits. -/
theorem jiterInt_ok {s : List Char} {n : Int} (h : jiterInt s = .ok n) :
    ∃ ds : List Char, ds ≠ [] ∧ ds.all isDigit = true ∧
      ((s = ds ∧ n = digitsVal ds) ∨ (s = '-' :: ds ∧ n = -(digitsVal ds : Int))) := by
  unfold jiterInt at h
  split at h
  · rename_i ds
    split at h
    · rename_i m hm
      cases h
      obtain ⟨h1, h2, h3⟩ := jiterDigits_ok hm
      exact ⟨ds, h1, h2, .inr ⟨rfl, by rw [h3]⟩⟩
    · cases h
    · cases h
  · split at h
    · rename_i m hm
      cases h
      obtain ⟨h1, h2, h3⟩ := jiterDigits_ok hm
      exact ⟨s, h1, h2, .inl ⟨rfl, by rw [h3]⟩⟩
    · cases h
    · cases h

theorem jiterInt_complete {s ds : List Char} (hl : s.length ≤ 4300) (hne : ds ≠ [])
    (hd : ds.all isDigit = true) (h0 : ds = ['0'] ∨ ds.head? ≠ some '0') :
    (s = ds → jiterInt s = .ok (digitsVal ds)) ∧
    (s = '-' :: ds → jiterInt s = .ok (-(digitsVal ds : Int))) := by
  constructor
  · intro hs
    unfold jiterInt
    split
    · rename_i ds'
      exfalso
      rw [← hs] at hd
      simp [isDigit] at hd
    · rw [hs, jiterDigits_complete (hs ▸ hl) hne hd h0]
  · intro hs
    subst hs
    simp only [jiterInt]
    rw [jiterDigits_complete hl hne hd h0]

/-- A string that is not too long is not out of range. -/
theorem jiterInt_short {s : List Char} (hl : s.length ≤ 4300) : jiterInt s ≠ .outOfRange := by
  have key : ∀ (ds : List Char), jiterDigits s.length ds ≠ some (.error ()) := by
    intro ds
    cases ds with
    | nil => simp [jiterDigits]
    | cons c rest =>
      simp only [jiterDigits]
      by_cases hc : c = '0'
      · rw [if_pos hc]; split <;> simp
      · rw [if_neg hc]
        split
        · rw [if_neg (by omega)]; simp
        · simp
  unfold jiterInt
  split
  · rename_i ds
    split
    · simp
    · rename_i h; exact absurd h (key ds)
    · simp
  · split
    · simp
    · rename_i h; exact absurd h (key s)
    · simp

/-! ### Values -/

theorem digitsVal_zero (ds : List Char) : digitsVal ('0' :: ds) = digitsVal ds := rfl

theorem digits_filter {ds : List Char} (h : ds.all isDigit = true) : ds.filter isDigit = ds := by
  rw [List.filter_eq_self]; simpa using h

theorem digits_noDot {ds : List Char} (h : ds.all isDigit = true) :
    ds.takeWhile (· ≠ '.') = ds := by
  induction ds with
  | nil => rfl
  | cons c rest ih =>
    simp only [List.all_cons, Bool.and_eq_true] at h
    rw [List.takeWhile_cons_of_pos (by simpa using (digit_ne h.1).2.2.1), ih h.2]

theorem digits_noMinus {ds : List Char} (h : ds.all isDigit = true) : '-' ∉ ds := by
  intro hm
  have := List.all_eq_true.1 h _ hm
  revert this; decide

theorem literalValue_digits {ds : List Char} (h : ds.all isDigit = true) :
    literalValue ds = digitsVal ds := by
  unfold literalValue
  rw [digits_noDot h, digits_filter h, if_neg (digits_noMinus h)]

theorem literalValue_neg {ds : List Char} (h : ds.all isDigit = true) :
    literalValue ('-' :: ds) = -(digitsVal ds : Int) := by
  unfold literalValue
  rw [List.takeWhile_cons_of_pos (by decide), digits_noDot h,
    List.filter_cons_of_neg (by decide), digits_filter h, if_pos (by simp)]

theorem jiterInt_value {s : List Char} {n : Int} (h : jiterInt s = .ok n) : n = literalValue s := by
  obtain ⟨ds, _, hd, ⟨h1, h2⟩ | ⟨h1, h2⟩⟩ := jiterInt_ok h
  · rw [h1, h2, literalValue_digits hd]
  · rw [h1, h2, literalValue_neg hd]

/-! ### Digit groups -/

theorem groups_digits {ds : List Char} (hne : ds ≠ []) (h : ds.all isDigit = true) :
    DigitGroups ds := by
  have hall : ∀ c ∈ ds, isDigit c = true := by simpa using h
  refine ⟨fun c hc => .inl (hall c hc), ?_, ?_, ?_⟩
  · cases ds with
    | nil => exact absurd rfl hne
    | cons c rest => exact ⟨c, rfl, hall c (by simp)⟩
  · refine ⟨ds.getLast hne, List.getLast?_eq_some_getLast hne, hall _ (List.getLast_mem hne)⟩
  · intro hi
    have : '_' ∈ ds := hi.subset (by simp)
    exact (digit_ne (hall _ this)).2.2.2.1 rfl

theorem hasDouble_iff (s : List Char) : hasDouble s = true ↔ ['_', '_'] <:+: s := by
  induction s with
  | nil => simp [hasDouble]
  | cons c rest ih =>
    rw [List.infix_cons_iff, ← ih]
    cases rest with
    | nil => simp [hasDouble]
    | cons d rest' =>
      by_cases hc : c = '_'
      · by_cases hd : d = '_'
        · subst hc; subst hd; simp [hasDouble]
        · subst hc
          simp [hasDouble, hd, List.cons_prefix_cons]
          intro h; exact absurd h.symm hd
      · simp [hasDouble, hc, List.cons_prefix_cons]
        intro h; exact absurd h.symm hc

/-- Do the two characters occur next to each other? -/
def hasPair (a b : Char) : List Char → Bool
  | x :: y :: rest => (x == a && y == b) || hasPair a b (y :: rest)
  | _ => false

theorem hasPair_iff (a b : Char) (s : List Char) : hasPair a b s = true ↔ [a, b] <:+: s := by
  induction s with
  | nil => simp [hasPair]
  | cons c rest ih =>
    rw [List.infix_cons_iff, ← ih]
    cases rest with
    | nil => simp [hasPair]
    | cons d rest' => simp [hasPair, List.cons_prefix_cons, @eq_comm _ c, @eq_comm _ d]

theorem filter_underscore {b : List Char} (h : ∀ c ∈ b, isDigit c = true ∨ c = '_') :
    b.filter (· ≠ '_') = b.filter isDigit := by
  apply List.filter_congr
  intro c hc
  rcases h c hc with h' | h'
  · simp [h', (digit_ne h').2.2.2.1]
  · subst h'; decide

/-- Underscores are stripped, or there are none, from digit groups. -/
theorem stripUnderscores_groups {b : List Char} (h : DigitGroups b) :
    (stripUnderscores b = some (b.filter isDigit)) ∨
    (stripUnderscores b = none ∧ b.all isDigit = true) := by
  have h1 : b.head? ≠ some '_' := by
    obtain ⟨c, hc, hd⟩ := h.head
    rw [hc]; intro e; injection e with e; subst e; revert hd; decide
  have h2 : b.getLast? ≠ some '_' := by
    obtain ⟨c, hc, hd⟩ := h.last
    rw [hc]; intro e; injection e with e; subst e; revert hd; decide
  have h3 : hasDouble b ≠ true := fun h4 => h.single ((hasDouble_iff b).1 h4)
  unfold stripUnderscores
  by_cases hc : b.contains '_' = false
  · right
    rw [if_pos (.inr (.inr (.inl hc)))]
    refine ⟨rfl, ?_⟩
    rw [List.all_eq_true]
    intro c hm
    rcases h.chars c hm with h' | h'
    · exact h'
    · subst h'; simp at hc; exact absurd hm hc
  · left
    rw [if_neg (by rintro (h | h | h | h) <;> contradiction), filter_underscore h.chars]

theorem filter_digits_ne {b : List Char} (h : DigitGroups b) : b.filter isDigit ≠ [] := by
  obtain ⟨c, hc, hd⟩ := h.head
  have : c ∈ b := List.mem_of_head? hc
  intro he
  have : c ∈ b.filter isDigit := List.mem_filter.2 ⟨this, hd⟩
  rw [he] at this; cases this

/-! ### Leading zeros -/

theorem digitsVal_zeros {z x : List Char} (hz : ∀ c ∈ z, c = '0' ∨ c = '_') :
    digitsVal ((z ++ x).filter isDigit) = digitsVal (x.filter isDigit) := by
  induction z with
  | nil => rfl
  | cons c z ih =>
    have ih := ih fun d hd => hz d (List.mem_cons_of_mem _ hd)
    rcases hz c (by simp) with h | h
    · subst h
      rw [List.cons_append, List.filter_cons_of_pos (by decide), digitsVal_zero, ih]
    · subst h
      rw [List.cons_append, List.filter_cons_of_neg (by decide), ih]

/-- What is left of the leading zeros, and what was dropped. -/
theorem stripZerosFrom_some {s r : List Char} : ∀ {p : Char}, (p = '0' ∨ p = '_') →
    stripZerosFrom p s = some r →
    ∃ z, p :: s = z ++ r ∧ (∀ c ∈ z, c = '0' ∨ c = '_') ∧ r ≠ [] := by
  induction s with
  | nil =>
    intro p _ h
    cases h
    exact ⟨[], rfl, (by intro c h; cases h), by simp⟩
  | cons c rest ih =>
    intro p hp h
    simp only [stripZerosFrom] at h
    by_cases h1 : c = '0' ∨ c = '_'
    · rw [if_pos h1] at h
      obtain ⟨z, hz, hc, hr⟩ := ih h1 h
      refine ⟨p :: z, by rw [hz, List.cons_append], ?_, hr⟩
      intro d hd
      rcases List.mem_cons.1 hd with hd | hd
      · rw [hd]; exact hp
      · exact hc d hd
    · rw [if_neg h1] at h
      by_cases h2 : ('1' ≤ c ∧ c ≤ '9') ∨ c = '-'
      · rw [if_pos h2] at h; cases h
        exact ⟨[p], rfl, (by intro d hd; simp at hd; rw [hd]; exact hp), by simp⟩
      · rw [if_neg h2] at h
        by_cases h3 : c = '.'
        · rw [if_pos h3] at h; cases h
          exact ⟨[], rfl, (by intro c h; cases h), by simp⟩
        · rw [if_neg h3] at h; cases h

theorem stripLeadingZeros_some {s r : List Char} (h : stripLeadingZeros s = some r) :
    ∃ z, s = z ++ r ∧ (∀ c ∈ z, c = '0' ∨ c = '_') ∧ r ≠ [] ∧
      (z ≠ [] → s.head? = some '0') := by
  cases s with
  | nil => cases h
  | cons c rest =>
    simp only [stripLeadingZeros] at h
    by_cases hc : c = '0'
    · rw [if_pos hc] at h
      obtain ⟨z, h1, h2, h3⟩ := stripZerosFrom_some (.inl rfl) h
      exact ⟨z, by rw [hc]; exact h1, h2, h3, fun _ => by simp [hc]⟩
    · rw [if_neg hc] at h
      by_cases h2 : ('1' ≤ c ∧ c ≤ '9') ∨ c = '-'
      · rw [if_pos h2] at h; cases h
        exact ⟨[], rfl, (by intro c h; cases h), by simp, by simp⟩
      · rw [if_neg h2] at h; cases h

theorem groups_tail {c : Char} {b : List Char}
    (hch : ∀ d ∈ c :: b, isDigit d = true ∨ d = '_')
    (hlast : ∃ d, (c :: b).getLast? = some d ∧ isDigit d = true)
    (hsingle : ¬ ['_', '_'] <:+: c :: b) (hc : isDigit c = true) : DigitGroups (c :: b) :=
  ⟨hch, ⟨c, rfl, hc⟩, hlast, hsingle⟩

theorem stripZerosFrom_groups {frac : List Char} (hf : IsZeroFraction frac) (b : List Char) :
    ∀ p, (p = '0' ∨ p = '_') → (∀ d ∈ b, isDigit d = true ∨ d = '_') →
    (∃ d, (p :: b).getLast? = some d ∧ isDigit d = true) → ¬ ['_', '_'] <:+: p :: b →
    ∃ b', stripZerosFrom p (b ++ frac) = some (b' ++ frac) ∧ DigitGroups b' ∧
      (b' = ['0'] ∨ b'.head? ≠ some '0') ∧ b' <:+ p :: b ∧
      digitsVal (b'.filter isDigit) = digitsVal ((p :: b).filter isDigit) := by
  induction b with
  | nil =>
    intro p hp _ hlast _
    have hp0 : p = '0' := by
      obtain ⟨d, h1, h2⟩ := hlast
      simp at h1
      rcases hp with h | h
      · exact h
      · rw [← h1, h] at h2; exact absurd h2 (by decide)
    subst hp0
    refine ⟨['0'], ?_, groups_digits (by simp) (by decide), .inl rfl, List.suffix_refl _, rfl⟩
    rcases hf with hf | ⟨zs, _, _, hf⟩
    · subst hf; rfl
    · subst hf; rfl
  | cons c b ih =>
    intro p hp hch hlast hsingle
    have hlast' : ∃ d, (c :: b).getLast? = some d ∧ isDigit d = true := by
      obtain ⟨d, h1, h2⟩ := hlast
      exact ⟨d, by rw [List.getLast?_cons_cons] at h1; exact h1, h2⟩
    have hsingle' : ¬ ['_', '_'] <:+: c :: b :=
      fun h => hsingle (List.infix_cons_iff.2 (.inr h))
    have hpval : digitsVal ((p :: c :: b).filter isDigit) =
        digitsVal ((c :: b).filter isDigit) :=
      digitsVal_zeros (z := [p]) (x := c :: b) (by intro d hd; simp at hd; rw [hd]; exact hp)
    rw [List.cons_append]
    simp only [stripZerosFrom]
    by_cases h1 : c = '0' ∨ c = '_'
    · rw [if_pos h1]
      obtain ⟨b', e1, e2, e3, e4, e5⟩ := ih c h1
        (fun d hd => hch d (List.mem_cons_of_mem _ hd)) hlast' hsingle'
      exact ⟨b', e1, e2, e3, e4.trans (List.suffix_cons _ _), by rw [e5, hpval]⟩
    · rw [if_neg h1]
      have hcd : isDigit c = true := by
        rcases hch c (by simp) with h | h
        · exact h
        · exact absurd (.inr h) h1
      have h2 : ('1' ≤ c ∧ c ≤ '9') ∨ c = '-' :=
        .inl (digit19.2 ⟨hcd, fun h => h1 (.inl h)⟩)
      rw [if_pos h2]
      refine ⟨c :: b, rfl, groups_tail hch hlast' hsingle' hcd, .inr ?_,
        List.suffix_cons _ _, by rw [hpval]⟩
      intro h; injection h with h; exact h1 (.inl h)

theorem stripLeadingZeros_groups {b frac : List Char} (hb : DigitGroups b)
    (hf : IsZeroFraction frac) :
    ∃ b', stripLeadingZeros (b ++ frac) = some (b' ++ frac) ∧ DigitGroups b' ∧
      (b' = ['0'] ∨ b'.head? ≠ some '0') ∧ b' <:+ b ∧
      digitsVal (b'.filter isDigit) = digitsVal (b.filter isDigit) := by
  cases b with
  | nil => obtain ⟨c, h, _⟩ := hb.head; cases h
  | cons c b =>
    have hcd : isDigit c = true := by
      obtain ⟨d, h1, h2⟩ := hb.head
      simp at h1; rw [h1]; exact h2
    rw [List.cons_append]
    simp only [stripLeadingZeros]
    by_cases hc : c = '0'
    · rw [if_pos hc]
      subst hc
      exact stripZerosFrom_groups hf b '0' (.inl rfl)
        (fun d hd => hb.chars d (List.mem_cons_of_mem _ hd)) hb.last hb.single
    · rw [if_neg hc, if_pos (.inl (digit19.2 ⟨hcd, hc⟩))]
      exact ⟨c :: b, rfl, hb, .inr (by simpa using hc), List.suffix_refl _, rfl⟩

/-! ### The fraction -/

theorem groups_noDot {b : List Char} (h : ∀ c ∈ b, isDigit c = true ∨ c = '_') :
    ∀ c ∈ b, (decide (c ≠ '.')) = true := by
  intro c hc
  rcases h c hc with h | h
  · simpa using (digit_ne h).2.2.1
  · subst h; decide

theorem stripZeroFraction_groups {b frac : List Char} (hb : DigitGroups b)
    (hf : IsZeroFraction frac) : stripZeroFraction (b ++ frac) = b := by
  have hnd := groups_noDot hb.chars
  unfold stripZeroFraction
  rcases hf with hf | ⟨zs, hne, hz, hf⟩
  · subst hf
    rw [List.append_nil]
    have : b.dropWhile (fun c => decide (c ≠ '.')) = [] := by
      rw [← List.append_nil b, List.dropWhile_append_of_pos hnd]; rfl
    rw [this]
  · subst hf
    have h1 : (b ++ '.' :: zs).dropWhile (fun c => decide (c ≠ '.')) = '.' :: zs := by
      rw [List.dropWhile_append_of_pos hnd]; rfl
    have h2 : (b ++ '.' :: zs).takeWhile (fun c => decide (c ≠ '.')) = b := by
      rw [List.takeWhile_append_of_pos hnd]; simp
    rw [h1]
    dsimp only
    rw [h2, if_pos]
    simp only [Bool.and_eq_true, Bool.not_eq_true', List.isEmpty_eq_false_iff]
    exact ⟨hne, by simpa using hz⟩

/-- What is cut off is a fraction of zeros. -/
theorem stripZeroFraction_split (r : List Char) :
    ∃ frac, r = stripZeroFraction r ++ frac ∧ IsZeroFraction frac := by
  unfold stripZeroFraction
  split
  · exact ⟨[], by simp, .inl rfl⟩
  · rename_i c decimal hd
    split
    · rename_i hc
      simp only [Bool.and_eq_true, Bool.not_eq_true', List.isEmpty_eq_false_iff] at hc
      refine ⟨'.' :: decimal, ?_, .inr ⟨decimal, hc.1, by simpa using hc.2, rfl⟩⟩
      have hdot : c = '.' := by
        have := List.head_dropWhile_not (p := fun c => decide (c ≠ '.')) (l := r)
          (by rw [hd]; simp)
        simp only [hd] at this
        exact Decidable.of_not_not (of_decide_eq_false this)
      have := List.takeWhile_append_dropWhile (p := fun c => decide (c ≠ '.')) (l := r)
      rw [hd, hdot] at this
      exact this.symm
    · exact ⟨[], by simp, .inl rfl⟩

/-! ### The unsigned part -/

/-- Digit groups are cleaned into digits; unless nothing changed. -/
theorem cleanUnsigned_groups {b frac : List Char} (hb : DigitGroups b) (hf : IsZeroFraction frac)
    (len : Nat) (neg : Bool) :
    ∃ ds, ds ≠ [] ∧ ds.all isDigit = true ∧ (ds = ['0'] ∨ ds.head? ≠ some '0') ∧
      digitsVal ds = digitsVal (b.filter isDigit) ∧ ds.length ≤ b.length ∧
      (cleanUnsigned len neg (b ++ frac) = some (if neg then '-' :: ds else ds) ∨
        (cleanUnsigned len neg (b ++ frac) = none ∧ len = ds.length ∧ ds <:+ b)) := by
  obtain ⟨b', e1, e2, e3, e4, e5⟩ := stripLeadingZeros_groups hb hf
  have hlen : (b'.filter isDigit).length ≤ b.length :=
    Nat.le_trans (List.length_filter_le _ _) e4.length_le
  unfold cleanUnsigned
  rw [e1]
  dsimp only
  rw [stripZeroFraction_groups e2 hf]
  rcases stripUnderscores_groups e2 with h | ⟨h, hd⟩
  · rw [h]
    refine ⟨b'.filter isDigit, filter_digits_ne e2, by simp, ?_, e5, hlen, .inl rfl⟩
    obtain ⟨c, hc, hcd⟩ := e2.head
    cases b' with
    | nil => cases hc
    | cons d b'' =>
      simp at hc; subst hc
      rw [List.filter_cons_of_pos hcd]
      rcases e3 with e3 | e3
      · left; injection e3 with h1 h2; subst h1; subst h2; rfl
      · right; simpa using e3
  · rw [h]
    dsimp only
    have hfil := digits_filter hd
    refine ⟨b', ?_, hd, e3, by rw [← e5, hfil], e4.length_le, ?_⟩
    · intro he; subst he; obtain ⟨c, hc, _⟩ := e2.head; cases hc
    · by_cases hl : len = b'.length
      · rw [if_pos hl]; exact .inr ⟨rfl, hl, e4⟩
      · rw [if_neg hl]; exact .inl rfl

theorem Tidy.infix {s t : List Char} (h : Tidy s) (hi : t <:+: s) : Tidy t :=
  ⟨fun h' => h.double (h'.trans hi), fun h' => h.zeroMinus (h'.trans hi),
    fun h' => h.underscoreMinus (h'.trans hi)⟩

theorem stripUnderscores_some {s v : List Char} (h : stripUnderscores s = some v) :
    v = s.filter (· ≠ '_') ∧ s.head? ≠ some '_' ∧ s.getLast? ≠ some '_' ∧ ¬ ['_', '_'] <:+: s := by
  unfold stripUnderscores at h
  split at h
  · cases h
  · rename_i hc
    cases h
    refine ⟨rfl, fun h => hc (.inl h), fun h => hc (.inr (.inl h)), fun h => ?_⟩
    exact hc (.inr (.inr (.inr ((hasDouble_iff s).2 h))))

theorem groups_of_strip {s v : List Char} (h : stripUnderscores s = some v)
    (hv : v.all isDigit = true) (hne : v ≠ []) : DigitGroups s ∧ v = s.filter isDigit := by
  obtain ⟨h1, h2, h3, h4⟩ := stripUnderscores_some h
  have hch : ∀ c ∈ s, isDigit c = true ∨ c = '_' := by
    intro c hc
    by_cases hu : c = '_'
    · exact .inr hu
    · left
      have : c ∈ v := by rw [h1]; exact List.mem_filter.2 ⟨hc, by simpa using hu⟩
      exact List.all_eq_true.1 hv c this
  have hsne : s ≠ [] := by
    intro he; subst he; rw [h1] at hne; exact hne rfl
  refine ⟨⟨hch, ?_, ?_, h4⟩, by rw [h1, filter_underscore hch]⟩
  · cases s with
    | nil => exact absurd rfl hsne
    | cons c rest =>
      refine ⟨c, rfl, ?_⟩
      rcases hch c (by simp) with h | h
      · exact h
      · subst h; exact absurd rfl h2
  · refine ⟨s.getLast hsne, List.getLast?_eq_some_getLast hsne, ?_⟩
    rcases hch _ (List.getLast_mem hsne) with h | h
    · exact h
    · rw [List.getLast?_eq_some_getLast hsne, h] at h3; exact absurd rfl h3

/-- A string of digits, digit by digit, with a sign in front or not. -/
theorem jiter_sign {neg : Bool} {v : List Char} {n : Int} (hm : v.head? ≠ some '-')
    (h : jiterInt (if neg then '-' :: v else v) = .ok n) :
    v ≠ [] ∧ v.all isDigit = true ∧ n = if neg then -(digitsVal v : Int) else digitsVal v := by
  obtain ⟨ds, h1, h2, ⟨h3, h4⟩ | ⟨h3, h4⟩⟩ := jiterInt_ok h
  · cases neg with
    | true =>
      simp only [if_true] at h3
      rw [← h3] at h2; simp [isDigit] at h2
    | false =>
      simp only [Bool.false_eq_true, if_false] at h3 ⊢
      rw [h3]; exact ⟨h1, h2, h4⟩
  · cases neg with
    | true =>
      simp only [if_true] at h3 ⊢
      injection h3 with _ h3
      rw [h3]; exact ⟨h1, h2, h4⟩
    | false =>
      simp only [Bool.false_eq_true, if_false] at h3
      rw [h3] at hm; exact absurd rfl hm

theorem groups_append {z r : List Char} (hz : ∀ c ∈ z, c = '0' ∨ c = '_') (hr : DigitGroups r)
    (hhead : z ≠ [] → (z ++ r).head? = some '0') (hd : ¬ ['_', '_'] <:+: z ++ r) :
    DigitGroups (z ++ r) := by
  refine ⟨?_, ?_, ?_, hd⟩
  · intro c hc
    rcases List.mem_append.1 hc with hc | hc
    · rcases hz c hc with h | h
      · subst h; exact .inl (by decide)
      · exact .inr h
    · exact hr.chars c hc
  · by_cases h : z = []
    · subst h; exact hr.head
    · exact ⟨'0', hhead h, by decide⟩
  · obtain ⟨c, h1, h2⟩ := hr.last
    refine ⟨c, ?_, h2⟩
    have : r ≠ [] := by intro he; subst he; cases h1
    rw [List.getLast?_append, h1]; rfl

/-- If cleaning gives something that is read as an integer, the string was digit groups and a
fraction of zeros. -/
theorem cleanUnsigned_sound {len : Nat} {neg : Bool} {u cl : List Char} {n : Int}
    (h : cleanUnsigned len neg u = some cl) (hj : jiterInt cl = .ok n) (ht : Tidy u)
    (hm : u.head? ≠ some '-') :
    ∃ body frac, u = body ++ frac ∧ DigitGroups body ∧ IsZeroFraction frac ∧
      n = if neg then -(digitsVal (body.filter isDigit) : Int)
        else digitsVal (body.filter isDigit) := by
  unfold cleanUnsigned at h
  cases hs : stripLeadingZeros u with
  | none => rw [hs] at h; cases h
  | some r =>
    rw [hs] at h
    dsimp only at h
    obtain ⟨z, e1, e2, e3, e4⟩ := stripLeadingZeros_some hs
    obtain ⟨frac, f1, f2⟩ := stripZeroFraction_split r
    generalize stripZeroFraction r = r2 at h f1
    -- the rest does not begin with a minus sign
    have hrm : r.head? ≠ some '-' := by
      intro hr
      cases r with
      | nil => cases hr
      | cons c rest =>
        simp at hr; subst hr
        rcases List.eq_nil_or_concat z with hz | ⟨z', c, hz⟩
        · subst hz; rw [e1] at hm; exact hm rfl
        · subst hz
          have hc : c = '0' ∨ c = '_' := e2 c (by simp)
          have hi : [c, '-'] <:+: u := ⟨z', rest, by rw [e1]; simp⟩
          rcases hc with hc | hc
          · subst hc; exact ht.zeroMinus hi
          · subst hc; exact ht.underscoreMinus hi
    have hr2m : r2.head? ≠ some '-' := by
      cases r2 with
      | nil => simp
      | cons c rest => rw [f1] at hrm; exact hrm
    have finish : ∀ v, DigitGroups r2 → v = r2.filter isDigit →
        n = (if neg then -(digitsVal v : Int) else digitsVal v) →
        ∃ body frac, u = body ++ frac ∧ DigitGroups body ∧ IsZeroFraction frac ∧
          n = if neg then -(digitsVal (body.filter isDigit) : Int)
            else digitsVal (body.filter isDigit) := by
      intro v hg hv hn
      have hu : u = (z ++ r2) ++ frac := by rw [e1, f1]; simp
      refine ⟨z ++ r2, frac, hu, ?_, f2, ?_⟩
      · apply groups_append e2 hg
        · intro hz
          have := e4 hz
          rw [hu] at this
          cases z with
          | nil => exact absurd rfl hz
          | cons c z => simpa using this
        · intro hi; exact ht.double (hi.trans ⟨[], frac, by rw [hu]; simp⟩)
      · rw [digitsVal_zeros e2, ← hv]; exact hn
    cases hu : stripUnderscores r2 with
    | some v =>
      rw [hu] at h
      cases h
      obtain ⟨h1, h2, _, _⟩ := stripUnderscores_some hu
      have hvm : v.head? ≠ some '-' := by
        cases r2 with
        | nil => rw [h1]; simp
        | cons c rest =>
          have : c ≠ '_' := by simpa using h2
          rw [h1, List.filter_cons_of_pos (by simpa using this)]
          exact hr2m
      obtain ⟨g1, g2, g3⟩ := jiter_sign hvm hj
      obtain ⟨g4, g5⟩ := groups_of_strip hu g2 g1
      exact finish v g4 g5 g3
    | none =>
      rw [hu] at h
      dsimp only at h
      by_cases hl : len = r2.length
      · rw [if_pos hl] at h; cases h
      · rw [if_neg hl] at h; cases h
        obtain ⟨g1, g2, g3⟩ := jiter_sign hr2m hj
        exact finish r2 (groups_digits g1 g2) (digits_filter g2).symm g3

/-! ### Trimming -/

theorem trimEnd_split (s : List Char) : ∃ t, s = trimEnd s ++ t ∧ ∀ c ∈ t, isSpace c = true := by
  refine ⟨(s.reverse.takeWhile isSpace).reverse, ?_, ?_⟩
  · unfold trimEnd
    rw [← List.reverse_append, List.takeWhile_append_dropWhile, List.reverse_reverse]
  · intro c hc
    have := List.mem_reverse.1 hc
    exact List.all_eq_true.1 List.all_takeWhile c this

theorem trim_split (s : List Char) : ∃ lead trail, s = lead ++ trim s ++ trail ∧
    (∀ c ∈ lead, isSpace c = true) ∧ ∀ c ∈ trail, isSpace c = true := by
  obtain ⟨t, h1, h2⟩ := trimEnd_split (s.dropWhile isSpace)
  refine ⟨s.takeWhile isSpace, t, ?_, ?_, h2⟩
  · unfold trim
    rw [List.append_assoc, ← h1, List.takeWhile_append_dropWhile]
  · intro c hc
    exact List.all_eq_true.1 List.all_takeWhile c hc

theorem trimEnd_core {core trail : List Char} (ht : ∀ c ∈ trail, isSpace c = true)
    (hl : ∃ c, core.getLast? = some c ∧ isSpace c = false) : trimEnd (core ++ trail) = core := by
  obtain ⟨c, h1, h2⟩ := hl
  unfold trimEnd
  rw [List.reverse_append, List.dropWhile_append_of_pos (fun d hd => ht d (List.mem_reverse.1 hd))]
  obtain ⟨pre, rfl⟩ := List.getLast?_eq_some_iff.1 h1
  rw [List.reverse_append, List.reverse_singleton, List.singleton_append,
    List.dropWhile_cons_of_neg (by simp [h2])]
  simp

theorem trim_core {lead core trail : List Char} (hs : ∀ c ∈ lead, isSpace c = true)
    (ht : ∀ c ∈ trail, isSpace c = true) (hh : ∃ c, core.head? = some c ∧ isSpace c = false)
    (hl : ∃ c, core.getLast? = some c ∧ isSpace c = false) :
    trim (lead ++ core ++ trail) = core := by
  unfold trim
  obtain ⟨c, h1, h2⟩ := hh
  cases core with
  | nil => cases h1
  | cons d core =>
    simp at h1; subst h1
    rw [List.append_assoc, List.dropWhile_append_of_pos hs, List.cons_append,
      List.dropWhile_cons_of_neg (by simp [h2]), ← List.cons_append]
    exact trimEnd_core ht hl

/-- The value of a literal in terms of its parts. -/
theorem literalValue_parts {lead sign body frac trail : List Char}
    (h1 : ∀ c ∈ lead, isSpace c = true) (h2 : ∀ c ∈ trail, isSpace c = true) (h3 : IsSign sign)
    (h4 : DigitGroups body) (h5 : IsZeroFraction frac) :
    literalValue (lead ++ sign ++ body ++ frac ++ trail) =
      if sign = ['-'] then -(digitsVal (body.filter isDigit) : Int)
      else digitsVal (body.filter isDigit) := by
  have sp : ∀ c, isSpace c = true → c ≠ '.' ∧ c ≠ '-' ∧ isDigit c = false := by
    intro c hc
    refine ⟨?_, ?_, ?_⟩
    · intro h; subst h; revert hc; decide
    · intro h; subst h; revert hc; decide
    · cases hd : isDigit c with
      | false => rfl
      | true => rw [(digit_ne hd).2.2.2.2] at hc; cases hc
  have filt : ∀ l : List Char, (∀ c ∈ l, isSpace c = true) → l.filter isDigit = [] := by
    intro l hl
    rw [List.filter_eq_nil_iff]
    intro c hc; rw [(sp c (hl c hc)).2.2]; simp
  -- the part before the dot
  have hpre : ∀ c ∈ lead ++ sign ++ body, (decide (c ≠ '.')) = true := by
    intro c hc
    rcases List.mem_append.1 hc with hc | hc
    · rcases List.mem_append.1 hc with hc | hc
      · simpa using (sp c (h1 c hc)).1
      · rcases h3 with h | h | h <;> subst h <;> simp at hc <;> subst hc <;> decide
    · exact groups_noDot h4.chars c hc
  have htake : ((lead ++ sign ++ body ++ frac ++ trail).takeWhile (fun c => decide (c ≠ '.'))).filter
      isDigit = body.filter isDigit := by
    have hsign : sign.filter isDigit = [] := by
      rcases h3 with h | h | h <;> subst h <;> decide
    rcases h5 with h | ⟨zs, _, _, h⟩
    · subst h
      have : ∀ c ∈ lead ++ sign ++ body ++ [] ++ trail, (decide (c ≠ '.')) = true := by
        intro c hc
        rw [List.append_nil] at hc
        rcases List.mem_append.1 hc with hc | hc
        · exact hpre c hc
        · simpa using (sp c (h2 c hc)).1
      have e : (lead ++ sign ++ body ++ [] ++ trail).takeWhile (fun c => decide (c ≠ '.')) =
          lead ++ sign ++ body ++ [] ++ trail := by
        have := List.takeWhile_append_of_pos (l₂ := []) this
        simpa using this
      rw [e]
      simp only [List.filter_append, filt _ h1, filt _ h2, hsign, List.nil_append, List.append_nil]
    · subst h
      have e : (lead ++ sign ++ body ++ '.' :: zs ++ trail).takeWhile (fun c => decide (c ≠ '.')) =
          lead ++ sign ++ body := by
        rw [List.append_assoc, List.takeWhile_append_of_pos hpre]
        simp
      rw [e]
      simp only [List.filter_append, filt _ h1, hsign, List.nil_append]
  have hminus : '-' ∈ lead ++ sign ++ body ++ frac ++ trail ↔ sign = ['-'] := by
    have n1 : '-' ∉ lead := fun h => (sp _ (h1 _ h)).2.1 rfl
    have n2 : '-' ∉ trail := fun h => (sp _ (h2 _ h)).2.1 rfl
    have n3 : '-' ∉ body := by
      intro h
      rcases h4.chars _ h with h | h
      · exact absurd h (by decide)
      · exact absurd h (by decide)
    have n4 : '-' ∉ frac := by
      intro h
      rcases h5 with h' | ⟨zs, _, hz, h'⟩
      · subst h'; cases h
      · subst h'
        rcases List.mem_cons.1 h with h | h
        · exact absurd h (by decide)
        · exact absurd (hz _ h) (by decide)
    simp only [List.mem_append, n1, n2, n3, n4, false_or, or_false]
    rcases h3 with h | h | h <;> subst h <;> decide
  unfold literalValue
  rw [htake]
  by_cases hs : sign = ['-']
  · rw [if_pos hs, if_pos (hminus.2 hs)]
  · rw [if_neg hs, if_neg (mt hminus.1 hs)]

end PC.IntParse
