import Verif.Spec.Patterns

/-
C109: what a string schema with a pattern means.
-/

namespace PC.Pat
open PC.IntParse (trim)
open PC.Str (stripped InBounds stripped_trim stripped_unique)

/-- **C109**: a pattern is accepted exactly if it means something, and means that. -/
theorem compile_iff (E : Engines) (g : Given) (engine : Text) (p : Pattern) :
    compile E g engine = .ok p ↔ Means E g engine p.pattern p.re := by
  unfold compile
  cases g with
  | str content shown =>
    simp only [extractPatternStr, recompile]
    constructor
    · intro h
      by_cases h1 : engine = rustRegex
      · rw [if_pos h1] at h
        cases hm : E.rust shown with
        | none => rw [hm] at h; cases h
        | some m => rw [hm] at h; injection h with h; subst h; subst h1; exact .rustText hm
      · rw [if_neg h1] at h
        by_cases h2 : engine = pythonRe
        · rw [if_pos h2] at h
          cases hm : E.python content with
          | none => rw [hm] at h; cases h
          | some m => rw [hm] at h; injection h with h; subst h; subst h2; exact .pythonText hm
        · rw [if_neg h2] at h; cases h
    · intro h
      obtain ⟨t, re⟩ := p
      cases h with
      | rustText hm => rw [if_pos (show "rust-regex".toList = rustRegex from rfl)]; dsimp only at hm ⊢; rw [hm]
      | pythonText hm =>
        rw [if_neg (by decide), if_pos (show "python-re".toList = pythonRe from rfl)]; dsimp only at hm ⊢; rw [hm]
  | compiled t re =>
    cases t with
    | none => simp only [extractPatternStr]; constructor <;> intro h <;> cases h
    | some t =>
      simp only [extractPatternStr]
      constructor
      · intro h; injection h with h; subst h; exact .compiled
      · intro h; obtain ⟨t', re'⟩ := p; cases h with | compiled => rfl
  | other t r =>
    cases t with
    | none => simp only [extractPatternStr]; constructor <;> intro h <;> cases h
    | some t =>
      simp only [extractPatternStr, recompile]
      constructor
      · intro h
        by_cases h1 : engine = rustRegex
        · rw [if_pos h1] at h
          cases hm : E.rust t with
          | none => rw [hm] at h; cases h
          | some m => rw [hm] at h; injection h with h; subst h; subst h1; exact .rustOther hm
        · rw [if_neg h1] at h
          by_cases h2 : engine = pythonRe
          · rw [if_pos h2] at h
            cases r with
            | none => cases h
            | some re => injection h with h; subst h; subst h2; exact .pythonOther
          · rw [if_neg h2] at h; cases h
      · intro h
        obtain ⟨t', re'⟩ := p
        cases h with
        | rustOther hm => rw [if_pos (show "rust-regex".toList = rustRegex from rfl)]; dsimp only at hm ⊢; rw [hm]
        | pythonOther => rw [if_neg (by decide), if_pos (show "python-re".toList = pythonRe from rfl)]

/-- **C109**: a compiled pattern keeps its flags: the engine named does not matter, it may even be unknown. -/
theorem compiled_ignores_engine (E : Engines) (t : Text) (re : Re) (engine : Text) :
    compile E (.compiled (some t) re) engine = .ok ⟨t, re⟩ := rfl

/-- **C109**: a pattern given as text with an unknown engine is refused. -/
theorem unknown_engine_refused (E : Engines) (content shown engine : Text)
    (h1 : engine ≠ "rust-regex".toList) (h2 : engine ≠ "python-re".toList) :
    compile E (.str content shown) engine = .error .invalidEngine := by
  unfold compile extractPatternStr
  dsimp only
  rw [if_neg (show ¬ engine = rustRegex from h1), if_neg (show ¬ engine = pythonRe from h2)]

/-- The pattern built is the one the schema means. -/
theorem buildPattern_iff (E : Engines) (o : Opts) (p : Option Pattern) :
    buildPattern E o = .ok p ↔ PatternOf E o p := by
  unfold buildPattern PatternOf
  have named : ∀ e, NamedEngine o e ↔ e = o.engine.getD rustRegex := by
    intro e
    unfold NamedEngine
    cases o.engine with
    | none =>
      constructor
      · rintro (h | ⟨_, h⟩)
        · cases h
        · exact h
      · intro h; exact Or.inr ⟨rfl, h⟩
    | some x =>
      constructor
      · rintro (h | ⟨h, _⟩)
        · injection h with h; exact h.symm
        · cases h
      · intro h; exact Or.inl (congrArg some (Eq.symm h))
  cases hg : o.given with
  | none =>
    simp only [Except.ok.injEq, reduceCtorEq, false_and, exists_const, exists_false, or_false, true_and]
    exact ⟨fun h => h.symm, fun h => h.symm⟩
  | some g =>
    dsimp only
    constructor
    · intro h
      cases hc : compile E g (o.engine.getD rustRegex) with
      | error e => rw [hc] at h; cases h
      | ok q =>
        rw [hc] at h
        injection h with h
        exact Or.inr ⟨g, _, q, rfl, (named _).2 rfl, h.symm, (compile_iff ..).1 hc⟩
    · rintro (⟨h, _⟩ | ⟨g', e, q, h, hn, rfl, hm⟩)
      · cases h
      · injection h with h; subst h
        rw [(named e).1 hn] at hm
        rw [(compile_iff ..).2 hm]

/-- **C109**: a string validator gives, for every text, the outcome that its schema reads as: which of the two
validators was built does not show. -/
theorem string_outcome_iff (E : Engines) (C : Cases) (o : Opts) (b : Built) (orig : Text) (r : Res)
    (hb : build E o = .ok b) :
    run C o b orig = r ↔ ∃ p, PatternOf E o p ∧ Outcome C o p orig r := by
  unfold build at hb
  cases hp : buildPattern E o with
  | error e => rw [hp] at hb; cases hb
  | ok p =>
    rw [hp] at hb
    injection hb with hb
    have hpo := (buildPattern_iff ..).1 hp
    have puniq : ∀ p', PatternOf E o p' → p' = p := by
      intro p' h
      have := (buildPattern_iff ..).2 h
      rw [hp] at this; injection this with this; exact this.symm
    -- the two validators agree
    have hrun : run C o b orig = checkConstrained C o p orig := by
      subst hb
      by_cases hc : hasConstraints o p = true
      · rw [if_pos hc]; rfl
      · rw [if_neg hc]
        simp only [hasConstraints, Bool.or_eq_true, not_or, Bool.not_eq_true, Option.isSome_eq_false_iff,
          Option.isNone_iff_eq_none] at hc
        obtain ⟨⟨⟨⟨⟨h1, h2⟩, h3⟩, h4⟩, h5⟩, h6⟩ := hc
        simp [run, checkConstrained, afterMin, afterLength, convert, h1, h2, h3, h4, h5, h6]
    rw [hrun]
    have hst := stripped_trim o.stripWhitespace orig
    have huniq : ∀ t, stripped o.stripWhitespace orig t → t = if o.stripWhitespace then trim orig else orig :=
      fun t ht => stripped_unique ht hst
    have hconv : convert C o orig (if o.stripWhitespace then trim orig else orig) =
        (if o.toLower then C.lower (if o.stripWhitespace then trim orig else orig)
          else if o.toUpper then C.upper (if o.stripWhitespace then trim orig else orig)
          else (if o.stripWhitespace then trim orig else orig)) := by
      unfold convert
      cases o.stripWhitespace <;> cases o.toLower <;> cases o.toUpper <;> simp
    unfold checkConstrained
    dsimp only
    generalize (if o.stripWhitespace then trim orig else orig) = t0 at *
    have after : (∀ m, o.minLength = some m → m ≤ t0.length) →
        Outcome C o p orig (afterMin C o p orig t0) := by
      intro hmin
      have inner : (∀ m, o.maxLength = some m → t0.length ≤ m) →
          Outcome C o p orig (afterLength C o p orig t0) := by
        intro hmax
        unfold afterLength
        cases p with
        | none =>
          dsimp only; rw [hconv]
          exact .ok hst ⟨hmin, hmax⟩ (by intro q h; cases h)
        | some q =>
          dsimp only
          cases hr : q.re t0 with
          | none => exact .raised hst ⟨hmin, hmax⟩ rfl hr
          | some v =>
            cases v with
            | false => exact .mismatch hst ⟨hmin, hmax⟩ rfl hr
            | true =>
              dsimp only; rw [hconv]
              exact .ok hst ⟨hmin, hmax⟩ (by intro q' h; injection h with h; subst h; exact hr)
      unfold afterMin
      cases hx : o.maxLength with
      | none => exact inner (by intro m h; rw [hx] at h; cases h)
      | some m =>
        dsimp only
        by_cases hl : t0.length > m
        · rw [if_pos hl]; exact .tooLong hst hmin hx hl
        · rw [if_neg hl]
          exact inner (by intro m' h; rw [hx] at h; injection h with h; omega)
    have sound : Outcome C o p orig (match o.minLength with
        | none => afterMin C o p orig t0
        | some m => if t0.length < m then .tooShort m else afterMin C o p orig t0) := by
      cases hn : o.minLength with
      | none => exact after (by intro m h; rw [hn] at h; cases h)
      | some m =>
        dsimp only
        by_cases hl : t0.length < m
        · rw [if_pos hl]; exact .tooShort hst hn hl
        · rw [if_neg hl]
          exact after (by intro m' h; rw [hn] at h; injection h with h; omega)
    have unique : ∀ r r', Outcome C o p orig r → Outcome C o p orig r' → r = r' := by
      intro r r' h h'
      have e : ∀ {t}, stripped o.stripWhitespace orig t → t = t0 := fun ht => huniq _ ht
      cases h <;> cases h' <;> rename_i a _ _ <;> rename_i a' _ _ <;>
        simp_all [InBounds] <;> first | omega | skip
    constructor
    · intro h; subst h; exact ⟨p, hpo, sound⟩
    · rintro ⟨p', hp', h⟩
      have := puniq p' hp'
      subst this
      exact unique _ _ sound h

/-- **C109**: the schema is refused exactly if its pattern means nothing to its engine. -/
theorem string_schema_iff (E : Engines) (o : Opts) :
    (∃ b, build E o = .ok b) ↔ ∃ p, PatternOf E o p := by
  unfold build
  constructor
  · rintro ⟨b, h⟩
    cases hp : buildPattern E o with
    | error e => rw [hp] at h; cases h
    | ok p => exact ⟨p, (buildPattern_iff ..).1 hp⟩
  · rintro ⟨p, h⟩
    rw [(buildPattern_iff ..).2 h]
    exact ⟨_, rfl⟩

/-- **C109**: a `str` that is not Unicode text is accepted exactly if the schema asks for nothing. -/
theorem broken_text_iff (E : Engines) (o : Opts) (b : Built) (hb : build E o = .ok b) :
    acceptsBroken b = true ↔ o.given = none ∧ o.maxLength = none ∧ o.minLength = none ∧
      o.stripWhitespace = false ∧ o.toLower = false ∧ o.toUpper = false := by
  unfold build at hb
  cases hp : buildPattern E o with
  | error e => rw [hp] at hb; cases hb
  | ok p =>
    rw [hp] at hb
    injection hb with hb
    have hg : p.isSome = o.given.isSome := by
      rcases (buildPattern_iff ..).1 hp with ⟨h1, h2⟩ | ⟨g, e, q, h1, _, h2, _⟩ <;> rw [h1, h2] <;> rfl
    subst hb
    unfold hasConstraints
    rw [hg]
    cases o.given <;> cases o.maxLength <;> cases o.minLength <;> cases o.stripWhitespace <;> cases o.toLower <;>
      cases o.toUpper <;> simp [acceptsBroken]

/-- **C109**, in part: a pattern given as text means what the text says, if `str()` shows its content.  Missing:
instances of subclasses of `str` that print differently, for which it is false (`enum_pattern`). -/
theorem text_means_itself_partial (E : Engines) (content : Text) : TextMeansItself E content content := by
  intro m hm
  refine ⟨⟨content, fun s => some (m s)⟩, ?_, fun _ => rfl⟩
  unfold compile extractPatternStr
  dsimp only
  rw [if_pos rfl, hm]

/-! ### Witnesses -/

/-- The word is somewhere in the text. -/
def found (t : Text) : Text → Bool
  | [] => t.isPrefixOf []
  | c :: s => t.isPrefixOf (c :: s) || found t s

/-- Expressions are words, to be found anywhere; `"("` is not valid. -/
def toy : Engines where
  rust t := if t = ['('] then none else some fun s => found t s
  python t := if t = ['('] then none else some fun s => some (found t s)

/-- False in full: a member of an enum of texts, of value `'a'` and printed as `'E.A'`, is the pattern `E.A` to
Rust's engine and `a` to Python's. -/
theorem enum_pattern :
    (∃ p, compile toy (.str ['a'] "E.A".toList) rustRegex = .ok p ∧ p.re ['a'] = some false ∧
      p.re "E.A".toList = some true) ∧
    (∃ p, compile toy (.str ['a'] "E.A".toList) pythonRe = .ok p ∧ p.re ['a'] = some true ∧
      p.pattern = "E.A".toList) ∧
    ¬ TextMeansItself toy ['a'] "E.A".toList := by
  refine ⟨⟨_, rfl, by decide, by decide⟩, ⟨_, rfl, by decide, rfl⟩, ?_⟩
  intro h
  obtain ⟨p, hp, hs⟩ := h _ rfl
  have e : compile toy (.str ['a'] "E.A".toList) rustRegex
      = .ok ⟨"E.A".toList, fun s => some (found "E.A".toList s)⟩ := rfl
  rw [e] at hp
  injection hp with hp
  subst hp
  have := hs ['a']
  revert this
  decide

/-- A wrong engine goes unnoticed without a pattern, and with a compiled one. -/
theorem wrong_engine_unnoticed (E : Engines) (re : Re) :
    let o : Opts := ⟨none, some "pcre".toList, none, none, false, false, false⟩
    build E o = .ok .plain ∧
    build E { o with given := some (.compiled (some ['a']) re) } = .ok (.constrained (some ⟨['a'], re⟩)) ∧
    build E { o with given := some (.str ['a'] ['a']) } = .error .invalidEngine := ⟨rfl, rfl, rfl⟩

/-- A bound that every text meets makes a difference for texts with lone surrogates. -/
theorem trivial_bound_refuses (E : Engines) :
    let o : Opts := ⟨none, none, none, none, false, false, false⟩
    (∃ b, build E o = .ok b ∧ acceptsBroken b = true) ∧
    (∃ b, build E { o with minLength := some 0 } = .ok b ∧ acceptsBroken b = false) :=
  ⟨⟨_, rfl, rfl⟩, ⟨_, rfl, rfl⟩⟩

/-- `{"min_length": 2, "pattern": "a", "strip_whitespace": True}` on `" ba "`, `" a "` and `"bb"`. -/
example :
    let o : Opts := ⟨some (.str ['a'] ['a']), none, some 3, some 2, true, false, false⟩
    ∃ b, build toy o = .ok b ∧ run ⟨id, id⟩ o b " ba ".toList = .ok "ba".toList ∧
      run ⟨id, id⟩ o b " a ".toList = .tooShort 2 ∧ run ⟨id, id⟩ o b "bb".toList = .mismatch ['a'] ∧
      run ⟨id, id⟩ o b "bbbb".toList = .tooLong 3 :=
  ⟨_, rfl, by decide, by decide, by decide, by decide⟩

end PC.Pat
