import Verif.Props.UrlSplit

/-
C66: what the `url` and `multi-host-url` schemas accept, and what their defaults change.
-/

namespace PC.Url

variable {U : Type}

/-- Where the URL comes from: a text that fits and is acceptable; a `Url` instance that fits, taken as it is; a
`MultiHostUrl` instance, parsed again from its text. -/
def UrlSource (lib : UrlLib U) (multiText : Multi U → Option Text) (cfg : Cfg) (strict : Bool) (input : In U)
    (src : Res U) : Prop :=
  (∃ t u, input.text strict = some t ∧ Fits cfg (blen t) ∧ Accepts lib strict t u ∧ src = .fresh u) ∨
  (input.text strict = none ∧ ∃ u, input.kind = .url u ∧ Fits cfg (blen (lib.asStr u)) ∧ src = .same u) ∨
  (input.text strict = none ∧ ∃ m t u, input.kind = .multi m ∧ multiText m = some t ∧ Fits cfg (blen t) ∧
    Accepts lib strict t u ∧ src = .fresh u)

theorem tooLong_none_iff (cfg : Cfg) (n : Nat) : tooLong cfg n = none ↔ Fits cfg n := by
  unfold tooLong Fits
  cases cfg.maxLength with
  | none => simp
  | some m =>
    dsimp only
    split
    · simp only [reduceCtorEq, Option.some.injEq, false_iff]
      intro h; have := h m rfl; omega
    · simp only [Option.some.injEq, true_iff]
      rintro _ rfl; omega

theorem schemeAllowed_iff (cfg : Cfg) (s : Text) : schemeAllowed cfg s = true ↔ SchemeOk cfg s := by
  unfold schemeAllowed SchemeOk
  cases cfg.allowedSchemes with
  | none => simp
  | some l => simp

theorem getUrl_ok_iff (lib : UrlLib U) (mt : Multi U → Option Text) (cfg : Cfg) (strict : Bool) (input : In U)
    (src : Res U) : getUrl lib mt cfg strict input = .ok src ↔ UrlSource lib mt cfg strict input src := by
  unfold getUrl UrlSource
  cases ht : input.text strict with
  | some t =>
    simp only [Option.some.injEq, reduceCtorEq, false_and, or_false]
    cases hl : tooLong cfg (blen t) with
    | some e =>
      simp only [reduceCtorEq, false_iff]
      rintro ⟨_, u, rfl, hf, -⟩
      rw [(tooLong_none_iff _ _).2 hf] at hl; exact absurd hl (by simp)
    | none =>
      have hf := (tooLong_none_iff _ _).1 hl
      dsimp only
      cases hp : parseUrl lib strict t with
      | error e =>
        simp only [reduceCtorEq, false_iff]
        rintro ⟨_, u, rfl, -, ha, -⟩
        rw [(parseUrl_ok_iff _ _ _ _).2 ha] at hp; exact absurd hp (by simp)
      | ok u =>
        simp only [Except.ok.injEq]
        constructor
        · rintro rfl; exact ⟨t, u, rfl, hf, (parseUrl_ok_iff _ _ _ _).1 hp, rfl⟩
        · rintro ⟨_, u', rfl, -, ha, rfl⟩
          rw [(parseUrl_ok_iff _ _ _ _).2 ha] at hp
          simp only [Except.ok.injEq] at hp
          rw [hp]
  | none =>
    simp only [reduceCtorEq, false_and, exists_false, true_and, false_or]
    cases hk : input.kind with
    | other => simp
    | url u =>
      simp only [Kind.url.injEq, reduceCtorEq, false_and, exists_false, or_false]
      cases hl : tooLong cfg (blen (lib.asStr u)) with
      | some e =>
        simp only [reduceCtorEq, false_iff]
        rintro ⟨_, rfl, hf, -⟩
        rw [(tooLong_none_iff _ _).2 hf] at hl; exact absurd hl (by simp)
      | none =>
        have hf := (tooLong_none_iff _ _).1 hl
        simp only [Except.ok.injEq]
        constructor
        · rintro rfl; exact ⟨u, rfl, hf, rfl⟩
        · rintro ⟨_, rfl, -, rfl⟩; rfl
    | multi m =>
      simp only [Kind.multi.injEq, reduceCtorEq, false_and, exists_false, false_or]
      cases hm : mt m with
      | none =>
        simp only [reduceCtorEq, false_iff]
        rintro ⟨_, t, u, rfl, hx, -⟩
        rw [hm] at hx; exact absurd hx (by simp)
      | some t =>
        dsimp only
        cases hl : tooLong cfg (blen t) with
        | some e =>
          simp only [reduceCtorEq, false_iff]
          rintro ⟨_, t', u, rfl, hx, hf, -⟩
          rw [hm] at hx
          simp only [Option.some.injEq] at hx
          subst hx
          rw [(tooLong_none_iff _ _).2 hf] at hl; exact absurd hl (by simp)
        | none =>
          have hf := (tooLong_none_iff _ _).1 hl
          dsimp only
          cases hp : parseUrl lib strict t with
          | error e =>
            simp only [reduceCtorEq, false_iff]
            rintro ⟨_, t', u, rfl, hx, -, ha, -⟩
            rw [hm] at hx
            simp only [Option.some.injEq] at hx
            subst hx
            rw [(parseUrl_ok_iff _ _ _ _).2 ha] at hp; exact absurd hp (by simp)
          | ok u =>
            simp only [Except.ok.injEq]
            constructor
            · rintro rfl; exact ⟨m, t, u, rfl, hm, hf, (parseUrl_ok_iff _ _ _ _).1 hp, rfl⟩
            · rintro ⟨_, t', u', rfl, hx, -, ha, rfl⟩
              rw [hm] at hx
              simp only [Option.some.injEq] at hx
              subst hx
              rw [(parseUrl_ok_iff _ _ _ _).2 ha] at hp
              simp only [Except.ok.injEq] at hp
              rw [hp]

/-! ### Defaults -/

theorem subHost_iff (lib : UrlLib U) (cfg : Cfg) (u u1 : U) (m : Bool) :
    subHost lib cfg u = .ok (m, u1) ↔
      (if lib.hasHost u = true then u1 = u
        else match cfg.defaultHost with
          | some h => lib.setHost u h = .ok u1
          | none => cfg.hostRequired = false ∧ u1 = u) ∧
      (m = true ↔ ¬ (lib.hasHost u = true ∨ (cfg.defaultHost = none ∧ cfg.hostRequired = false))) := by
  unfold subHost
  cases hh : lib.hasHost u with
  | true =>
    simp only [Bool.not_true, Bool.false_eq_true, if_false, Except.ok.injEq, Prod.mk.injEq, if_true, true_or,
      not_true_eq_false, iff_false, Bool.not_eq_true]
    exact ⟨fun h => ⟨h.2.symm, h.1.symm⟩, fun h => ⟨h.2.symm, h.1.symm⟩⟩
  | false =>
    simp only [Bool.not_false, if_true, Bool.false_eq_true, if_false, false_or]
    cases cfg.defaultHost with
    | some h =>
      dsimp only
      cases lib.setHost u h with
      | error e => simp
      | ok u' =>
        simp only [Except.ok.injEq, Prod.mk.injEq, reduceCtorEq, false_and, not_false_eq_true, iff_true]
        exact ⟨fun h => ⟨h.2, h.1.symm⟩, fun h => ⟨h.2.symm, h.1⟩⟩
    | none =>
      dsimp only
      cases cfg.hostRequired with
      | true => simp
      | false =>
        simp only [Bool.false_eq_true, if_false, Except.ok.injEq, Prod.mk.injEq, true_and, and_self,
          not_true_eq_false, iff_false, Bool.not_eq_true]
        exact ⟨fun h => ⟨h.2.symm, h.1.symm⟩, fun h => ⟨h.2.symm, h.1.symm⟩⟩

theorem subPort_iff (lib : UrlLib U) (cfg : Cfg) (u u1 : U) (m : Bool) :
    subPort lib cfg u = .ok (m, u1) ↔
      (match cfg.defaultPort, lib.port u with
        | some p, none => lib.setPort u p = some u1
        | _, _ => u1 = u) ∧
      (m = true ↔ ¬ (cfg.defaultPort = none ∨ lib.port u ≠ none)) := by
  unfold subPort
  cases cfg.defaultPort with
  | none =>
    simp only [Except.ok.injEq, Prod.mk.injEq, true_or, not_true_eq_false, iff_false, Bool.not_eq_true]
    exact ⟨fun h => ⟨h.2.symm, h.1.symm⟩, fun h => ⟨h.2.symm, h.1.symm⟩⟩
  | some p =>
    dsimp only
    cases hp : lib.port u with
    | some q =>
      simp only [Option.isNone_some, Bool.false_eq_true, if_false, Except.ok.injEq, Prod.mk.injEq, reduceCtorEq,
        ne_eq, not_false_eq_true, or_true, not_true_eq_false, iff_false, Bool.not_eq_true]
      exact ⟨fun h => ⟨h.2.symm, h.1.symm⟩, fun h => ⟨h.2.symm, h.1.symm⟩⟩
    | none =>
      simp only [Option.isNone_none, if_true]
      cases lib.setPort u p with
      | none => simp
      | some u' =>
        simp only [Except.ok.injEq, Prod.mk.injEq, Option.some.injEq, reduceCtorEq, ne_eq, not_true_eq_false,
          or_false, not_false_eq_true, iff_true]
        exact ⟨fun h => ⟨h.2, h.1.symm⟩, fun h => ⟨h.2.symm, h.1⟩⟩

theorem subPath_iff (lib : UrlLib U) (cfg : Cfg) (u u1 : U) (m : Bool) :
    subPath lib cfg u = (m, u1) ↔
      (match cfg.defaultPath with
        | some p => if lib.path u = [] ∨ lib.path u = ['/'] then u1 = lib.setPath u p else u1 = u
        | none => u1 = u) ∧
      (m = true ↔ ¬ (cfg.defaultPath = none ∨ (lib.path u ≠ [] ∧ lib.path u ≠ ['/']))) := by
  unfold subPath
  cases cfg.defaultPath with
  | none =>
    simp only [Prod.mk.injEq, true_or, not_true_eq_false, iff_false, Bool.not_eq_true]
    exact ⟨fun h => ⟨h.2.symm, h.1.symm⟩, fun h => ⟨h.2.symm, h.1.symm⟩⟩
  | some p =>
    dsimp only
    by_cases hp : lib.path u = [] ∨ lib.path u = ['/']
    · have : ((lib.path u).isEmpty || lib.path u == ['/']) = true := by
        rcases hp with h | h <;> simp [h]
      rw [this, if_pos rfl, if_pos hp]
      have h2 : ¬ (some p = none ∨ (lib.path u ≠ [] ∧ lib.path u ≠ ['/'])) := by
        rintro (h | ⟨h1, h2⟩)
        · exact absurd h (by simp)
        · rcases hp with h | h
          · exact h1 h
          · exact h2 h
      simp only [Prod.mk.injEq, h2, not_false_eq_true, iff_true]
      exact ⟨fun h => ⟨h.2.symm, h.1.symm⟩, fun h => ⟨h.2.symm, h.1.symm⟩⟩
    · have : ((lib.path u).isEmpty || lib.path u == ['/']) = false := by
        simp only [Bool.or_eq_false_iff, List.isEmpty_eq_false_iff, beq_eq_false_iff_ne]
        exact ⟨fun h => hp (Or.inl h), fun h => hp (Or.inr h)⟩
      rw [this, if_neg (by simp), if_neg hp]
      have h2 : (some p = none ∨ (lib.path u ≠ [] ∧ lib.path u ≠ ['/'])) :=
        Or.inr ⟨fun h => hp (Or.inl h), fun h => hp (Or.inr h)⟩
      simp only [Prod.mk.injEq, h2, not_true_eq_false, iff_false, Bool.not_eq_true]
      exact ⟨fun h => ⟨h.2.symm, h.1.symm⟩, fun h => ⟨h.2.symm, h.1.symm⟩⟩

/-- **C66 (defaults).** The defaults are applied exactly as described: a missing host first, then a missing port, then
an empty path (or the path `/`). -/
theorem defaults_exact (lib : UrlLib U) (cfg : Cfg) (u r : U) :
    (∃ changed, checkSubDefaults lib cfg u = .ok (changed, r)) ↔ Filled lib cfg u r := by
  unfold checkSubDefaults Filled
  constructor
  · rintro ⟨ch, h⟩
    cases h1 : subHost lib cfg u with
    | error e => rw [h1] at h; exact absurd h (by simp)
    | ok p1 =>
      obtain ⟨m1, u1⟩ := p1
      rw [h1] at h
      dsimp only at h
      cases h2 : subPort lib cfg u1 with
      | error e => rw [h2] at h; exact absurd h (by simp)
      | ok p2 =>
        obtain ⟨m2, u2⟩ := p2
        rw [h2] at h
        dsimp only at h
        cases h3 : subPath lib cfg u2 with
        | mk m3 u3 =>
          rw [h3] at h
          simp only [Except.ok.injEq, Prod.mk.injEq] at h
          obtain ⟨-, rfl⟩ := h
          exact ⟨u1, u2, ((subHost_iff _ _ _ _ _).1 h1).1, ((subPort_iff _ _ _ _ _).1 h2).1,
            ((subPath_iff _ _ _ _ _).1 h3).1⟩
  · rintro ⟨u1, u2, h1, h2, h3⟩
    have e1 := (subHost_iff lib cfg u u1
      (decide (¬ (lib.hasHost u = true ∨ (cfg.defaultHost = none ∧ cfg.hostRequired = false))))).2
      ⟨h1, decide_eq_true_iff⟩
    have e2 := (subPort_iff lib cfg u1 u2 (decide (¬ (cfg.defaultPort = none ∨ lib.port u1 ≠ none)))).2
      ⟨h2, decide_eq_true_iff⟩
    have e3 := (subPath_iff lib cfg u2 r
      (decide (¬ (cfg.defaultPath = none ∨ (lib.path u2 ≠ [] ∧ lib.path u2 ≠ ['/']))))).2
      ⟨h3, decide_eq_true_iff⟩
    rw [e1]; dsimp only; rw [e2]; dsimp only; rw [e3]; exact ⟨_, rfl⟩

/-- The flag says whether something was filled in. -/
theorem defaults_changed (lib : UrlLib U) (cfg : Cfg) (u r : U) (ch : Bool)
    (h : checkSubDefaults lib cfg u = .ok (ch, r)) : (ch = false ↔ Complete lib cfg u) ∧ (ch = false → r = u) := by
  unfold checkSubDefaults at h
  cases h1 : subHost lib cfg u with
  | error e => rw [h1] at h; exact absurd h (by simp)
  | ok p1 =>
    obtain ⟨m1, u1⟩ := p1
    rw [h1] at h
    dsimp only at h
    cases h2 : subPort lib cfg u1 with
    | error e => rw [h2] at h; exact absurd h (by simp)
    | ok p2 =>
      obtain ⟨m2, u2⟩ := p2
      rw [h2] at h
      dsimp only at h
      cases h3 : subPath lib cfg u2 with
      | mk m3 u3 =>
        rw [h3] at h
        simp only [Except.ok.injEq, Prod.mk.injEq] at h
        obtain ⟨rfl, rfl⟩ := h
        obtain ⟨a1, b1⟩ := (subHost_iff _ _ _ _ _).1 h1
        obtain ⟨a2, b2⟩ := (subPort_iff _ _ _ _ _).1 h2
        obtain ⟨a3, b3⟩ := (subPath_iff _ _ _ _ _).1 h3
        -- unchanged steps are identities
        have id1 : m1 = false → u1 = u := by
          intro hm
          have hcond : lib.hasHost u = true ∨ (cfg.defaultHost = none ∧ cfg.hostRequired = false) := by
            apply Classical.byContradiction
            intro hn; rw [b1.2 hn] at hm; exact absurd hm (by simp)
          rcases hcond with hh | ⟨hd, -⟩
          · rw [if_pos hh] at a1; exact a1
          · by_cases hh : lib.hasHost u = true
            · rw [if_pos hh] at a1; exact a1
            · rw [if_neg hh, hd] at a1; exact a1.2
        have id2 : m2 = false → u2 = u1 := by
          intro hm
          have hcond : cfg.defaultPort = none ∨ lib.port u1 ≠ none := by
            apply Classical.byContradiction
            intro hn; rw [b2.2 hn] at hm; exact absurd hm (by simp)
          rcases hcond with hd | hd
          · rw [hd] at a2; exact a2
          · cases hp : lib.port u1 with
            | none => exact absurd hp hd
            | some q => rw [hp] at a2; cases hc : cfg.defaultPort <;> rw [hc] at a2 <;> exact a2
        have id3 : m3 = false → u3 = u2 := by
          intro hm
          have hcond : cfg.defaultPath = none ∨ (lib.path u2 ≠ [] ∧ lib.path u2 ≠ ['/']) := by
            apply Classical.byContradiction
            intro hn; rw [b3.2 hn] at hm; exact absurd hm (by simp)
          rcases hcond with hd | ⟨hd1, hd2⟩
          · rw [hd] at a3; exact a3
          · cases hc : cfg.defaultPath with
            | none => rw [hc] at a3; exact a3
            | some p =>
              rw [hc] at a3
              dsimp only at a3
              rw [if_neg (fun h => h.elim hd1 hd2)] at a3
              exact a3
        have conv : ∀ {m : Bool} {P : Prop}, (m = true ↔ ¬ P) → (m = false ↔ P) := by
          intro m P hmp
          cases m with
          | true =>
            have := hmp.1 rfl
            simp [this]
          | false =>
            simp only [true_iff]
            apply Classical.byContradiction
            intro hn; exact absurd (hmp.2 hn) (by simp)
        constructor
        · constructor
          · intro hm
            simp only [Bool.or_eq_false_iff] at hm
            obtain ⟨⟨hm1, hm2⟩, hm3⟩ := hm
            have hu1 := id1 hm1
            have hu2 := id2 hm2
            rw [hu1] at b2 hu2
            rw [hu2] at b3
            exact ⟨(conv b1).1 hm1, (conv b2).1 hm2, (conv b3).1 hm3⟩
          · rintro ⟨c1, c2, c3⟩
            have hm1 := (conv b1).2 c1
            have hu1 := id1 hm1
            rw [hu1] at b2
            have hm2 := (conv b2).2 c2
            have hu2 := id2 hm2
            rw [hu2, hu1] at b3
            have hm3 := (conv b3).2 c3
            rw [hm1, hm2, hm3]; rfl
        · intro hm
          simp only [Bool.or_eq_false_iff] at hm
          obtain ⟨⟨hm1, hm2⟩, hm3⟩ := hm
          rw [id3 hm3, id2 hm2, id1 hm1]

/-- **C66 (a single URL).** The `url` schema succeeds exactly when the input is a source, its scheme is allowed and
the defaults can be filled in; the result is the URL with its defaults, the very object given if nothing had to be
filled in, and a new one otherwise. -/
theorem url_exact (lib : UrlLib U) (mt : Multi U → Option Text) (cfg : Cfg) (st : Option Bool) (input : In U)
    (res : Res U) :
    validateUrl lib mt cfg st input = .ok res ↔
      ∃ src, UrlSource lib mt cfg (st.getD cfg.strict) input src ∧ SchemeOk cfg (lib.scheme src.val) ∧
        Filled lib cfg src.val res.val ∧
        (Complete lib cfg src.val → res = src) ∧ (¬ Complete lib cfg src.val → ∃ r, res = .fresh r) := by
  unfold validateUrl
  constructor
  · intro h
    cases hg : getUrl lib mt cfg (st.getD cfg.strict) input with
    | error e => rw [hg] at h; exact absurd h (by simp)
    | ok src =>
      rw [hg] at h
      dsimp only at h
      cases hs : schemeAllowed cfg (lib.scheme src.val) with
      | false => rw [hs] at h; exact absurd h (by simp)
      | true =>
        rw [hs] at h
        simp only [Bool.not_true, Bool.false_eq_true, if_false] at h
        cases hc : checkSubDefaults lib cfg src.val with
        | error e => rw [hc] at h; exact absurd h (by simp)
        | ok p =>
          obtain ⟨ch, r⟩ := p
          rw [hc] at h
          dsimp only at h
          obtain ⟨k1, k2⟩ := defaults_changed lib cfg src.val r ch hc
          have hf := (defaults_exact lib cfg src.val r).1 ⟨ch, hc⟩
          refine ⟨src, (getUrl_ok_iff _ _ _ _ _ _).1 hg, (schemeAllowed_iff _ _).1 hs, ?_⟩
          cases ch with
          | true =>
            simp only [if_true, Except.ok.injEq] at h
            subst h
            exact ⟨hf, fun hcmp => absurd (k1.2 hcmp) (by simp), fun _ => ⟨r, rfl⟩⟩
          | false =>
            simp only [Bool.false_eq_true, if_false, Except.ok.injEq] at h
            subst h
            rw [k2 rfl] at hf
            exact ⟨hf, fun _ => rfl, fun hn => absurd (k1.1 rfl) hn⟩
  · rintro ⟨src, h1, h2, h3, h4, h5⟩
    rw [(getUrl_ok_iff _ _ _ _ _ _).2 h1]
    simp only [(schemeAllowed_iff _ _).2 h2, Bool.not_true, Bool.false_eq_true, if_false]
    obtain ⟨ch, hc⟩ := (defaults_exact lib cfg src.val res.val).2 h3
    obtain ⟨k1, -⟩ := defaults_changed lib cfg src.val res.val ch hc
    rw [hc]
    cases ch with
    | true =>
      simp only [if_true, Except.ok.injEq]
      obtain ⟨r, rfl⟩ := h5 (fun hcmp => absurd (k1.2 hcmp) (by simp))
      rfl
    | false =>
      simp only [Bool.false_eq_true, if_false, Except.ok.injEq]
      exact (h4 (k1.1 rfl)).symm

/-- **C66 (what is filled in).** With setters that change the part they are named after and no other: the scheme stays;
there is a host afterwards if there was one, if there is a default or if one is required; a port that was there stays
and a missing one becomes the default; a path that was there stays. -/
theorem filled_parts (lib : UrlLib U) (law : Lawful lib) (cfg : Cfg) (u r : U) (h : Filled lib cfg u r) :
    lib.scheme r = lib.scheme u ∧
    (lib.hasHost u = true ∨ cfg.defaultHost ≠ none ∨ cfg.hostRequired = true → lib.hasHost r = true) ∧
    (lib.port r = match lib.port u with
      | some p => some p
      | none => cfg.defaultPort) ∧
    (lib.path u ≠ [] → lib.path u ≠ ['/'] → lib.path r = lib.path u) ∧
    (cfg.defaultPath = none → lib.path r = lib.path u) := by
  obtain ⟨u1, u2, h1, h2, h3⟩ := h
  have s1 : lib.scheme u1 = lib.scheme u ∧ lib.port u1 = lib.port u ∧ lib.path u1 = lib.path u ∧
      (lib.hasHost u = true ∨ cfg.defaultHost ≠ none ∨ cfg.hostRequired = true → lib.hasHost u1 = true) := by
    by_cases hh : lib.hasHost u = true
    · rw [if_pos hh] at h1; subst h1
      exact ⟨rfl, rfl, rfl, fun _ => hh⟩
    · rw [if_neg hh] at h1
      cases hd : cfg.defaultHost with
      | some d =>
        rw [hd] at h1
        exact ⟨law.setHost_scheme _ _ _ h1, law.setHost_port _ _ _ h1, law.setHost_path _ _ _ h1,
          fun _ => law.setHost_host _ _ _ h1⟩
      | none =>
        rw [hd] at h1
        obtain ⟨hr, rfl⟩ := h1
        refine ⟨rfl, rfl, rfl, ?_⟩
        rintro (hx | hx | hx)
        · exact hx
        · exact absurd rfl hx
        · rw [hr] at hx; exact absurd hx (by simp)
  obtain ⟨a1, a2, a3, a4⟩ := s1
  have s2 : lib.scheme u2 = lib.scheme u1 ∧ lib.path u2 = lib.path u1 ∧ lib.hasHost u2 = lib.hasHost u1 ∧
      (lib.port u2 = match lib.port u1 with
        | some p => some p
        | none => cfg.defaultPort) := by
    cases hd : cfg.defaultPort with
    | none =>
      rw [hd] at h2
      dsimp only at h2
      subst h2
      refine ⟨rfl, rfl, rfl, ?_⟩
      cases lib.port u2 <;> rfl
    | some p =>
      cases hp : lib.port u1 with
      | none =>
        rw [hd, hp] at h2
        exact ⟨law.setPort_scheme _ _ _ h2, law.setPort_path _ _ _ h2, law.setPort_host _ _ _ h2,
          law.setPort_port _ _ _ h2⟩
      | some q =>
        rw [hd, hp] at h2
        dsimp only at h2
        subst h2
        exact ⟨rfl, rfl, rfl, hp⟩
  obtain ⟨b1, b2, b3, b4⟩ := s2
  have s3 : lib.scheme r = lib.scheme u2 ∧ lib.hasHost r = lib.hasHost u2 ∧ lib.port r = lib.port u2 ∧
      (lib.path u2 ≠ [] → lib.path u2 ≠ ['/'] → lib.path r = lib.path u2) ∧
      (cfg.defaultPath = none → lib.path r = lib.path u2) := by
    cases hd : cfg.defaultPath with
    | none =>
      rw [hd] at h3
      dsimp only at h3
      subst h3
      exact ⟨rfl, rfl, rfl, fun _ _ => rfl, fun _ => rfl⟩
    | some p =>
      rw [hd] at h3
      dsimp only at h3
      split at h3
      · rename_i hp
        subst h3
        refine ⟨law.setPath_scheme _ _, law.setPath_host _ _, law.setPath_port _ _, ?_, by simp⟩
        intro n1 n2
        rcases hp with h | h
        · exact absurd h n1
        · exact absurd h n2
      · subst h3
        exact ⟨rfl, rfl, rfl, fun _ _ => rfl, by simp⟩
  obtain ⟨c1, c2, c3, c4, c5⟩ := s3
  refine ⟨by rw [c1, b1, a1], fun hx => by rw [c2, b3]; exact a4 hx, by rw [c3, b4, a2], ?_, ?_⟩
  · intro n1 n2
    rw [← a3, ← b2] at n1 n2
    rw [c4 n1 n2, b2, a3]
  · intro hx
    rw [c5 hx, b2, a3]

/-- **C66 (length).** The length is counted in bytes of the text, and a text that is too long is refused before it is
looked at. -/
theorem url_too_long (lib : UrlLib U) (mt : Multi U → Option Text) (cfg : Cfg) (st : Option Bool) (input : In U)
    (t : Text) (m : Nat) (ht : input.text (st.getD cfg.strict) = some t) (hm : cfg.maxLength = some m)
    (hlong : m < blen t) : validateUrl lib mt cfg st input = .error (.tooLong m) ∧
      validateMulti lib mt cfg st input = .error (.tooLong m) := by
  have : tooLong cfg (blen t) = some (.tooLong m) := by
    unfold tooLong; rw [hm]; dsimp only; rw [if_pos hlong]
  constructor
  · unfold validateUrl getUrl; rw [ht]; dsimp only; rw [this]
  · unfold validateMulti getMulti; rw [ht]; dsimp only; rw [this]

theorem url_wrong_scheme (lib : UrlLib U) (mt : Multi U → Option Text) (cfg : Cfg) (st : Option Bool) (input : In U)
    (src : Res U) (h : UrlSource lib mt cfg (st.getD cfg.strict) input src)
    (hs : ¬ SchemeOk cfg (lib.scheme src.val)) : validateUrl lib mt cfg st input = .error .scheme := by
  unfold validateUrl
  rw [(getUrl_ok_iff _ _ _ _ _ _).2 h]
  cases hb : schemeAllowed cfg (lib.scheme src.val) with
  | true => exact absurd ((schemeAllowed_iff _ _).1 hb) hs
  | false => simp only [hb, Bool.not_false, if_true]

/-! ### Multi-host URLs -/

/-- Where a multi-host URL comes from. -/
def MultiSource (lib : UrlLib U) (multiText : Multi U → Option Text) (cfg : Cfg) (strict : Bool) (input : In U)
    (src : Res (Multi U)) : Prop :=
  (∃ t m, input.text strict = some t ∧ Fits cfg (blen t) ∧ parseMultihostUrl lib strict t = .ok m ∧ src = .fresh m) ∨
  (input.text strict = none ∧ ∃ m, input.kind = .multi m ∧ src = .same m ∧
    (cfg.maxLength ≠ none → ∃ t, multiText m = some t ∧ Fits cfg (blen t))) ∨
  (input.text strict = none ∧ ∃ u, input.kind = .url u ∧ Fits cfg (blen (lib.asStr u)) ∧
    src = .fresh { refUrl := u, extraUrls := none })

theorem getMulti_ok_iff (lib : UrlLib U) (mt : Multi U → Option Text) (cfg : Cfg) (strict : Bool) (input : In U)
    (src : Res (Multi U)) : getMulti lib mt cfg strict input = .ok src ↔ MultiSource lib mt cfg strict input src := by
  unfold getMulti MultiSource
  cases ht : input.text strict with
  | some t =>
    simp only [Option.some.injEq, reduceCtorEq, false_and, or_false]
    cases hl : tooLong cfg (blen t) with
    | some e =>
      simp only [reduceCtorEq, false_iff]
      rintro ⟨_, m, rfl, hf, -⟩
      rw [(tooLong_none_iff _ _).2 hf] at hl; exact absurd hl (by simp)
    | none =>
      have hf := (tooLong_none_iff _ _).1 hl
      dsimp only
      cases hp : parseMultihostUrl lib strict t with
      | error e =>
        simp only [reduceCtorEq, false_iff]
        rintro ⟨_, u, rfl, -, ha, -⟩
        rw [ha] at hp; exact absurd hp (by simp)
      | ok m =>
        simp only [Except.ok.injEq]
        constructor
        · rintro rfl; exact ⟨t, m, rfl, hf, hp, rfl⟩
        · rintro ⟨_, m', rfl, -, ha, rfl⟩
          rw [ha] at hp
          simp only [Except.ok.injEq] at hp
          rw [hp]
  | none =>
    simp only [reduceCtorEq, false_and, exists_false, true_and, false_or]
    cases hk : input.kind with
    | other => simp
    | url u =>
      simp only [Kind.url.injEq, reduceCtorEq, false_and, exists_false, false_or]
      cases hl : tooLong cfg (blen (lib.asStr u)) with
      | some e =>
        simp only [reduceCtorEq, false_iff]
        rintro ⟨_, rfl, hf, -⟩
        rw [(tooLong_none_iff _ _).2 hf] at hl; exact absurd hl (by simp)
      | none =>
        have hf := (tooLong_none_iff _ _).1 hl
        simp only [Except.ok.injEq]
        constructor
        · rintro rfl; exact ⟨u, rfl, hf, rfl⟩
        · rintro ⟨_, rfl, -, rfl⟩; rfl
    | multi m =>
      simp only [Kind.multi.injEq, reduceCtorEq, false_and, exists_false, or_false]
      cases hmx : cfg.maxLength with
      | none =>
        simp only [Except.ok.injEq, ne_eq, not_true_eq_false, false_implies, and_true]
        constructor
        · rintro rfl; exact ⟨m, rfl, rfl⟩
        · rintro ⟨_, rfl, rfl⟩; rfl
      | some mx =>
        simp only [ne_eq, reduceCtorEq, not_false_eq_true, true_implies]
        cases hm : mt m with
        | none =>
          simp only [reduceCtorEq, false_iff]
          rintro ⟨_, rfl, -, t, hx, -⟩
          rw [hm] at hx; exact absurd hx (by simp)
        | some t =>
          dsimp only
          cases hl : tooLong cfg (blen t) with
          | some e =>
            simp only [reduceCtorEq, false_iff]
            rintro ⟨_, rfl, -, t', hx, hf⟩
            rw [hm] at hx
            simp only [Option.some.injEq] at hx
            subst hx
            rw [(tooLong_none_iff _ _).2 hf] at hl; exact absurd hl (by simp)
          | none =>
            have hf := (tooLong_none_iff _ _).1 hl
            simp only [Except.ok.injEq]
            constructor
            · rintro rfl; exact ⟨m, rfl, rfl, t, hm, hf⟩
            · rintro ⟨_, rfl, rfl, -⟩; rfl

/-- **C66 (a multi-host URL), the part that holds.** As for a single URL, with scheme and defaults looked at in the
reference URL, which holds the last host; the other hosts are left exactly as they were. The full statement would
have every host without a port receive the default port: see `default_port_last_host_only`. -/
theorem multi_exact_partial (lib : UrlLib U) (mt : Multi U → Option Text) (cfg : Cfg) (st : Option Bool) (input : In U)
    (res : Res (Multi U)) :
    validateMulti lib mt cfg st input = .ok res ↔
      ∃ src, MultiSource lib mt cfg (st.getD cfg.strict) input src ∧ SchemeOk cfg (lib.scheme src.val.refUrl) ∧
        Filled lib cfg src.val.refUrl res.val.refUrl ∧ res.val.extraUrls = src.val.extraUrls ∧
        (Complete lib cfg src.val.refUrl → res = src) ∧ (¬ Complete lib cfg src.val.refUrl → ∃ r, res = .fresh r) := by
  unfold validateMulti
  constructor
  · intro h
    cases hg : getMulti lib mt cfg (st.getD cfg.strict) input with
    | error e => rw [hg] at h; exact absurd h (by simp)
    | ok src =>
      rw [hg] at h
      dsimp only at h
      cases hs : schemeAllowed cfg (lib.scheme src.val.refUrl) with
      | false => rw [hs] at h; exact absurd h (by simp)
      | true =>
        rw [hs] at h
        simp only [Bool.not_true, Bool.false_eq_true, if_false] at h
        cases hc : checkSubDefaults lib cfg src.val.refUrl with
        | error e => rw [hc] at h; exact absurd h (by simp)
        | ok p =>
          obtain ⟨ch, r⟩ := p
          rw [hc] at h
          dsimp only at h
          obtain ⟨k1, k2⟩ := defaults_changed lib cfg src.val.refUrl r ch hc
          have hf := (defaults_exact lib cfg src.val.refUrl r).1 ⟨ch, hc⟩
          refine ⟨src, (getMulti_ok_iff _ _ _ _ _ _).1 hg, (schemeAllowed_iff _ _).1 hs, ?_⟩
          cases ch with
          | true =>
            simp only [if_true, Except.ok.injEq] at h
            subst h
            exact ⟨hf, rfl, fun hcmp => absurd (k1.2 hcmp) (by simp), fun _ => ⟨_, rfl⟩⟩
          | false =>
            simp only [Bool.false_eq_true, if_false, Except.ok.injEq] at h
            subst h
            rw [k2 rfl] at hf
            exact ⟨hf, rfl, fun _ => rfl, fun hn => absurd (k1.1 rfl) hn⟩
  · rintro ⟨src, h1, h2, h3, h6, h4, h5⟩
    rw [(getMulti_ok_iff _ _ _ _ _ _).2 h1]
    simp only [(schemeAllowed_iff _ _).2 h2, Bool.not_true, Bool.false_eq_true, if_false]
    obtain ⟨ch, hc⟩ := (defaults_exact lib cfg src.val.refUrl res.val.refUrl).2 h3
    obtain ⟨k1, -⟩ := defaults_changed lib cfg src.val.refUrl res.val.refUrl ch hc
    rw [hc]
    cases ch with
    | true =>
      simp only [if_true, Except.ok.injEq]
      obtain ⟨r, rfl⟩ := h5 (fun hcmp => absurd (k1.2 hcmp) (by simp))
      cases r
      simp only [Res.val] at h6 ⊢
      rw [h6]
    | false =>
      simp only [Bool.false_eq_true, if_false, Except.ok.injEq]
      exact (h4 (k1.1 rfl)).symm

/-! ### A concrete library -/

/-- A small library over `Parts`: it parses three texts, and sets parts. -/
def toy : UrlLib Parts where
  parse t :=
    if t = "http://b".toList then
      .ok { scheme := "http".toList, userinfo := [], host := some (.domain ['b']), port := none, path := ['/'], tail := [] }
    else if t = "http://a".toList then
      .ok { scheme := "http".toList, userinfo := [], host := some (.domain ['a']), port := none, path := ['/'], tail := [] }
    else if t = "x:".toList then
      .ok { scheme := ['x'], userinfo := [], host := none, port := none, path := [], tail := [] }
    else .error 0
  violations _ := []
  hasHost p := p.host.isSome
  scheme p := p.scheme
  port p := p.port
  path p := p.path
  asStr p := p.asStr
  setHost p h := .ok { p with host := some (.domain h) }
  setPort p n := if p.host.isSome then some { p with port := some n } else none
  setPath p t := { p with path := t }

theorem toy_lawful : Lawful toy := by
  constructor <;> simp only [toy]
  · rintro u h u' e; simp only [Except.ok.injEq] at e; subst e; rfl
  · rintro u h u' e; simp only [Except.ok.injEq] at e; subst e; rfl
  · rintro u h u' e; simp only [Except.ok.injEq] at e; subst e; rfl
  · rintro u h u' e; simp only [Except.ok.injEq] at e; subst e; rfl
  · rintro u h u' e
    split at e
    · simp only [Option.some.injEq] at e; subst e; rfl
    · exact absurd e (by simp)
  · rintro u h u' e
    split at e
    · simp only [Option.some.injEq] at e; subst e; rfl
    · exact absurd e (by simp)
  · rintro u h u' e
    split at e
    · simp only [Option.some.injEq] at e; subst e; rfl
    · exact absurd e (by simp)
  · rintro u h u' e
    split at e
    · simp only [Option.some.injEq] at e; subst e; rfl
    · exact absurd e (by simp)
  · intros; trivial
  · intros; trivial
  · intros; trivial

/-- Settings with a default host, port and path. -/
def toyCfg : Cfg where
  strict := false
  maxLength := some 100
  allowedSchemes := some ["http".toList, ['x']]
  hostRequired := true
  defaultHost := some "localhost".toList
  defaultPort := some 5432
  defaultPath := some "/db".toList

/-- The text as an input. -/
def textIn (s : String) : In Parts := { text := fun _ => some s.toList, kind := .other }

/-- **C66 is false of multi-host URLs.** With a default port, `http://a,b` becomes `http://a,b:5432/db`: the first host
keeps having no port. -/
theorem default_port_last_host_only :
    ∃ m us, validateMulti toy (fun _ => none) toyCfg none (textIn "http://a,b") = .ok (.fresh m) ∧
      m.extraUrls = some us ∧ m.refUrl.port = some 5432 ∧ us.map (·.port) = [none] :=
  ⟨_, _, rfl, rfl, rfl, rfl⟩

/-- `x:`. -/
def bareX : Parts := { scheme := ['x'], userinfo := [], host := none, port := none, path := [], tail := [] }

/-- `x://localhost:5432/db`. -/
def fullX : Parts :=
  { scheme := ['x'], userinfo := [], host := some (.domain "localhost".toList), port := some 5432, path := "/db".toList,
    tail := [] }

/-- All three defaults at once. -/
example : validateUrl toy (fun _ => none) toyCfg none (textIn "x:") = .ok (.fresh fullX) := rfl

/-- A complete instance is returned as it is. -/
example : validateUrl toy (fun _ => none) toyCfg none { text := fun _ => none, kind := .url fullX } =
    .ok (.same fullX) := rfl

/-- The hypotheses of `filled_parts`: a lawful library and a URL with all defaults filled in. -/
example : Lawful toy ∧ Filled toy toyCfg bareX fullX := ⟨toy_lawful, (defaults_exact _ _ _ _).1 ⟨true, rfl⟩⟩

/-- The hypotheses of `url_too_long`: four characters, five bytes. -/
example : validateUrl toy (fun _ => none) { toyCfg with maxLength := some 4 } none (textIn "x:/é")
    = .error (.tooLong 4) := rfl

/-- The hypotheses of `url_wrong_scheme`. -/
example : UrlSource toy (fun _ => none) { toyCfg with allowedSchemes := some [['y']] } false (textIn "x:")
      (.fresh bareX) ∧
    ¬ SchemeOk { toyCfg with allowedSchemes := some [['y']] } ['x'] := by
  refine ⟨(getUrl_ok_iff _ _ _ _ _ _).1 rfl, ?_⟩
  intro h
  exact absurd (h [['y']] rfl) (by decide)

/-- **C66**: a schema is refused exactly for an empty list of schemes, or, for multi-host URLs, for a default
host with a comma in it. -/
theorem url_schema_iff (multi : Bool) (cfg : Cfg) :
    buildOk multi cfg = true ↔ cfg.allowedSchemes ≠ some [] ∧
      (multi = true → ∀ h, cfg.defaultHost = some h → ',' ∉ h) := by
  unfold buildOk
  rw [Bool.and_eq_true]
  constructor
  · rintro ⟨h1, h2⟩
    refine ⟨fun h => ?_, fun hm h hh hc => ?_⟩
    · rw [h] at h1; cases h1
    · rw [hh] at h2
      have : h.contains ',' = true := List.contains_iff_mem.2 hc
      simp [hm, hc] at h2
  · rintro ⟨h1, h2⟩
    constructor
    · split
      · rename_i h; exact absurd h h1
      · rfl
    · split
      · rename_i h hh
        cases multi with
        | false => rfl
        | true =>
          have := h2 rfl h hh
          simp [this]
      · rfl

example : buildOk true ⟨false, none, some ["http".toList], false, some "a,b".toList, none, none⟩ = false ∧
    buildOk false ⟨false, none, some ["http".toList], false, some "a,b".toList, none, none⟩ = true := ⟨rfl, rfl⟩

end PC.Url
