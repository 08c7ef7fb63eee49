import Verif.Lemmas.IntParse

/-
C24: a string is read as an integer iff it is an integer literal, and the value is that of the
literal.  The code also accepts some strings that are not literals: the "only if" direction holds
of strings without the patterns `__`, `0-` and `_-`.
-/

namespace PC.IntParse
open PC.Num

/-- C24, full statement.  False: see `accepts_junk`. -/
def StringsAgree : Prop :=
  ∀ (s : List Char) (n : Int), s.length ≤ 4300 →
    (strAsInt s = .ok n ↔ IsIntLiteral s ∧ n = literalValue s)

/-- C24, "if": every integer literal (of at most 4300 characters) is accepted, with its value. -/
theorem int_literal_accepted {s : List Char} (h : IsIntLiteral s) (hlen : s.length ≤ 4300) :
    strAsInt s = .ok (literalValue s) := by
  unfold strAsInt
  cases hj : jiterInt s with
  | ok n => exact congrArg Checked.ok (jiterInt_value hj)
  | outOfRange => exact absurd hj (jiterInt_short hlen)
  | invalid =>
    dsimp only
    obtain ⟨lead, sign, body, frac, trail, hs, h1, h2, h3, h4, h5⟩ := h
    have hval := literalValue_parts h1 h2 h3 h4 h5
    rw [← hs] at hval
    -- the trimmed string
    obtain ⟨c, hc, hcd⟩ := h4.head
    have hbne : body ≠ [] := by intro he; subst he; cases hc
    have hlast : ∃ c, (body ++ frac).getLast? = some c ∧ isSpace c = false := by
      rcases h5 with h | ⟨zs, hz, hz0, h⟩
      · subst h
        obtain ⟨d, hd, hdd⟩ := h4.last
        exact ⟨d, by rw [List.append_nil]; exact hd, (digit_ne hdd).2.2.2.2⟩
      · subst h
        refine ⟨'0', ?_, by decide⟩
        have : zs.getLast? = some '0' := by
          rw [List.getLast?_eq_some_getLast hz, hz0 _ (List.getLast_mem hz)]
        rw [List.getLast?_append, List.getLast?_cons, this]; rfl
    have htrim : trim s = sign ++ (body ++ frac) := by
      rw [hs, show lead ++ sign ++ body ++ frac ++ trail = lead ++ (sign ++ (body ++ frac)) ++ trail
        by simp]
      apply trim_core h1 h2
      · rcases h3 with h | h | h
        · subst h
          refine ⟨c, ?_, (digit_ne hcd).2.2.2.2⟩
          cases body with
          | nil => cases hc
          | cons d body => simpa using hc
        · subst h; exact ⟨'+', rfl, by decide⟩
        · subst h; exact ⟨'-', rfl, by decide⟩
      · obtain ⟨d, hd, hdd⟩ := hlast
        refine ⟨d, ?_, hdd⟩
        rw [List.getLast?_append, hd]; rfl
    have hslen : s.length = lead.length + sign.length + body.length + frac.length + trail.length := by
      rw [hs]; simp [Nat.add_assoc]
    have hbm : ∀ x, (body ++ frac).head? = some x → isDigit x = true := by
      intro x hx
      cases body with
      | nil => cases hc
      | cons d body => simp at hx hc; subst hx; subst hc; exact hcd
    -- cleaning
    have hclean : cleanIntStr s = cleanUnsigned s.length (decide (sign = ['-'])) (body ++ frac) := by
      have hcm : cleanMinus s.length (body ++ frac) = cleanUnsigned s.length false (body ++ frac) := by
        unfold cleanMinus
        split
        · rename_i suffix he
          have := hbm '-' (by rw [he]; rfl)
          exact absurd this (by decide)
        · rfl
      unfold cleanIntStr
      rw [htrim]
      rcases h3 with h | h | h
      · subst h
        rw [List.nil_append]
        split
        · rename_i suffix he
          have := hbm '+' (by rw [he]; rfl)
          exact absurd this (by decide)
        · exact hcm
      · subst h
        simp only [List.singleton_append]
        rw [if_neg, hcm]
        · rfl
        · intro he; exact absurd (hbm '-' he) (by decide)
      · subst h
        show (if (body ++ frac).head? = some '-' ∨ (body ++ frac).head? = some '+' then none
          else cleanUnsigned s.length true (body ++ frac)) = _
        rw [if_neg]
        · rfl
        · rintro (he | he)
          · exact absurd (hbm '-' he) (by decide)
          · exact absurd (hbm '+' he) (by decide)
    rw [hclean]
    obtain ⟨ds, g1, g2, g3, g4, g5, g6⟩ :=
      cleanUnsigned_groups h4 h5 s.length (decide (sign = ['-']))
    rcases g6 with g6 | ⟨_, g7, g8⟩
    · rw [g6]
      dsimp only
      by_cases hneg : sign = ['-']
      · rw [hval, if_pos hneg, ← g4]
        simp only [hneg, decide_true, if_true]
        have : ('-' :: ds).length ≤ 4300 := by
          rw [hneg] at hslen; simp at hslen ⊢; omega
        rw [((jiterInt_complete this g1 g2 g3).2) rfl]
      · rw [hval, if_neg hneg, ← g4]
        simp only [hneg, decide_false, Bool.false_eq_true, if_false]
        rw [((jiterInt_complete (by omega) g1 g2 g3).1) rfl]
    · -- nothing changed: then the string was digits already
      exfalso
      have hsuf := g8.length_le
      have e1 : lead = [] := List.eq_nil_of_length_eq_zero (by omega)
      have e2 : sign = [] := List.eq_nil_of_length_eq_zero (by omega)
      have e3 : frac = [] := List.eq_nil_of_length_eq_zero (by omega)
      have e4 : trail = [] := List.eq_nil_of_length_eq_zero (by omega)
      have e5 : ds = body := g8.eq_of_length (by omega)
      have : s = ds := by rw [hs, e1, e2, e3, e4, e5]; simp
      rw [(jiterInt_complete hlen g1 g2 g3).1 this] at hj
      cases hj

-- " -0_1_000.00\t" is read as -1000
example : IsIntLiteral " -0_1_000.00\t".toList :=
  ⟨" ".toList, "-".toList, "0_1_000".toList, ".00".toList, "\t".toList, rfl, by decide, by decide,
    .inr (.inr rfl), ⟨by decide, ⟨'0', by decide⟩, ⟨'0', by decide⟩, by
      rw [← hasDouble_iff]; decide⟩, .inr ⟨"00".toList, by decide, by decide, rfl⟩⟩
example : strAsInt " -0_1_000.00\t".toList = .ok (-1000) := by decide

/-- C24, "only if", for strings without `__`, `0-` and `_-`: what is accepted is an integer
literal and the result is its value. -/
theorem accepted_is_literal_partial {s : List Char} {n : Int} (h : strAsInt s = .ok n)
    (ht : Tidy s) : IsIntLiteral s ∧ n = literalValue s := by
  unfold strAsInt at h
  cases hj : jiterInt s with
  | outOfRange => rw [hj] at h; cases h
  | ok m =>
    rw [hj] at h; cases h
    refine ⟨?_, jiterInt_value hj⟩
    obtain ⟨ds, h1, h2, ⟨h3, _⟩ | ⟨h3, _⟩⟩ := jiterInt_ok hj
    · exact ⟨[], [], ds, [], [], by simp [h3], by simp, by simp, .inl rfl, groups_digits h1 h2,
        .inl rfl⟩
    · exact ⟨[], ['-'], ds, [], [], by simp [h3], by simp, by simp, .inr (.inr rfl),
        groups_digits h1 h2, .inl rfl⟩
  | invalid =>
    rw [hj] at h
    dsimp only at h
    cases hc : cleanIntStr s with
    | none => rw [hc] at h; cases h
    | some cl =>
      rw [hc] at h
      dsimp only at h
      cases hj2 : jiterInt cl with
      | outOfRange => rw [hj2] at h; cases h
      | invalid => rw [hj2] at h; cases h
      | ok m =>
        rw [hj2] at h; cases h
        obtain ⟨lead, trail, hs, hl, htr⟩ := trim_split s
        -- sign and the rest
        have hsplit : ∃ sign u, trim s = sign ++ u ∧ IsSign sign ∧ u.head? ≠ some '-' ∧
            cleanUnsigned s.length (decide (sign = ['-'])) u = some cl := by
          unfold cleanIntStr at hc
          have hminus : ∀ (t : List Char) pre, (pre = [] ∨ pre = ['+']) → (pre = ['+'] →
              t.head? ≠ some '-') → cleanMinus s.length t = some cl →
              ∃ sign u, pre ++ t = sign ++ u ∧ IsSign sign ∧ u.head? ≠ some '-' ∧
                cleanUnsigned s.length (decide (sign = ['-'])) u = some cl := by
            intro t pre hpre hpm hm
            unfold cleanMinus at hm
            split at hm
            · rename_i suffix
              rcases hpre with hp | hp
              · subst hp
                split at hm
                · cases hm
                · rename_i hne
                  exact ⟨['-'], suffix, rfl, .inr (.inr rfl), fun e => hne (.inl e), hm⟩
              · exact absurd rfl (hpm hp)
            · rename_i hne
              have htm : t.head? ≠ some '-' := by
                cases t with
                | nil => simp
                | cons c t =>
                  intro e; simp at e; subst e; exact hne t rfl
              rcases hpre with hp | hp
              · subst hp; exact ⟨[], t, rfl, .inl rfl, htm, hm⟩
              · subst hp; exact ⟨['+'], t, rfl, .inr (.inl rfl), htm, hm⟩
          split at hc
          · rename_i suffix he
            split at hc
            · cases hc
            · rename_i hne
              rw [he]
              exact hminus suffix ['+'] (.inr rfl) (fun _ => hne) hc
          · exact hminus _ [] (.inl rfl) (by simp) hc
        obtain ⟨sign, u, k1, k2, k3, k4⟩ := hsplit
        have hu : u <:+: s := by
          refine ⟨lead ++ sign, trail, ?_⟩
          rw [List.append_assoc lead sign u, ← k1]; exact hs.symm
        obtain ⟨body, frac, m1, m2, m3, m4⟩ := cleanUnsigned_sound k4 hj2 (ht.infix hu) k3
        have hs' : s = lead ++ sign ++ body ++ frac ++ trail := by
          rw [List.append_assoc (lead ++ sign) body frac, ← m1, List.append_assoc lead sign u, ← k1]
          exact hs
        refine ⟨⟨lead, sign, body, frac, trail, hs', hl, htr, k2, m2, m3⟩, ?_⟩
        rw [hs', literalValue_parts hl htr k2 m2 m3, m4]
        by_cases hneg : sign = ['-'] <;> simp [hneg]

example : strAsInt " +1_0.0 ".toList = .ok 10 := by decide
example : Tidy " +1_0.0 ".toList :=
  by
  refine ⟨?_, ?_, ?_⟩ <;> rw [← hasPair_iff] <;> decide

/-- C24 fails: `0-1` is read as -1, `0__1` as 1, although neither is an integer literal. -/
theorem accepts_junk :
    strAsInt "0-1".toList = .ok (-1) ∧ strAsInt "+0-5.0".toList = .ok (-5) ∧
    strAsInt "0__1".toList = .ok 1 ∧
    ¬ IsIntLiteral "0-1".toList ∧ ¬ IsIntLiteral "0__1".toList := by
  refine ⟨by decide, by decide, by decide, ?_, ?_⟩
  · rintro ⟨lead, sign, body, frac, trail, hs, h1, h2, h3, h4, h5⟩
    -- the sign must be in front of the digits
    have hl : lead = [] := by
      cases lead with
      | nil => rfl
      | cons c lead =>
        have hc : c = '0' := by
          have := congrArg List.head? hs
          simpa using this.symm
        have := h1 c (by simp)
        rw [hc] at this
        exact absurd this (by decide)
    have hsg : sign = [] := by
      rcases h3 with h | h | h
      · exact h
      · rw [hl, h] at hs; exact absurd (congrArg List.head? hs) (by simp)
      · rw [hl, h] at hs; exact absurd (congrArg List.head? hs) (by simp)
    have hm : '-' ∈ lead ++ sign ++ body ++ frac ++ trail := by rw [← hs]; decide
    rw [hl, hsg] at hm
    simp only [List.nil_append, List.mem_append] at hm
    rcases hm with (hm | hm) | hm
    · rcases h4.chars _ hm with h | h <;> exact absurd h (by decide)
    · rcases h5 with h | ⟨zs, _, hz, h⟩
      · subst h; cases hm
      · subst h
        rcases List.mem_cons.1 hm with h | h
        · exact absurd h (by decide)
        · exact absurd (hz _ h) (by decide)
    · exact absurd (h2 _ hm) (by decide)
  · rintro ⟨lead, sign, body, frac, trail, hs, h1, h2, h3, h4, h5⟩
    have hin : ∀ c ∈ lead ++ sign ++ body ++ frac ++ trail, c = '0' ∨ c = '_' ∨ c = '1' := by
      rw [← hs]; decide
    have e1 : lead = [] := by
      cases lead with
      | nil => rfl
      | cons c lead =>
        have := h1 c (by simp)
        rcases hin c (by simp) with h | h | h <;> subst h <;> exact absurd this (by decide)
    have e2 : trail = [] := by
      cases trail with
      | nil => rfl
      | cons c trail =>
        have := h2 c (by simp)
        rcases hin c (by simp) with h | h | h <;> subst h <;> exact absurd this (by decide)
    have e3 : sign = [] := by
      rcases h3 with h | h | h
      · exact h
      · subst h; exact absurd (hin '+' (by simp)) (by decide)
      · subst h; exact absurd (hin '-' (by simp)) (by decide)
    have e4 : frac = [] := by
      rcases h5 with h | ⟨zs, _, _, h⟩
      · exact h
      · subst h; exact absurd (hin '.' (by simp)) (by decide)
    subst e1; subst e2; subst e3; subst e4
    simp only [List.nil_append, List.append_nil] at hs
    rw [← hs] at h4
    exact h4.single ((hasDouble_iff _).1 (by decide))

theorem strings_disagree : ¬ StringsAgree := by
  intro h
  exact accepts_junk.2.2.2.1 ((h "0-1".toList (-1) (by decide)).1 accepts_junk.1).1

/-- Corollary: rejection of everything that is not a literal, for strings without the patterns. -/
theorem junk_rejected {s : List Char} (ht : Tidy s) (h : ¬ IsIntLiteral s) :
    ∃ t, strAsInt s = .err t := by
  cases hr : strAsInt s with
  | ok n => exact absurd (accepted_is_literal_partial hr ht).1 h
  | err t => exact ⟨t, rfl⟩
  | panic =>
    exfalso
    unfold strAsInt at hr
    cases hj : jiterInt s <;> rw [hj] at hr <;> dsimp only at hr
    · cases hr
    · cases hr
    · cases hc : cleanIntStr s with
      | none => rw [hc] at hr; cases hr
      | some cl =>
        rw [hc] at hr; dsimp only at hr
        cases hj2 : jiterInt cl <;> rw [hj2] at hr <;> cases hr

example : strAsInt "1__0".toList = .err (.other "int_parsing") := by decide
example : strAsInt "+-1".toList = .err (.other "int_parsing") := by decide
example : strAsInt "1.5".toList = .err (.other "int_parsing") := by decide

/-! ### Booleans -/

/-- The strings read as booleans are exactly these twelve words, in any mix of ASCII cases. -/
theorem str_as_bool_exact (s : List Char) (b : Bool) : strAsBool s = .ok b ↔
    ∃ w ∈ (if b then ["1", "t", "y", "on", "yes", "true"] else ["0", "f", "n", "no", "off", "false"]),
      s.map asciiLower = w.toList := by
  have low : ∀ w ∈ ["f", "n", "no", "off", "false", "t", "y", "on", "yes", "true"],
      w.toList.map asciiLower = w.toList := by decide
  have hd : ∀ c : Char, ∀ d : Char, (d = '0' ∨ d = '1') → (asciiLower c = d ↔ c = d) := by
    intro c d hd
    unfold asciiLower
    by_cases hc : 'A' ≤ c ∧ c ≤ 'Z'
    · rw [if_pos hc]
      have h1 : 65 ≤ c.toNat := hc.1
      have h2 : c.toNat ≤ 90 := hc.2
      have h3 : (Char.ofNat (c.toNat + 32)).toNat = c.toNat + 32 := by
        have hv : (c.toNat + 32).isValidChar := .inl (by omega)
        rw [Char.ofNat, dif_pos hv]; rfl
      constructor
      · intro h
        rw [h] at h3
        rcases hd with h | h <;> subst h <;> simp at h3 <;> omega
      · intro h
        rcases hd with h' | h' <;> subst h' <;> subst h <;> simp at h1
    · rw [if_neg hc]
  have one : ∀ d : Char, (d = '0' ∨ d = '1') → (s = [d] ↔ s.map asciiLower = [d]) := by
    intro d hd'
    constructor
    · intro h; subst h
      simp [(hd d d hd').2 rfl]
    · intro h
      cases s with
      | nil => cases h
      | cons c rest =>
        cases rest with
        | nil => simp at h; rw [(hd c d hd').1 h]
        | cons c2 rest => simp at h
  have eq : ∀ w ∈ ["f", "n", "no", "off", "false", "t", "y", "on", "yes", "true"],
      (eqIgnoreCase s w.toList = true ↔ s.map asciiLower = w.toList) := by
    intro w hw
    unfold eqIgnoreCase
    rw [low w hw]; simp
  have hf : ((s = ['0'] || eqIgnoreCase s "f".toList || eqIgnoreCase s "n".toList ||
      eqIgnoreCase s "no".toList || eqIgnoreCase s "off".toList ||
      eqIgnoreCase s "false".toList) = true) ↔
      ∃ w ∈ ["0", "f", "n", "no", "off", "false"], s.map asciiLower = w.toList := by
    simp only [Bool.or_eq_true, decide_eq_true_eq, eq "f" (by decide), eq "n" (by decide),
      eq "no" (by decide), eq "off" (by decide), eq "false" (by decide), one '0' (.inl rfl)]
    simp [or_assoc]
  have ht : ((s = ['1'] || eqIgnoreCase s "t".toList || eqIgnoreCase s "y".toList ||
      eqIgnoreCase s "on".toList || eqIgnoreCase s "yes".toList ||
      eqIgnoreCase s "true".toList) = true) ↔
      ∃ w ∈ ["1", "t", "y", "on", "yes", "true"], s.map asciiLower = w.toList := by
    simp only [Bool.or_eq_true, decide_eq_true_eq, eq "t" (by decide), eq "y" (by decide),
      eq "on" (by decide), eq "yes" (by decide), eq "true" (by decide), one '1' (.inr rfl)]
    simp [or_assoc]
  have disj : ∀ w ∈ ["0", "f", "n", "no", "off", "false"],
      ∀ v ∈ ["1", "t", "y", "on", "yes", "true"], w.toList ≠ v.toList := by decide
  unfold strAsBool
  by_cases h1 : ∃ w ∈ ["0", "f", "n", "no", "off", "false"], s.map asciiLower = w.toList
  · rw [if_pos (hf.2 h1)]
    cases b with
    | false => simpa using h1
    | true =>
      simp only [if_true]
      constructor
      · intro h; cases h
      · rintro ⟨v, hv, hv'⟩
        obtain ⟨w, hw, hw'⟩ := h1
        exact absurd (hw'.symm.trans hv') (disj w hw v hv)
  · rw [if_neg (mt hf.1 h1)]
    by_cases h2 : ∃ w ∈ ["1", "t", "y", "on", "yes", "true"], s.map asciiLower = w.toList
    · rw [if_pos (ht.2 h2)]
      cases b with
      | true => simpa using h2
      | false =>
        simp only [Bool.false_eq_true, if_false]
        constructor
        · intro h; cases h
        · intro h; exact absurd h h1
    · rw [if_neg (mt ht.1 h2)]
      cases b with
      | true =>
        simp only [if_true]
        exact ⟨fun h => (by cases h), fun h => absurd h h2⟩
      | false =>
        simp only [Bool.false_eq_true, if_false]
        exact ⟨fun h => (by cases h), fun h => absurd h h1⟩

example : strAsBool "YeS".toList = .ok true := by decide
example : strAsBool " yes".toList = .err (.other "bool_parsing") := by decide

end PC.IntParse
