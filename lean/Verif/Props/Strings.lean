import Verif.Model.Strings
import Verif.Lemmas.IntParse

/-
C26: string constraints.
-/

namespace PC.Str
open PC.Num PC.IntParse

/-- The string without surrounding white space, if so configured. -/
def stripped (strip : Bool) (s t : List Char) : Prop :=
  if strip then ∃ lead trail, s = lead ++ t ++ trail ∧ (∀ c ∈ lead, isSpace c = true) ∧
    (∀ c ∈ trail, isSpace c = true) ∧ (∀ c, t.head? = some c → isSpace c = false) ∧
    (∀ c, t.getLast? = some c → isSpace c = false)
  else t = s

/-- The case mapping configured. -/
def mapped (v : StrConstrained) (t : List Char) : List Char :=
  if v.toLower then v.lower t else if v.toUpper then v.upper t else t

/-- The length bounds configured. -/
def InBounds (minLength maxLength : Option Nat) (t : List Char) : Prop :=
  (∀ m, minLength = some m → m ≤ t.length) ∧ (∀ m, maxLength = some m → t.length ≤ m)

/-- C26, full statement: an accepted string meets its length bounds and is the input stripped and
case-mapped.  The first half fails: see `upper_exceeds_max_length`. -/
def ConstraintsHold (v : StrConstrained) : Prop :=
  ∀ s out, v.check s = .ok out →
    InBounds v.minLength v.maxLength out ∧
    ∃ t, stripped v.stripWhitespace s t ∧ out = mapped v t

theorem trimEnd_last (s : List Char) (c : Char) (h : (trimEnd s).getLast? = some c) :
    isSpace c = false := by
  unfold trimEnd at h
  rw [List.getLast?_reverse] at h
  cases hd : s.reverse.dropWhile isSpace with
  | nil => rw [hd] at h; cases h
  | cons d l =>
    rw [hd] at h; simp at h; subst h
    have := List.head_dropWhile_not (p := isSpace) (l := s.reverse) (by rw [hd]; simp)
    simpa only [hd, List.head_cons] using this

theorem trim_head (s : List Char) (c : Char) (h : (trim s).head? = some c) : isSpace c = false := by
  unfold trim at h
  obtain ⟨t, h1, _⟩ := trimEnd_split (s.dropWhile isSpace)
  have : (s.dropWhile isSpace).head? = some c := by
    rw [h1]
    cases hd : trimEnd (s.dropWhile isSpace) with
    | nil => rw [hd] at h; cases h
    | cons d l => rw [hd] at h; simpa using h
  cases hd : s.dropWhile isSpace with
  | nil => rw [hd] at this; cases this
  | cons d l =>
    rw [hd] at this; simp at this; subst this
    have := List.head_dropWhile_not (p := isSpace) (l := s) (by rw [hd]; simp)
    simpa only [hd, List.head_cons] using this

theorem stripped_trim (strip : Bool) (s : List Char) :
    stripped strip s (if strip then trim s else s) := by
  unfold stripped
  cases strip with
  | false => simp
  | true =>
    simp only [if_true]
    obtain ⟨lead, trail, h1, h2, h3⟩ := trim_split s
    exact ⟨lead, trail, h1, h2, h3, fun c hc => trim_head s c hc,
      fun c hc => trimEnd_last _ c hc⟩

/-- Stripping is determined by its description, so that `stripped` says what the result is. -/
theorem stripped_unique {strip : Bool} {s t u : List Char} (h1 : stripped strip s t)
    (h2 : stripped strip s u) : t = u := by
  have key : ∀ t, stripped strip s t → t = if strip then trim s else s := by
    intro t h
    unfold stripped at h
    cases strip with
    | false => simpa using h
    | true =>
      simp only [if_true] at h ⊢
      obtain ⟨lead, trail, e, hl, ht, hh, hlast⟩ := h
      cases t with
      | nil =>
        have hall : ∀ c ∈ s, isSpace c = true := by
          intro c hc
          rw [e, List.append_nil] at hc
          rcases List.mem_append.1 hc with hc | hc
          · exact hl c hc
          · exact ht c hc
        have : s.dropWhile isSpace = [] := by
          rw [← List.append_nil s, List.dropWhile_append_of_pos hall]; rfl
        unfold trim
        rw [this]; rfl
      | cons c l =>
        rw [e]
        symm
        apply trim_core hl ht ⟨c, rfl, hh c rfl⟩
        have hne : c :: l ≠ [] := by simp
        exact ⟨_, List.getLast?_eq_some_getLast hne, hlast _ (List.getLast?_eq_some_getLast hne)⟩
  rw [key t h1, key u h2]

theorem convert_eq (v : StrConstrained) (orig : List Char) :
    v.convert orig (if v.stripWhitespace then trim orig else orig) =
      mapped v (if v.stripWhitespace then trim orig else orig) := by
  unfold StrConstrained.convert mapped
  cases v.stripWhitespace <;> cases v.toLower <;> cases v.toUpper <;> simp

/-- C26: a string is accepted, as the input stripped and then case-mapped, iff the *stripped*
string meets the length bounds and the pattern. -/
theorem str_constraints_exact (v : StrConstrained) (s out : List Char) :
    v.check s = .ok out ↔ ∃ t, stripped v.stripWhitespace s t ∧
      InBounds v.minLength v.maxLength t ∧ (∀ p, v.pattern = some p → p t = true) ∧
      out = mapped v t := by
  have hst := stripped_trim v.stripWhitespace s
  have huniq : ∀ t, stripped v.stripWhitespace s t →
      t = if v.stripWhitespace then trim s else s := fun t ht => stripped_unique ht hst
  have hconv := convert_eq v s
  unfold StrConstrained.check StrConstrained.afterLength
  dsimp only
  generalize (if v.stripWhitespace then trim s else s) = t0 at *
  have hmin : (v.minLength.map fun m => decide (t0.length < m)) = some true ↔
      ¬ ∀ m, v.minLength = some m → m ≤ t0.length := by
    cases v.minLength <;> simp
  have hmax : (v.maxLength.map fun m => decide (t0.length > m)) = some true ↔
      ¬ ∀ m, v.maxLength = some m → t0.length ≤ m := by
    cases v.maxLength <;> simp
  have hpat : (v.pattern.map fun p => p t0) = some false ↔
      ¬ ∀ p, v.pattern = some p → p t0 = true := by
    cases v.pattern <;> simp
  constructor
  · intro h
    refine ⟨t0, hst, ?_⟩
    by_cases h1 : (v.minLength.map fun m => decide (t0.length < m)) = some true
    · rw [if_pos h1] at h; cases h
    · rw [if_neg h1] at h
      by_cases h2 : (v.maxLength.map fun m => decide (t0.length > m)) = some true
      · rw [if_pos h2] at h; cases h
      · rw [if_neg h2] at h
        by_cases h3 : (v.pattern.map fun p => p t0) = some false
        · rw [if_pos h3] at h; cases h
        · rw [if_neg h3, hconv] at h
          injection h with h
          exact ⟨⟨Decidable.not_not.1 (mt hmin.2 h1), Decidable.not_not.1 (mt hmax.2 h2)⟩,
            Decidable.not_not.1 (mt hpat.2 h3), h.symm⟩
  · rintro ⟨t, ht, ⟨hb1, hb2⟩, hp, ho⟩
    have := huniq t ht
    subst this
    rw [if_neg (fun h => hmin.1 h hb1), if_neg (fun h => hmax.1 h hb2),
      if_neg (fun h => hpat.1 h hp), hconv, ho]

/-- C26 for validators whose case mapping, if any, keeps the length: then the bounds hold of the
result. -/
theorem str_constraints_hold_partial (v : StrConstrained)
    (h : ∀ t, (mapped v t).length = t.length) : ConstraintsHold v := by
  intro s out hs
  obtain ⟨t, h1, ⟨h2, h3⟩, _, h4⟩ := (str_constraints_exact v s out).1 hs
  subst h4
  exact ⟨⟨fun m hm => by rw [h]; exact h2 m hm, fun m hm => by rw [h]; exact h3 m hm⟩, t, h1, rfl⟩

namespace Demo

/-- Full upper-casing on two characters is enough to tell: 'ß' becomes "SS". -/
def upper (s : List Char) : List Char :=
  s.flatMap fun c => if c = 'ß' then ['S', 'S'] else if c = 's' then ['S'] else [c]

/-- At most two characters, stripped and upper-cased. -/
def v : StrConstrained := ⟨none, some 2, some 1, true, false, true, id, upper⟩

/-- The same without case mapping. -/
def w : StrConstrained := { v with toUpper := false }

end Demo

-- " s\t" is stripped and mapped to "S"
example : Demo.v.check " s\t".toList = .ok ['S'] := by decide
example : Demo.v.check "    ".toList = .err (.other "string_too_short") := by decide
example : ∀ t, (mapped Demo.w t).length = t.length := by
  intro t; simp [mapped, Demo.w, Demo.v]

/-- C26 fails: `max_length=2` with `to_upper` accepts a two-character string and returns one of
three characters. -/
theorem upper_exceeds_max_length :
    Demo.v.maxLength = some 2 ∧ Demo.v.check "sß".toList = .ok "SSS".toList := by decide

theorem constraints_fail : ¬ ConstraintsHold Demo.v := by
  intro h
  have := (h "sß".toList "SSS".toList upper_exceeds_max_length.2).1.2 2 rfl
  exact absurd this (by decide)

/-- **C26**: what is stripped are the characters of the Unicode property `White_Space`: tab, newline, vertical
tab, form feed, carriage return, space, next line, no-break space, and the spaces and separators from Ogham to
ideographic. -/
theorem space_iff (c : Char) : isSpace c = true ↔ c.toNat ∈
    [0x9, 0xA, 0xB, 0xC, 0xD, 0x20, 0x85, 0xA0, 0x1680, 0x2000, 0x2001, 0x2002, 0x2003, 0x2004, 0x2005, 0x2006,
      0x2007, 0x2008, 0x2009, 0x200A, 0x2028, 0x2029, 0x202F, 0x205F, 0x3000] := by
  simp only [isSpace, Bool.or_eq_true, Bool.and_eq_true, decide_eq_true_iff, beq_iff_eq, List.mem_cons,
    List.not_mem_nil, or_false]
  omega

example : isSpace '\u205F' = true ∧ isSpace '\u200B' = false := ⟨by decide, by decide⟩

end PC.Str
