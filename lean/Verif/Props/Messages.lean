import Verif.Lemmas.Messages

/-
C48: messages of errors.
-/

namespace PC.Msg

set_option maxRecDepth 10000 in
/-- The substitutions are the values of the context, then the plural. -/
theorem substitutions_eq (e : Err) :
    substitutions e = (context e).map (fun p => (p.1, showVal p.2)) ++
      (match limit e with
       | some n => [("expected_plural".toList, if n = 1 then [] else ['s'])]
       | none => []) := by
  cases e with
  | customError a b ctx =>
    have h1 : limit (.customError a b ctx) = none := by
      unfold limit context
      cases hf : List.find? _ (ctx.map fun p => (p.1, CtxVal.str p.2)) with
      | none => rfl
      | some q =>
        have := List.mem_of_find?_eq_some hf
        obtain ⟨p, -, rfl⟩ := List.mem_map.1 this
        rfl
    rw [h1]
    simp only [substitutions, context, List.map_map, List.append_nil]
    have : ((fun p : List Char × CtxVal => (p.1, showVal p.2)) ∘
        fun p : List Char × List Char => (p.1, CtxVal.str p.2)) = id := by
      funext p; rfl
    rw [this, List.map_id]
  | tooLong a b c => cases c <;> rfl
  | valueError x => cases x <;> rfl
  | assertionError x => cases x <;> rfl
  | _ => rfl

theorem lookup_map {α β γ : Type} [BEq α] (f : β → γ) (n : α) (l : List (α × β)) :
    (l.map (fun p => (p.1, f p.2))).lookup n = (l.lookup n).map f := by
  induction l with
  | nil => rfl
  | cons p l ih =>
    rw [List.map_cons, List.lookup_cons, List.lookup_cons, ih]
    cases n == p.1 <;> rfl

theorem lookup_substitutions (e : Err) (n : List Char) : (substitutions e).lookup n = shown e n := by
  rw [substitutions_eq e, List.lookup_append, lookup_map]
  unfold shown
  cases (context e).lookup n with
  | some v => rfl
  | none =>
    simp only [Option.map_none, Option.none_or]
    cases limit e with
    | none =>
      simp only [List.lookup_nil, Option.map_none, ite_self]
    | some k =>
      simp only [List.lookup_cons, List.lookup_nil, Option.map_some]
      by_cases h : n = "expected_plural".toList
      · rw [if_pos h, h]; simp
      · rw [if_neg h]
        have : (n == "expected_plural".toList) = false := by simpa using h
        rw [this]

theorem templates_plain (e : Err) (t : InputType) (h : Harmless e) : plain (parse (template e t)) = true := by
  cases e with
  | customError a b c => exact h.1
  | _ => cases t <;> dsimp only [template, templatePython, templateJson] <;> decide +kernel

set_option maxRecDepth 10000 in
theorem names_plain (e : Err) (h : Harmless e) :
    (substitutions e).all (fun p => !p.1.contains '}') = true := by
  cases e with
  | customError a b c =>
    simp only [substitutions, List.all_eq_true]
    intro p hp
    simpa using (h.2.1 p hp).2
  | _ => rfl

theorem values_plain (e : Err) (h : Harmless e) : ∀ p ∈ (substitutions e).dropLast, '{' ∉ p.2 := by
  cases e with
  | customError a b c => exact h.2.2
  | tooShort a b c =>
    intro p hp
    simp only [substitutions, List.dropLast_cons_cons, List.dropLast_singleton, List.mem_cons,
      List.not_mem_nil, or_false] at hp
    rcases hp with rfl | rfl | rfl
    · exact h
    · exact digits_plain b
    · exact digits_plain c
  | tooLong a b c =>
    intro p hp
    simp only [substitutions, List.dropLast_cons_cons, List.dropLast_singleton, List.mem_cons,
      List.not_mem_nil, or_false] at hp
    rcases hp with rfl | rfl | rfl
    · exact h
    · exact digits_plain b
    · cases c with
      | none => decide
      | some n => exact digits_plain n
  | bytesInvalidEncoding a b =>
    intro p hp
    simp only [substitutions, List.dropLast_cons_cons, List.dropLast_singleton, List.mem_cons,
      List.not_mem_nil, or_false] at hp
    subst hp; exact h
  | unionTagInvalid a b c =>
    intro p hp
    simp only [substitutions, List.dropLast_cons_cons, List.dropLast_singleton, List.mem_cons,
      List.not_mem_nil, or_false] at hp
    rcases hp with rfl | rfl
    · exact h.1
    · exact h.2
  | timezoneOffset a b =>
    intro p hp
    simp only [substitutions, List.dropLast_cons_cons, List.dropLast_singleton, List.mem_cons,
      List.not_mem_nil, or_false] at hp
    subst hp; exact int_plain a
  | stringTooShort a | stringTooLong a | bytesTooShort a | bytesTooLong a | urlTooLong a | decimalMaxDigits a
  | decimalMaxPlaces a | decimalWholeDigits a =>
    intro p hp
    simp only [substitutions, List.dropLast_cons_cons, List.dropLast_singleton, List.mem_cons,
      List.not_mem_nil, or_false] at hp
    subst hp; exact digits_plain a
  | _ => intro p hp; cases hp

/-- **C48**, under the condition that no text inserted before another one contains an opening brace (for
custom errors also that braces occur only around placeholders): the message is the template with each
placeholder replaced by the value of the context it names. The condition is void for every error with at
most one text in its context: all but `too_short`, `too_long` (type of the field), `bytes_invalid_encoding`,
`union_tag_invalid` and custom errors. -/
theorem message_exact_partial (e : Err) (t : InputType) (h : Harmless e) :
    renderMessage e t = fill (shown e) (parse (template e t)) := by
  have e1 : renderMessage e t =
      (substitutions e).foldl (fun msg s => substitute s.1 s.2 msg) (template e t) := by
    cases e <;> rfl
  have e2 := fill_parseGo (template e t) none
  have hn : ∀ p ∈ substitutions e, '}' ∉ p.1 := by
    intro p hp
    have := List.all_eq_true.1 (names_plain e h) p hp
    simpa using this
  rw [e1]
  have e3 : template e t = fill (fun _ => none) (parse (template e t)) := by
    rw [parse, e2]; rfl
  rw [e3, foldl_fill _ _ _ hn (values_plain e h) (fine_of_plain (templates_plain e t h)), ← e3]
  congr 1
  funext n
  rw [Option.none_or, lookup_substitutions]

/-- **C48.** Every placeholder of every template names a value that is there (for custom errors this is up
to the user): no message is left with a placeholder of its template. -/
theorem placeholders_provided (e : Err) (t : InputType) (hc : ∀ a b c, e ≠ .customError a b c)
    (n : List Char) (hn : Tok.hole n ∈ parse (template e t)) : ∃ v, shown e n = some v := by
  have key : (parse (template e t)).all (fun
      | .ch _ => true
      | .hole n => ((substitutions e).map Prod.fst).any (fun p => p == n)) = true := by
    cases e with
    | customError a b c => exact absurd rfl (hc a b c)
    | _ =>
      cases t <;> dsimp only [template, templatePython, templateJson, substitutions, List.map] <;>
        decide +kernel
  have h1 := List.all_eq_true.1 key _ hn
  simp only [List.any_eq_true, beq_iff_eq] at h1
  obtain ⟨q, hq, rfl⟩ := h1
  obtain ⟨p, hp, rfl⟩ := List.mem_map.1 hq
  rw [← lookup_substitutions]
  cases hl : (substitutions e).lookup p.1 with
  | some v => exact ⟨v, rfl⟩
  | none =>
    have h2 := List.lookup_eq_none_iff.1 hl p hp
    simp at h2

set_option maxRecDepth 10000 in
/-- Without the condition the claim fails, with a tag chosen by the user: the tag `{expected_tags}` of a
tagged union is shown as the list of expected tags. -/
theorem tag_rewrites_message :
    renderMessage (.unionTagInvalid "'kind'".toList "{expected_tags}".toList "'cat', 'dog'".toList) .python =
      ("Input tag ''cat', 'dog'' found using 'kind' does not match any of the expected tags: " ++
        "'cat', 'dog'").toList ∧
    fill (shown (.unionTagInvalid "'kind'".toList "{expected_tags}".toList "'cat', 'dog'".toList))
        (parse (template (.unionTagInvalid "'kind'".toList "{expected_tags}".toList "'cat', 'dog'".toList)
          .python)) =
      ("Input tag '{expected_tags}' found using 'kind' does not match any of the expected tags: " ++
        "'cat', 'dog'").toList := by
  constructor <;> decide

set_option maxRecDepth 10000 in
/-- A value of a custom error that mentions another placeholder is substituted in turn. -/
theorem custom_value_rewritten :
    renderMessage (.customError "my_error".toList "{a} and {b}".toList
      [("a".toList, "{b}".toList), ("b".toList, "2".toList)]) .python = "2 and 2".toList := by decide

set_option maxRecDepth 10000 in
/-- A case that meets the condition: a list that is too long, of unknown length. -/
example : renderMessage (.tooLong "List".toList 1 none) .json =
    "List should have at most 1 item after validation, not more".toList := by
  rw [message_exact_partial (.tooLong "List".toList 1 none) _ (show '{' ∉ "List".toList by decide)]; decide

set_option maxRecDepth 10000 in
/-- Braces in the only text of a context do no harm. -/
example : renderMessage (.stringPatternMismatch "^a{2}{pattern}$".toList) .python =
    "String should match pattern '^a{2}{pattern}$'".toList := by
  rw [message_exact_partial (.stringPatternMismatch _) _ trivial]; decide

set_option maxRecDepth 10000 in
example : Harmless (.customError "e".toList "{x} is not {y}".toList
    [("x".toList, "1".toList), ("y".toList, "{x}".toList)]) := by
  refine ⟨by decide, by decide, by decide⟩

example : Tok.hole "max_length".toList ∈ parse (template (.urlTooLong 3) .python) := by decide

end PC.Msg
