import Verif.Props.Literal
import Verif.Spec.LitText

/-
C118: literals and enums given as keys of JSON objects or in `validate_strings`.
-/

namespace PC.Lit
open PC.Num PC.IntParse

variable {α : Type}

theorem ofText_int (src : Source) (s : List Char) (x : α) : (LitInput.ofText src s x).int = none := by
  unfold LitInput.ofText Source.int
  dsimp only
  cases accepted (strAsInt s) with
  | none => rfl
  | some n => cases src <;> rfl

theorem ofText_find {β : Type} (o : PyOps α) (l : Lookup α β) (src : Source) {s : List Char} {x : α}
    (hx : IsText o s x) (hb : l.findBool (.ofText src s x) = none) :
    l.find o (.ofText src s x) = l.find o (.ofPy o x) := by
  have h1 : l.findBool (.ofPy o x) = none := by
    unfold Lookup.findBool LitInput.ofPy; dsimp only; rw [hx.noBool]
  have h2 : l.findInt (.ofText src s x) = l.findInt (.ofPy o x) := by
    unfold Lookup.findInt; rw [ofText_int]; unfold LitInput.ofPy; dsimp only; rw [hx.noInt]
  have h3 : l.findRest o (.ofText src s x) = l.findRest o (.ofPy o x) := by
    have : l.findStr (.ofText src s x) = l.findStr (.ofPy o x) := by
      unfold Lookup.findStr LitInput.ofPy; dsimp only; rw [hx.str]; rfl
    unfold Lookup.findRest; rw [this]; rfl
  unfold Lookup.find
  rw [hb, h1, h2, h3]

/-- **C118**: text that stands for a listed bool gives that bool, whatever else is listed. -/
theorem text_bool {o : PyOps α} (lo : Lawful o) {expected : List α} {s : List Char} {b : Bool}
    (h : StandsForListed o expected s b) (src : Source) (x : α) :
    ∃ v ∈ expected, o.strictBool v = some b ∧ validate o expected (.ofText src s x) = .ok v := by
  obtain ⟨hs, m, hm, hmb⟩ := h
  have hinv := inv_lit lo expected
  have key : ∃ id, (Lookup.new o (expected.map fun v => (v, v))).findBool (.ofText src s x) = some id ∧
      At (expected.map fun v => (v, v)) id (fun k => o.strictBool k = some b) := by
    unfold Lookup.findBool LitInput.ofText Source.bool
    dsimp only
    rw [hs]
    dsimp only [accepted]
    cases b with
    | true =>
      obtain ⟨id, hid⟩ := hinv.trues.complete (m, m) (List.mem_map.2 ⟨m, hm, rfl⟩) hmb
      exact ⟨id, hid, hinv.trues.sound id hid⟩
    | false =>
      obtain ⟨id, hid⟩ := hinv.falses.complete (m, m) (List.mem_map.2 ⟨m, hm, rfl⟩) hmb
      exact ⟨id, hid, hinv.falses.sound id hid⟩
  obtain ⟨id, hid, hat⟩ := key
  obtain ⟨kv, hkv, h1, h2⟩ := at_value hinv hat
  obtain ⟨v, hv, rfl⟩ := List.mem_map.1 hkv
  refine ⟨v, hv, h2, ?_⟩
  unfold validate Lookup.validate Lookup.find
  rw [hid]; dsimp only at h1 ⊢; rw [h1]

/-- **C118**, as far as it holds: text that stands for no listed bool is validated as in Python. What is missing is the
text that does: see `text_bool`. -/
theorem text_as_python_partial {o : PyOps α} (lo : Lawful o) {expected : List α} {s : List Char} {x : α}
    (hx : IsText o s x) (h : ∀ b, ¬ StandsForListed o expected s b) (src : Source) :
    validate o expected (.ofText src s x) = validate o expected (.ofPy o x) := by
  have hinv := inv_lit lo expected
  have hb : (Lookup.new o (expected.map fun v => (v, v))).findBool (.ofText src s x) = none := by
    cases hf : (Lookup.new o (expected.map fun v => (v, v))).findBool (.ofText src s x) with
    | none => rfl
    | some id =>
      exfalso
      unfold Lookup.findBool LitInput.ofText Source.bool at hf
      dsimp only at hf
      have main : ∀ b, strAsBool s = .ok b →
          At (expected.map fun v => (v, v)) id (fun k => o.strictBool k = some b) → False := by
        intro b hs hat
        obtain ⟨kv, hkv, _, h2⟩ := at_value hinv hat
        obtain ⟨v, hv, rfl⟩ := List.mem_map.1 hkv
        exact h b ⟨hs, v, hv, h2⟩
      cases hs : strAsBool s with
      | ok b =>
        rw [hs] at hf
        cases b with
        | true => exact main true hs (hinv.trues.sound id hf)
        | false => exact main false hs (hinv.falses.sound id hf)
      | err e => rw [hs] at hf; cases hf
      | panic => rw [hs] at hf; cases hf
  unfold validate Lookup.validate
  rw [ofText_find o _ src hx hb]

/-- **C118**: the claim holds exactly for literals that list no bool. -/
theorem text_as_python_iff {o : PyOps α} (lo : Lawful o) (ap : Apart o) (texts : ∀ s, ∃ x, IsText o s x)
    (expected : List α) : TextAsPython o expected ↔ ∀ m ∈ expected, o.strictBool m = none := by
  constructor
  · intro h m hm
    cases hb : o.strictBool m with
    | none => rfl
    | some b =>
      exfalso
      have main : ∀ s : List Char, strAsBool s = .ok b → False := by
        intro s hs
        obtain ⟨x, hx⟩ := texts s
        obtain ⟨v, _, hvb, hv⟩ := text_bool lo ⟨hs, m, hm, hb⟩ .jsonKey x
        rw [h .jsonKey s x hx] at hv
        have hmt := (literal_sound lo hv).2
        unfold Matches at hmt
        rw [if_pos (lo.bool_hash _ _ hvb)] at hmt
        have := ap.bool v b s x hvb hx.str
        rw [this] at hmt
        cases hmt.2
      cases b with
      | true => exact main "true".toList (by decide)
      | false => exact main "false".toList (by decide)
  · intro h src s x hx
    refine text_as_python_partial lo hx ?_ src
    rintro b ⟨_, m, hm, hmb⟩
    rw [h m hm] at hmb
    cases hmb

/-- **C118**: no text is taken for a literal that lists only ints, from JSON or from strings. -/
theorem text_int_refused {o : PyOps α} (lo : Lawful o) (ap : Apart o) {expected : List α}
    (hi : ∀ m ∈ expected, o.strictBool m = none ∧ ∃ n, o.exactInt m = some n) {s : List Char} {x : α}
    (hx : IsText o s x) (src : Source) :
    validate o expected (.ofText src s x) = .err (.other "literal_error") := by
  have h0 : ∀ b, ¬ StandsForListed o expected s b := by
    rintro b ⟨_, m, hm, hmb⟩
    rw [(hi m hm).1] at hmb
    cases hmb
  rw [text_as_python_partial lo hx h0 src]
  have hbig : ¬ BigAgainstSmall o expected x := by
    rintro ⟨⟨n, hn, _⟩, _⟩
    rw [hx.noInt] at hn
    cases hn
  rcases literal_complete_partial lo hbig with ⟨⟨m, hm, hmx⟩, _⟩ | ⟨_, h⟩
  · exfalso
    obtain ⟨_, n, hn⟩ := hi m hm
    unfold Matches at hmx
    rw [if_pos (lo.int_hash _ _ hn), ap.int m n s x hn hx.str] at hmx
    cases hmx.2
  · exact h

/-- **C118**: text given to an enum is validated alike in strict and in lax mode. -/
theorem enum_text_any_mode (o : PyOps α) (c : EnumClass α) (t : SubType) (l : Lookup α α)
    (float : List Char → Option α) (src : Source) (s : List Char) (x : α) :
    enumValidate o c t l true false (.ofText float src s x) = enumValidate o c t l false false (.ofText float src s x) := by
  cases t <;> rfl

/-- **C118**: an enum of ints takes text that is read as the value of a member, unlike a literal (`text_int_refused`),
in strict mode too. -/
theorem int_enum_text {o : PyOps α} (lo : Lawful o) (c : EnumClass α) (float : List Char → Option α)
    (members : List (α × α)) (src : Source) {s : List Char} (x : α) {k m : α} {n : Int} (hm : (k, m) ∈ members)
    (hk : o.exactInt k = some n) (hs : Small n) (hx : strAsInt s = .ok n) (strict : Bool) :
    ∃ v k', (k', v) ∈ members ∧ o.exactInt k' = some n ∧
      enumValidate o c .int (Lookup.new o members) strict false (.ofText float src s x) = .ok v := by
  have hint : (EnumInput.ofText float src s x).anyInt false = some n := by
    unfold EnumInput.ofText Source.int
    dsimp only
    rw [hx]
    rfl
  obtain ⟨v, k', h1, h2, h3⟩ := enum_int_accepted lo c members false (.ofText float src s x) hm hk hs hint
    (fun v hv => by cases hv)
  refine ⟨v, k', h1, h2, ?_⟩
  cases strict with
  | false => exact h3
  | true => rw [enum_text_any_mode]; exact h3

open Demo in
theorem apart : Apart ops where
  bool m b s x hm hx := by cases m <;> cases x <;> simp_all [ops, Obj.key]
  int m n s x hm hx := by cases m <;> cases x <;> simp_all [ops, Obj.key]

open Demo in
/-- Every text is an object. -/
theorem demo_texts (s : List Char) : ∃ x, IsText ops s x := ⟨.str s, rfl, rfl, rfl⟩

open Demo in
/-- C118 fails: `yes` as a key of a JSON object gives `True` if that is listed beside `'yes'`, and Python's `'yes'`
gives itself. -/
theorem listed_text_taken_for_bool :
    validate ops [.str "yes".toList, .bool true] (.ofText .jsonKey "yes".toList (.str "yes".toList)) = .ok (.bool true) ∧
    validate ops [.str "yes".toList, .bool true] (.ofText .strings "yes".toList (.str "yes".toList)) = .ok (.bool true) ∧
    validate ops [.str "yes".toList, .bool true] (.ofPy ops (.str "yes".toList)) = .ok (.str "yes".toList) := by
  refine ⟨?_, ?_, ?_⟩ <;> decide

open Demo in
theorem text_not_as_python : ¬ TextAsPython ops [.str "yes".toList, .bool true] := by
  intro h
  have := h .jsonKey "yes".toList (.str "yes".toList) ⟨rfl, rfl, rfl⟩
  rw [listed_text_taken_for_bool.1, listed_text_taken_for_bool.2.2] at this
  cases this

open Demo in
-- the hypotheses are met: text for a listed bool, other text, ints only
example : StandsForListed ops [.str "yes".toList, .bool true] "ON".toList true ∧
    (∀ b, ¬ StandsForListed ops [.str "yes".toList, .bool true] "no".toList b) ∧
    (∀ m ∈ [Obj.int 1, .int 2], ops.strictBool m = Option.none ∧ ∃ n, ops.exactInt m = some n) := by
  refine ⟨⟨by decide, .bool true, by simp, rfl⟩, ?_, ?_⟩
  · rintro b ⟨hs, m, hm, hmb⟩
    have : b = false := by
      have h2 : strAsBool "no".toList = .ok false := by decide
      rw [h2] at hs; cases hs; rfl
    subst this
    simp only [List.mem_cons, List.not_mem_nil, or_false] at hm
    rcases hm with rfl | rfl <;> simp [ops] at hmb
  · intro m hm
    simp only [List.mem_cons, List.not_mem_nil, or_false] at hm
    rcases hm with rfl | rfl <;> exact ⟨rfl, _, rfl⟩

open Demo in
-- `01` is a key for the member of value 1 of an enum of ints, in strict mode, and none for `Literal[1]`
example : enumValidate ops cls .int (Lookup.new ops members) true false
      (.ofText (fun _ => Option.none) .jsonKey "01".toList (.str "01".toList)) = .ok (.str ['A']) ∧
    strAsInt "01".toList = .ok 1 ∧ Small 1 ∧
    validate ops [.int 1] (.ofText .jsonKey "1".toList (.str "1".toList)) = .err (.other "literal_error") := by
  refine ⟨by cbv, by cbv, ?_, by decide⟩
  unfold Small; omega

end PC.Lit
