import Verif.Spec.SerErr

/-! C120: what is raised when serialising fails. -/

namespace PC.SerErr

theorem strip_some (p t r : Text) (h : stripPrefix p t = some r) : t = p ++ r := by
  induction p generalizing t with
  | nil => simpa [stripPrefix] using h
  | cons a p ih =>
    cases t with
    | nil => cases h
    | cons c t =>
      unfold stripPrefix at h
      split at h
      · rename_i hc
        rw [ih t h, hc]; rfl
      · cases h

theorem strip_append (p r : Text) : stripPrefix p (p ++ r) = some r := by
  induction p with
  | nil => cases r <;> rfl
  | cons a p ih => simp [stripPrefix, ih]

theorem strip_none (p t : Text) (h : ¬ p <+: t) : stripPrefix p t = none := by
  cases hs : stripPrefix p t with
  | none => rfl
  | some r => exact (h ⟨r, (strip_some p t r hs).symm⟩).elim

theorem seErr_ordinary (t : Text) (h1 : ¬ unexpectedMarker <+: t) (h2 : ¬ serErrorMarker <+: t) :
    seErrPyErr t = .serError ("Error serializing to JSON: ".toList ++ t) := by
  unfold seErrPyErr
  rw [strip_none _ _ h1, strip_none _ _ h2]

theorem seErr_P (t : Text) : seErrPyErr ('P' :: t) = .serError ("Error serializing to JSON: ".toList ++ 'P' :: t) := rfl

theorem not_marker (p : Text) (t : Text) : ¬ ('_' :: p) <+: ('P' :: t) := by
  rintro ⟨r, h⟩
  simp at h

theorem display_after_ordinary (n : Nat) (e : Exc) (h : Ordinary e) : Ordinary (after n e) := by
  cases n with
  | zero => exact h
  | succ n => exact ⟨not_marker _ _, not_marker _ _⟩

theorem seErr_after (n : Nat) (e : Exc) (h : Ordinary e) : seErrPyErr (display (after n e)) = after (n + 1) e := by
  have ho := display_after_ordinary n e h
  rw [seErr_ordinary _ ho.1 ho.2]
  cases n with
  | zero => rfl
  | succ n =>
    show Exc.serError _ = Exc.serError _
    congr 1

theorem texts_wrap (rt : Bool) (ls : List Layer) : texts rt (.wrap :: ls) = texts rt ls := by
  simp [texts]

theorem texts_key (rt : Bool) (ls : List Layer) : texts rt (.key :: ls) = texts rt ls := by
  simp [texts]

theorem texts_json_true (ls : List Layer) : texts true (.json :: ls) = texts true ls + 1 := by
  simp [texts]

theorem texts_false (ls : List Layer) : texts false ls = 0 := rfl

theorem raised_all (rt : Bool) (e : Exc) (h : Ordinary e) (ls : List Layer) :
    pyErr rt ls (.raised e) = after (texts rt ls) e ∧
    serErr rt ls (.raised e) = display (after (texts rt ls) e) ∧
    keyErr rt ls (.raised e) = after (texts rt ls) e := by
  induction ls with
  | nil => cases rt <;> exact ⟨rfl, rfl, rfl⟩
  | cons l ls ih =>
    obtain ⟨h1, h2, h3⟩ := ih
    cases l with
    | wrap => rw [texts_wrap]; exact ⟨h1, h2, h3⟩
    | key =>
      rw [texts_key]
      refine ⟨h3, ?_, h3⟩
      show display (keyErr rt ls _) = _
      rw [h3]
    | json =>
      cases rt with
      | false => exact ⟨h1, h2, h3⟩
      | true =>
        rw [texts_json_true]
        refine ⟨?_, ?_, ?_⟩
        · show seErrPyErr (serErr true ls _) = _
          rw [h2, seErr_after _ _ h]
        · show display (seErrPyErr (serErr true ls _)) = _
          rw [h2, seErr_after _ _ h]
        · show seErrPyErr (serErr true ls _) = _
          rw [h2, seErr_after _ _ h]

/-- `to_python` raises an exception as it is, or, within `n + 1` `json` schemas that write text, as the text of it under
the headings of `n` more. -/
theorem to_python_raises (rt : Bool) (ls : List Layer) (e : Exc) (h : Ordinary e) :
    toPython rt ls (.raised e) = after (texts rt ls) e :=
  (raised_all rt e h ls).1

/-- `to_json` raises a `PydanticSerializationError` with the text of the exception under the headings of the `json` schemas
that write text. -/
theorem to_json_raises (rt : Bool) (ls : List Layer) (e : Exc) (h : Ordinary e) :
    toJson rt ls (.raised e) = .serError (headings (texts rt ls) ++ display e) := by
  unfold toJson
  rw [(raised_all rt e h ls).2.1, seErr_after _ _ h, after]

/-- Whatever is raised on the way, and wherever, `to_json` raises one of the two exceptions of serialisation. -/
theorem to_json_class (rt : Bool) (ls : List Layer) (o : Origin) (q : Text) (s : Option Text) :
    toJson rt ls o ≠ .other q s := by
  unfold toJson seErrPyErr
  repeat' split
  all_goals exact nofun

/-- The text of the exception is the end of the message. -/
theorem to_json_ends (rt : Bool) (ls : List Layer) (e : Exc) (h : Ordinary e) :
    ∃ m, toJson rt ls (.raised e) = .serError m ∧ display e <:+ m :=
  ⟨_, to_json_raises rt ls e h, ⟨_, rfl⟩⟩

/-- Without `round_trip` `to_python` raises exceptions as they are, wherever. -/
theorem to_python_same (ls : List Layer) (e : Exc) (h : Ordinary e) : toPython false ls (.raised e) = e :=
  to_python_raises false ls e h

theorem turns_wrap (rt : Bool) (ls : List Layer) : turns rt (.wrap :: ls) = turns rt ls := by
  simp [turns, texts_wrap, inKey]

theorem turns_json_true (ls : List Layer) : turns true (.json :: ls) = turns true ls + 1 := by
  simp [turns, texts_json_true, inKey]; omega

theorem turns_json_false (ls : List Layer) : turns false (.json :: ls) = turns false ls := by
  simp [turns, texts_false, inKey]

theorem turns_key_wrap (rt : Bool) (ls : List Layer) : turns rt (.key :: .wrap :: ls) = turns rt (.key :: ls) := by
  simp [turns, texts_wrap, texts_key, inKey]

theorem turns_key_key (rt : Bool) (ls : List Layer) : turns rt (.key :: .key :: ls) = turns rt (.key :: ls) := by
  unfold turns
  rw [texts_key]
  congr 2
  simp only [inKey]
  cases rt <;> simp

theorem turns_key_json_true (ls : List Layer) : turns true (.key :: .json :: ls) = turns true ls + 1 := by
  unfold turns
  rw [texts_key, texts_json_true]
  simp [inKey]; omega

theorem turns_key_json_false (ls : List Layer) : turns false (.key :: .json :: ls) = turns false (.key :: ls) := by
  simp [turns, texts_false, inKey]

theorem turns_key_pos (rt : Bool) (ls : List Layer) : ∃ n, turns rt (.key :: ls) = n + 1 := by
  induction ls with
  | nil => cases rt <;> exact ⟨0, rfl⟩
  | cons l ls ih =>
    cases l with
    | wrap => rw [turns_key_wrap]; exact ih
    | key => rw [turns_key_key]; exact ih
    | json =>
      cases rt with
      | false => rw [turns_key_json_false]; exact ih
      | true => exact ⟨_, turns_key_json_true ls⟩

/-- The serde error for a value of unknown type after `n` turns. -/
def unknownSerde (r : Text) : Nat → Text
  | 0 => serErrorMarker ++ unknownText r
  | n + 1 => "PydanticSerializationError: ".toList ++ (unknownHeadings n ++ unknownText r)

theorem seErr_unknown (r : Text) (n : Nat) :
    seErrPyErr (unknownSerde r n) = .serError (unknownHeadings n ++ unknownText r) := by
  cases n with
  | zero => rfl
  | succ n =>
    show Exc.serError _ = Exc.serError _
    congr 1

theorem unknown_all (rt : Bool) (r : Text) (ls : List Layer) :
    pyErr rt ls (.unknown r) = .serError (unknownHeadings (turns rt ls - 1) ++ unknownText r) ∧
    serErr rt ls (.unknown r) = unknownSerde r (turns rt ls) ∧
    keyErr rt ls (.unknown r) = .serError (unknownHeadings (turns rt (.key :: ls) - 1) ++ unknownText r) := by
  induction ls with
  | nil => cases rt <;> exact ⟨rfl, rfl, rfl⟩
  | cons l ls ih =>
    obtain ⟨h1, h2, h3⟩ := ih
    cases l with
    | wrap => rw [turns_key_wrap, turns_wrap]; exact ⟨h1, h2, h3⟩
    | key =>
      rw [turns_key_key]
      refine ⟨h3, ?_, h3⟩
      show display (keyErr rt ls _) = _
      rw [h3]
      obtain ⟨n, hn⟩ := turns_key_pos rt ls
      rw [hn]; rfl
    | json =>
      cases rt with
      | false =>
        rw [turns_key_json_false, turns_json_false]
        exact ⟨h1, h2, h3⟩
      | true =>
        rw [turns_key_json_true, turns_json_true]
        refine ⟨?_, ?_, ?_⟩
        · show seErrPyErr (serErr true ls _) = _
          rw [h2, seErr_unknown]; rfl
        · show display (seErrPyErr (serErr true ls _)) = _
          rw [h2, seErr_unknown]; rfl
        · show seErrPyErr (serErr true ls _) = _
          rw [h2, seErr_unknown]; rfl

/-- What `to_json` raises for a value of unknown type. -/
theorem to_json_unknown (rt : Bool) (ls : List Layer) (r : Text) :
    toJson rt ls (.unknown r) = .serError (unknownHeadings (turns rt ls) ++ unknownText r) := by
  unfold toJson
  rw [(unknown_all rt r ls).2.1, seErr_unknown]

/-- What `to_python` raises for a value of unknown type: one heading less. -/
theorem to_python_unknown (rt : Bool) (ls : List Layer) (r : Text) :
    toPython rt ls (.unknown r) = .serError (unknownHeadings (turns rt ls - 1) ++ unknownText r) :=
  (unknown_all rt r ls).1

/-- The claim holds for values of unknown type that are neither in keys nor in `json` schemas that write text. -/
theorem same_unknown_partial (rt : Bool) (ls : List Layer) (r : Text) (h : turns rt ls = 0) :
    SameRaised rt ls (.unknown r) := by
  unfold SameRaised
  rw [to_json_unknown, to_python_unknown, h]

theorem mismatch_all (rt : Bool) (t : Text) (v : Shown) (ls : List Layer) :
    ((∃ m t' v', pyErr rt ls (.mismatch t v) = .unexpected m t' v') ↔ turns rt ls ≤ 1) ∧
    (turns rt ls = 0 → serErr rt ls (.mismatch t v) = unexpectedMarker ∧
      pyErr rt ls (.mismatch t v) = .unexpected none (some t) (some v)) ∧
    (turns rt ls ≠ 0 → ∃ r, serErr rt ls (.mismatch t v) = 'P' :: r) ∧
    ((∃ m t' v', keyErr rt ls (.mismatch t v) = .unexpected m t' v') ↔ turns rt (.key :: ls) ≤ 1) ∧
    (∀ q s, keyErr rt ls (.mismatch t v) ≠ .other q s) := by
  induction ls with
  | nil =>
    cases rt <;>
      exact ⟨⟨fun _ => by decide, fun _ => ⟨_, _, _, rfl⟩⟩, fun _ => ⟨rfl, rfl⟩, fun h => (h rfl).elim,
        ⟨fun _ => by decide, fun _ => ⟨_, _, _, rfl⟩⟩, nofun⟩
  | cons l ls ih =>
    obtain ⟨h1, h2, h3, h4, h5⟩ := ih
    cases l with
    | wrap => rw [turns_key_wrap, turns_wrap]; exact ⟨h1, h2, h3, h4, h5⟩
    | key =>
      rw [turns_key_key]
      obtain ⟨n, hn⟩ := turns_key_pos rt ls
      refine ⟨h4, fun h => by omega, fun _ => ?_, h4, h5⟩
      show ∃ r, display (keyErr rt ls _) = _
      cases hk : keyErr rt ls (.mismatch t v) with
      | serError m => exact ⟨_, rfl⟩
      | unexpected m t' v' => exact ⟨_, rfl⟩
      | other q s => exact (h5 q s hk).elim
    | json =>
      cases rt with
      | false =>
        rw [turns_key_json_false, turns_json_false]
        exact ⟨h1, h2, h3, h4, h5⟩
      | true =>
        rw [turns_key_json_true, turns_json_true]
        have key : ((∃ m t' v', seErrPyErr (serErr true ls (.mismatch t v)) = .unexpected m t' v') ↔
              turns true ls + 1 ≤ 1) ∧
            (∃ r, display (seErrPyErr (serErr true ls (.mismatch t v))) = 'P' :: r) ∧
            (∀ q s, seErrPyErr (serErr true ls (.mismatch t v)) ≠ .other q s) := by
          by_cases h0 : turns true ls = 0
          · rw [(h2 h0).1, h0]
            exact ⟨⟨fun _ => by decide, fun _ => ⟨_, _, _, rfl⟩⟩, ⟨_, rfl⟩, nofun⟩
          · obtain ⟨r, hr⟩ := h3 h0
            rw [hr, seErr_P]
            exact ⟨⟨nofun, fun h => by omega⟩, ⟨_, rfl⟩, nofun⟩
        exact ⟨key.1, fun h => by omega, fun _ => key.2.1, key.1, key.2.2⟩

/-- A value that is not of the type tried is told from other failures by its class: in `to_json` only if it is neither in
a key nor in a `json` schema that writes text, and then without the type and the value. -/
theorem to_json_mismatch (rt : Bool) (ls : List Layer) (t : Text) (v : Shown) :
    (turns rt ls = 0 → toJson rt ls (.mismatch t v) = .unexpected none none none) ∧
    (turns rt ls ≠ 0 → ∃ m, toJson rt ls (.mismatch t v) = .serError m) := by
  obtain ⟨_, h2, h3, _, _⟩ := mismatch_all rt t v ls
  constructor
  · intro h
    unfold toJson
    rw [(h2 h).1]; rfl
  · intro h
    obtain ⟨r, hr⟩ := h3 h
    unfold toJson
    rw [hr, seErr_P]
    exact ⟨_, rfl⟩

/-- In `to_python` it is so told with one of them on the way, too, and with none the type and the value are kept. -/
theorem to_python_mismatch (rt : Bool) (ls : List Layer) (t : Text) (v : Shown) :
    ((∃ m t' v', toPython rt ls (.mismatch t v) = .unexpected m t' v') ↔ turns rt ls ≤ 1) ∧
    (turns rt ls = 0 → toPython rt ls (.mismatch t v) = .unexpected none (some t) (some v)) :=
  ⟨(mismatch_all rt t v ls).1, fun h => ((mismatch_all rt t v ls).2.1 h).2⟩

theorem pick_text (a b : Text) (h : a.isEmpty = false) : (if a.isEmpty = true then b else a) = a := by
  rw [h]; rfl

theorem assoc3 (m a t b : Text) : m ++ a ++ t ++ b = m ++ (a ++ t ++ b) := by
  simp only [List.append_assoc]

theorem assoc5 (m a r b t e : Text) : m ++ a ++ r ++ b ++ t ++ e = m ++ (a ++ r ++ b ++ t ++ e) := by
  simp only [List.append_assoc]

theorem cons_expected (m t : Text) : m ++ "Expected `".toList ++ t ++ "`".toList = m ++ expectedAs t :=
  assoc3 m _ t _

theorem cons_shown (m : Text) (v : Shown) :
    m ++ " [input_value=".toList ++ v.repr ++ ", input_type=".toList ++ v.typeName ++ "]".toList = m ++ shownAs v :=
  assoc5 m _ _ _ _ _

/-- The message for an unexpected value: the text given, the type expected and the value, as far as they are known. -/
theorem unexpected_says (c : Char) (m : Text) (t : Text) (v : Shown) :
    unexpectedStr none none none = "Unexpected Value".toList ∧
    unexpectedStr (some (c :: m)) none none = c :: m ∧
    unexpectedStr none (some t) none = expectedAs t ∧
    unexpectedStr (some (c :: m)) (some t) none = (c :: m) ++ ": ".toList ++ expectedAs t ∧
    unexpectedStr none none (some v) = shownAs v ∧
    unexpectedStr (some (c :: m)) none (some v) = (c :: m) ++ shownAs v ∧
    unexpectedStr none (some t) (some v) =
      expectedAs t ++ " - serialized value may not be as expected".toList ++ shownAs v ∧
    unexpectedStr (some (c :: m)) (some t) (some v) =
      (c :: m) ++ ": ".toList ++ expectedAs t ++ " - serialized value may not be as expected".toList ++ shownAs v := by
  refine ⟨rfl, rfl, rfl, ?_, rfl, ?_, ?_, ?_⟩
  · exact (pick_text ((c :: m) ++ ": ".toList ++ "Expected `".toList ++ t ++ "`".toList) "Unexpected Value".toList rfl).trans (cons_expected _ t)
  · exact (pick_text ((c :: m) ++ " [input_value=".toList ++ v.repr ++ ", input_type=".toList ++ v.typeName ++
      "]".toList) "Unexpected Value".toList rfl).trans (cons_shown _ v)
  · exact (pick_text (expectedAs t ++ " - serialized value may not be as expected".toList ++ " [input_value=".toList ++
      v.repr ++ ", input_type=".toList ++ v.typeName ++ "]".toList) "Unexpected Value".toList rfl).trans (cons_shown _ v)
  · refine (pick_text ((c :: m) ++ ": ".toList ++ "Expected `".toList ++ t ++ "`".toList ++
      " - serialized value may not be as expected".toList ++ " [input_value=".toList ++
      v.repr ++ ", input_type=".toList ++ v.typeName ++ "]".toList) "Unexpected Value".toList rfl).trans ((cons_shown _ v).trans ?_)
    rw [cons_expected]

/-- An empty text given is as none. -/
theorem unexpected_empty (t : Option Text) (v : Option Shown) : unexpectedStr (some []) t v = unexpectedStr none t v := rfl

theorem ordinary_of_head (c : Char) (q : Text) (s : Option Text) (h : c ≠ '_') : Ordinary (.other (c :: q) s) := by
  have key : ∀ p t : Text, ¬ ('_' :: p) <+: (c :: t) := by
    rintro p t ⟨r, hr⟩
    injection hr with h1 _
    exact h h1.symm
  cases s with
  | none => exact ⟨key _ _, key _ _⟩
  | some s => exact ⟨key _ _, key _ _⟩

/-- A `KeyError`, by its name and text. -/
def keyError : Exc := .other ('K' :: "eyError".toList) (some "'a'".toList)

/-- C120 fails: a `KeyError` of a property comes out of `to_python` as it is, and of `to_json` as text. -/
theorem not_same_raised :
    toPython false [.wrap] (.raised keyError) = keyError ∧
    toJson false [.wrap] (.raised keyError) =
      .serError ("Error serializing to JSON: ".toList ++ ('K' :: "eyError".toList ++ ": ".toList ++ "'a'".toList)) ∧
    ¬ SameRaised false [.wrap] (.raised keyError) :=
  ⟨to_python_same _ _ (ordinary_of_head _ _ _ (by decide)), to_json_raises _ _ _ (ordinary_of_head _ _ _ (by decide)),
    to_json_class _ _ _ _ _⟩

/-- The hypothesis on names is needed: an exception whose class is called like a marker is taken for an unexpected value,
and its name is lost. -/
theorem marker_name (s : Text) :
    toJson false [] (.raised (.other unexpectedMarker (some s))) = .unexpected (some (": ".toList ++ s)) none none := by
  show seErrPyErr (unexpectedMarker ++ ": ".toList ++ s) = _
  rw [List.append_assoc]
  unfold seErrPyErr
  rw [strip_append]
  rfl

-- the hypotheses are met
example : Ordinary keyError ∧ Ordinary (.serError "x".toList) ∧
    turns true [.wrap, .wrap] = 0 ∧ turns true [.key, .json, .key] = 2 :=
  ⟨ordinary_of_head _ _ _ (by decide), ⟨not_marker _ _, not_marker _ _⟩, rfl, rfl⟩

-- two headings for each `json` schema within another
example : toJson true [.json, .wrap, .json] (.raised keyError) =
    .serError ("Error serializing to JSON: PydanticSerializationError: ".toList ++
      ("Error serializing to JSON: PydanticSerializationError: ".toList ++ "Error serializing to JSON: ".toList) ++
      display keyError) :=
  to_json_raises _ _ _ (ordinary_of_head _ _ _ (by decide))

example : toJson true [.key] (.unknown "<class 'Foo'>".toList) =
    .serError ("Error serializing to JSON: PydanticSerializationError: ".toList ++ [] ++
      unknownText "<class 'Foo'>".toList) :=
  to_json_unknown _ _ _

end PC.SerErr
