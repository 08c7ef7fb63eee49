import Verif.Spec.BuildErr

/-
C113: errors of schemas.
-/

namespace PC.BuildErr

theorem ready_iff (t : String) (prebuilt : Bool) :
    ((t = "model" || t = "dataclass") && prebuilt) = true ↔ Ready t prebuilt := by
  unfold Ready
  simp

mutual
theorem ok_sound (known : List String) : ∀ s : Sch, build known s = .ok () → Sound known s
  | .notDict e, h => by simp [build] at h
  | .dict .missing _ _, h => by simp [build] at h
  | .dict (.wrong e) _ _, h => by simp [build] at h
  | .dict (.is t) prebuilt steps, h => by
    unfold build at h
    split at h
    · rename_i hr; exact .ready ((ready_iff ..).1 hr)
    · split at h
      · rename_i hk
        refine .built (by simpa using hk) ?_
        unfold specific at h
        split at h
        · rename_i hs; exact ok_allSound known steps hs
        · cases h
      · split at h <;> cases h
theorem ok_allSound (known : List String) : ∀ l : List Step, buildSteps known l = .ok () → AllSound known l
  | [], _ => .nil
  | .own none :: rest, h => by
    unfold buildSteps at h
    exact .own (ok_allSound known rest h)
  | .own (some e) :: rest, h => by simp [buildSteps] at h
  | .child l s :: rest, h => by
    unfold buildSteps at h
    split at h
    · rename_i hs; exact .child (ok_sound known s hs) (ok_allSound known rest h)
    · cases h
end

mutual
theorem sound_ok (known : List String) : ∀ s : Sch, Sound known s → build known s = .ok ()
  | .notDict e, h => by cases h
  | .dict .missing _ _, h => by cases h
  | .dict (.wrong e) _ _, h => by cases h
  | .dict (.is t) prebuilt steps, h => by
    unfold build
    cases h with
    | ready hr => rw [if_pos ((ready_iff ..).2 hr)]
    | built hk ha =>
      split
      · rfl
      · rw [if_pos (by simpa using hk), allSound_ok known steps ha]; rfl
theorem allSound_ok (known : List String) : ∀ l : List Step, AllSound known l → buildSteps known l = .ok ()
  | [], _ => rfl
  | .own none :: rest, h => by
    cases h with
    | own h => unfold buildSteps; exact allSound_ok known rest h
  | .own (some e) :: rest, h => by cases h
  | .child l s :: rest, h => by
    cases h with
    | child hs h =>
      unfold buildSteps
      rw [sound_ok known s hs]
      exact allSound_ok known rest h
end

/-- **C113**: a schema is built exactly if there is nothing wrong in it. -/
theorem built_iff_sound (known : List String) (s : Sch) : build known s = .ok () ↔ Sound known s :=
  ⟨ok_sound known s, sound_ok known s⟩

theorem steps_after_sound (known : List String) (before rest : List Step) (h : AllSound known before) :
    buildSteps known (before ++ rest) = buildSteps known rest := by
  induction before with
  | nil => rfl
  | cons x xs ih =>
    cases h with
    | own h => rw [List.cons_append, buildSteps]; exact ih h
    | child hs h => rw [List.cons_append, buildSteps, sound_ok known _ hs]; exact ih h

theorem report_append (fs gs : List Frame) (e : Exc) : report (fs ++ gs) e = report fs (report gs e) := by
  induction fs with
  | nil => rfl
  | cons f fs ih => simp only [List.cons_append, report, ih]

theorem relabel_eq (l : Option String) (e : Exc) : relabel l e = report (l.map Frame.named).toList e := by
  cases l <;> rfl

theorem specific_error (t : String) (e : Exc) : specific t (.error e) = .error (report [.schema t] e) := by
  unfold specific schemaError report Frame.text
  simp only [report, String.append_assoc]
  rfl

theorem first_wrong_build (known : List String) {s : Sch} {fs : List Frame} {e : Exc} (h : FirstWrong known s fs e) : build known s = .error (report fs e) := by
  induction h with
  | here hw =>
    cases hw with
    | notDict => rfl
    | missing => rfl
    | notText => rfl
    | invalid hk =>
      unfold build
      rw [if_neg (by simp), if_neg (by simpa using hk), if_pos rfl]
      rfl
    | unknown hk hi hr =>
      unfold build
      rw [if_neg (fun h => hr ((ready_iff ..).1 h)), if_neg (by simpa using hk), if_neg hi]
      rfl
  | own hk hr hb =>
    unfold build
    rw [if_neg (fun h => hr ((ready_iff ..).1 h)), if_pos (by simpa using hk), steps_after_sound _ _ _ hb]
    exact specific_error _ _
  | inside hk hr hb _ ih =>
    unfold build
    rw [if_neg (fun h => hr ((ready_iff ..).1 h)), if_pos (by simpa using hk), steps_after_sound _ _ _ hb]
    unfold buildSteps
    rw [ih]
    dsimp only
    rw [relabel_eq, specific_error, ← report_append, ← report_append]
    rfl

mutual
theorem error_first_wrong (known : List String) : ∀ (s : Sch) (x : Exc), build known s = .error x →
    ∃ fs e, FirstWrong known s fs e
  | .notDict e, x, _ => ⟨[], e, .here .notDict⟩
  | .dict .missing _ _, x, _ => ⟨[], _, .here .missing⟩
  | .dict (.wrong e) _ _, x, _ => ⟨[], e, .here .notText⟩
  | .dict (.is t) prebuilt steps, x, h => by
    unfold build at h
    split at h
    · cases h
    · rename_i hr
      have hr : ¬ Ready t prebuilt := fun h => hr ((ready_iff ..).2 h)
      split at h
      · rename_i hk
        have hk : t ∈ known := by simpa using hk
        cases hs : buildSteps known steps with
        | ok u => rw [hs] at h; cases h
        | error y =>
          rcases steps_first_wrong known steps y hs with ⟨b, e, a, hb, rfl⟩ | ⟨b, l, s, a, fs, e, hb, hf, rfl⟩
          · exact ⟨_, _, .own hk hr hb⟩
          · exact ⟨_, _, .inside hk hr hb hf⟩
      · rename_i hk
        have hk : t ∉ known := by simpa using hk
        by_cases hi : t = "invalid"
        · subst hi; exact ⟨_, _, .here (.invalid hk)⟩
        · exact ⟨_, _, .here (.unknown hk hi hr)⟩
theorem steps_first_wrong (known : List String) : ∀ (l : List Step) (x : Exc), buildSteps known l = .error x →
    (∃ before e after, AllSound known before ∧ l = before ++ .own (some e) :: after) ∨
    (∃ before lb s after fs e, AllSound known before ∧ FirstWrong known s fs e ∧ l = before ++ .child lb s :: after)
  | [], x, h => by cases h
  | .own none :: rest, x, h => by
    unfold buildSteps at h
    rcases steps_first_wrong known rest x h with ⟨b, e, a, hb, rfl⟩ | ⟨b, lb, s, a, fs, e, hb, hf, rfl⟩
    · exact .inl ⟨.own none :: b, e, a, .own hb, rfl⟩
    · exact .inr ⟨.own none :: b, lb, s, a, fs, e, .own hb, hf, rfl⟩
  | .own (some e) :: rest, x, _ => .inl ⟨[], e, rest, .nil, rfl⟩
  | .child lb s :: rest, x, h => by
    unfold buildSteps at h
    cases hs : build known s with
    | ok u =>
      rw [hs] at h
      have hso := ok_sound known s hs
      rcases steps_first_wrong known rest x h with ⟨b, e, a, hb, rfl⟩ | ⟨b, lb', s', a, fs, e, hb, hf, rfl⟩
      · exact .inl ⟨.child lb s :: b, e, a, .child hso hb, rfl⟩
      · exact .inr ⟨.child lb s :: b, lb', s', a, fs, e, .child hso hb, hf, rfl⟩
    | error y =>
      obtain ⟨fs, e, hf⟩ := error_first_wrong known s y hs
      exact .inr ⟨[], lb, s, rest, fs, e, .nil, hf, rfl⟩
end

/-- **C113**: the exception is the report of the first thing wrong in the schema, with the way to it. -/
theorem error_iff_first_wrong (known : List String) (s : Sch) (x : Exc) :
    build known s = .error x ↔ ∃ fs e, FirstWrong known s fs e ∧ x = report fs e := by
  constructor
  · intro h
    obtain ⟨fs, e, hf⟩ := error_first_wrong known s x h
    refine ⟨fs, e, hf, ?_⟩
    rw [first_wrong_build known hf] at h
    exact (Except.error.inj h).symm
  · rintro ⟨fs, e, hf, rfl⟩
    exact first_wrong_build known hf

/-- **C113**: the exception is a SchemaError, whatever was raised inside, unless the schema as a whole is no dict or
has no text as its type. -/
theorem schema_error_unless_no_schema (known : List String) (s : Sch) (x : Exc) (h : build known s = .error x) :
    x.cls = "SchemaError" ∨ s = .notDict x ∨
      ∃ ty prebuilt steps, s = .dict ty prebuilt steps ∧
        ((ty = .missing ∧ x = ⟨"KeyError", "'type'"⟩) ∨ ty = .wrong x) := by
  obtain ⟨fs, e, hf, rfl⟩ := (error_iff_first_wrong known s x).1 h
  cases fs with
  | cons f fs => exact .inl rfl
  | nil =>
    generalize hfs : ([] : List Frame) = gs at hf
    cases hf with
    | own => cases hfs
    | inside => cases hfs
    | here hw =>
      cases hw with
      | notDict => exact .inr (.inl rfl)
      | missing => exact .inr (.inr ⟨_, _, _, rfl, .inl ⟨rfl, rfl⟩⟩)
      | notText => exact .inr (.inr ⟨_, _, _, rfl, .inr rfl⟩)
      | invalid => exact .inl rfl
      | unknown => exact .inl rfl

/-- **C113**: the text of what was wrong ends the text of the exception, and everything before it is the way. -/
theorem report_text (fs : List Frame) (e : Exc) :
    (report fs e).show = (fs.map fun f => "SchemaError: " ++ f.text ++ ":\n  ").foldr (· ++ ·) e.show := by
  induction fs with
  | nil => rfl
  | cons f fs ih =>
    simp only [List.map_cons, List.foldr_cons, ← ih, report]
    have hc : "SchemaError: " = "SchemaError" ++ ": " := by decide
    rw [hc]
    simp only [Exc.show, String.append_assoc]

/-! ### Witnesses -/

/-- A model whose field `a` is a list of a type that does not exist. -/
def broken : Sch :=
  .dict (.is "model-fields") false
    [.own Option.none, .child (some "Field \"a\"") (.dict (.is "list") false
      [.own Option.none, .child Option.none (.dict (.is "number") false [])])]

set_option maxRecDepth 20000 in
example : build ["model-fields", "list"] broken = .error ⟨"SchemaError",
    "Error building \"model-fields\" validator:\n  SchemaError: Field \"a\":\n  SchemaError: Error building \"list\" validator:\n  SchemaError: Unknown schema type: \"number\""⟩ := by
  rfl

example : FirstWrong ["model-fields", "list"] broken [.schema "model-fields", .named "Field \"a\"", .schema "list"]
    ⟨"SchemaError", "Unknown schema type: \"" ++ "number" ++ "\""⟩ :=
  .inside (before := [.own Option.none]) (l := some "Field \"a\"") (by simp) (by simp [Ready]) (.own .nil)
    (.inside (before := [.own Option.none]) (l := Option.none) (by simp) (by simp [Ready]) (.own .nil)
      (.here (.unknown (by simp) (by simp) (by simp [Ready]))))

example : Sound ["list"] (.dict (.is "model") true [.own (some ⟨"E", ""⟩)]) := .ready ⟨.inl rfl, rfl⟩

/-- A schema of no type is a `KeyError` alone, and a `SchemaError` inside another. -/
theorem no_type_alone_and_inside (known : List String) (h : "list" ∈ known) :
    build known (.dict .missing false []) = .error ⟨"KeyError", "'type'"⟩ ∧
    build known (.dict (.is "list") false [.child Option.none (.dict .missing false [])]) =
      .error ⟨"SchemaError", "Error building \"list\" validator:\n  KeyError: 'type'"⟩ := by
  refine ⟨rfl, ?_⟩
  unfold build
  rw [if_neg (by simp), if_pos (by simpa using h)]
  rfl

end PC.BuildErr
