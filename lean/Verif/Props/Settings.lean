import Verif.Lemmas.Settings

/-
C103: where settings come from.
-/

namespace PC.Settings

/-- A model with a text field. -/
private def textModel (config : Option Dict) : Schema :=
  .node .model 0 .empty config (.cons "" (.node .modelFields 1 .empty none
    (.cons "" (.node .str 2 .empty none .nil) .nil)) .nil)

/-- **C103.** What is built has the settings of its schema's own entries and of the configuration in force, which is
that of the innermost model, dataclass or (validators only) typed dict around it, or the one given for the whole
schema if there is none. Nothing else is built. -/
theorem settings_rule (side : Side) (top : Option Dict) (s : Schema) (id : Nat) (st : Settings) :
    (id, st) ∈ build side top s ↔
      ∃ around k own, LiesIn s around k id own ∧ st = readSettings k own (inForce side top around) :=
  mem_build side top (id, st) s

example : ∃ st, (2, st) ∈ build .validator none (textModel (some (.only "str_strip_whitespace" (.bool true)))) ∧
    st.strip = .ok true :=
  ⟨_, List.mem_of_getElem? (i := 2) rfl, rfl⟩

/-- **C103.** An entry of the schema counts more than one of the configuration; what counts is the first there is,
also if it is of the wrong type, and the default only if there is none. -/
theorem first_entry_decides (own : Dict) (config : Option Dict) (sk ck : String) (default : Bool) :
    (∀ b, entry own config sk ck = some (.bool b) → switch own config sk ck default = .ok b) ∧
    (∀ v, entry own config sk ck = some v → (∀ b, v ≠ .bool b) →
      switch own config sk ck default = .error .wrongType) ∧
    (entry own config sk ck = none → switch own config sk ck default = .ok default) := by
  unfold switch
  rw [schemaOrConfig_entry]
  refine ⟨fun b h => ?_, fun v h hv => ?_, fun h => ?_⟩
  · rw [h]; rfl
  · rw [h]
    cases v with
    | bool b => exact absurd rfl (hv b)
    | none => rfl
    | int n => rfl
    | str s => rfl
  · rw [h]; rfl

example : switch (.only "strict" (.bool false)) (some (.only "strict" (.bool true))) "strict" "strict" false =
    .ok false := rfl

/-- **C103.** The same for texts' least length, which has no default. -/
theorem first_length_decides (own : Dict) (config : Option Dict) (k : Kind) :
    (∀ n : Nat, entry own config "min_length" "str_min_length" = some (.int n) →
      (readSettings k own config).minLength = .ok (some n)) ∧
    (∀ n : Int, n < 0 → entry own config "min_length" "str_min_length" = some (.int n) →
      (readSettings k own config).minLength = .error .wrongType) ∧
    (entry own config "min_length" "str_min_length" = none → (readSettings k own config).minLength = .ok none) := by
  unfold readSettings
  dsimp only
  rw [schemaOrConfig_entry]
  refine ⟨fun n h => ?_, fun n hn h => ?_, fun h => ?_⟩
  · rw [h]; simp [asSize]
  · rw [h]; simp [asSize, Int.not_le.2 hn]
  · rw [h]

example : (readSettings .str .empty (some (.only "str_min_length" (.int 3)))).minLength = .ok (some 3) := rfl

/-- **C103.** What is done with unknown fields: the first of the two entries decides, if it is a known word; other
texts are rejected, and `None` means the default. -/
theorem extra_rule (own : Dict) (config : Option Dict) (default : Extra) :
    (entry own config "extra_behavior" "extra_fields_behavior" = some (.str "allow") →
      extraOf own config default = .ok .allow) ∧
    (entry own config "extra_behavior" "extra_fields_behavior" = some (.str "forbid") →
      extraOf own config default = .ok .forbid) ∧
    (entry own config "extra_behavior" "extra_fields_behavior" = some (.str "ignore") →
      extraOf own config default = .ok .ignore) ∧
    (∀ s, entry own config "extra_behavior" "extra_fields_behavior" = some (.str s) →
      s ≠ "allow" → s ≠ "forbid" → s ≠ "ignore" → extraOf own config default = .error .badValue) ∧
    (entry own config "extra_behavior" "extra_fields_behavior" = none ∨
      entry own config "extra_behavior" "extra_fields_behavior" = some .none →
      extraOf own config default = .ok default) := by
  unfold extraOf
  rw [schemaOrConfig_entry]
  refine ⟨fun h => ?_, fun h => ?_, fun h => ?_, fun s h h1 h2 h3 => ?_, fun h => ?_⟩
  · rw [h]; rfl
  · rw [h]; rfl
  · rw [h]; rfl
  · rw [h]; simp [asOptStr, h1, h2, h3]
  · rcases h with h | h <;> rw [h] <;> rfl

example : extraOf .empty (some (.only "extra_fields_behavior" (.str "forbid"))) .ignore = .ok .forbid := rfl

/-- **C103 fails.** An entry that is `None` is not the same as no entry: it hides that of the configuration. -/
theorem none_hides_config :
    ∃ (own : Dict) (config : Dict), own "extra_behavior" = some .none ∧
      extraOf own (some config) .ignore = .ok .ignore ∧ extraOf .empty (some config) .ignore = .ok .forbid :=
  ⟨.only "extra_behavior" .none, .only "extra_fields_behavior" (.str "forbid"), rfl, rfl, rfl⟩

/-- **C103.** Models and dataclasses, and typed dicts as validators, do not depend on the configuration around
them. -/
theorem outer_config_ignored (side : Side) (kind : Kind) (id : Nat) (own : Dict) (cfg : Option Dict) (kids : Schemas)
    (top top' : Option Dict) (h : owns side kind = true) :
    build side top (.node kind id own cfg kids) = build side top' (.node kind id own cfg kids) := by
  simp only [build, configFor_eq, h, if_true]

example : owns .validator .typedDict = true ∧ owns .serializer .dataclass = true := ⟨rfl, rfl⟩

/-- **C103, in part.** A validator and a serialiser built from the same schema and configuration have the same
settings, if there are no typed dicts. Missing: typed dicts, for which it is false (`typed_dict_settings_differ`). -/
theorem same_settings_partial (s : Schema) (top : Option Dict) (h : NoTypedDict s) :
    build .validator top s = build .serializer top s := build_sides s top h

example (config : Option Dict) : NoTypedDict (textModel config) := by
  intro around k id own h
  cases h with
  | here => decide
  | kid hm h =>
    cases hm with
    | tail hm => cases hm
    | head =>
      cases h with
      | here => decide
      | kid hm h =>
        cases hm with
        | tail hm => cases hm
        | head =>
          cases h with
          | here => decide
          | kid hm => cases hm

/-- **C103 fails.** The configuration of a typed dict counts for its validator but not for its serialiser, that
around it for its serialiser but not for its validator: unknown fields may be accepted by the one and left out by the
other. -/
theorem typed_dict_settings_differ (id : Nat) (own config : Dict) (hown : own "extra_behavior" = none)
    (hc : config "extra_fields_behavior" = some (.str "allow")) (kids : Schemas) :
    (∃ st rest, build .validator none (.node .typedDict id own (some config) kids) = (id, st) :: rest ∧
      st.extra = .ok .allow) ∧
    (∃ st rest, build .serializer none (.node .typedDict id own (some config) kids) = (id, st) :: rest ∧
      st.extra = .ok .ignore) ∧
    (∃ st rest, build .validator (some config) (.node .typedDict id own none kids) = (id, st) :: rest ∧
      st.extra = .ok .ignore) ∧
    (∃ st rest, build .serializer (some config) (.node .typedDict id own none kids) = (id, st) :: rest ∧
      st.extra = .ok .allow) := by
  have e1 : entry own (some config) "extra_behavior" "extra_fields_behavior" = some (.str "allow") := by
    unfold entry; rw [hown]; exact hc
  have e2 : entry own none "extra_behavior" "extra_fields_behavior" = none := by
    unfold entry; rw [hown]; rfl
  exact ⟨⟨_, _, by rw [build], (extra_rule own (some config) .ignore).1 e1⟩,
    ⟨_, _, by rw [build], (extra_rule own none .ignore).2.2.2.2 (Or.inl e2)⟩,
    ⟨_, _, by rw [build], (extra_rule own none .ignore).2.2.2.2 (Or.inl e2)⟩,
    ⟨_, _, by rw [build], (extra_rule own (some config) .ignore).1 e1⟩⟩

example : Dict.empty "extra_behavior" = none ∧
    Dict.only "extra_fields_behavior" (.str "allow") "extra_fields_behavior" = some (.str "allow") := ⟨rfl, rfl⟩

/-- **C103, in part.** A model's serialiser and that of its fields agree whether there are unknown fields, if both
schemas or neither of them say what is done with these. Missing: schemas of which one says so
(`model_and_fields_differ`). -/
theorem model_and_fields_agree_partial (id id' : Nat) (own own' : Dict) (cfg cfg' : Option Dict) (kids : Schemas)
    (top : Option Dict) (h : own "extra_behavior" = own' "extra_behavior") :
    ∃ st st' rest,
      build .serializer top (.node .model id own cfg (.cons "" (.node .modelFields id' own' cfg' kids) .nil)) =
        (id, st) :: (id', st') :: rest ∧ st.extra = st'.extra := by
  refine ⟨_, _, _, by simp only [build, buildAll, List.cons_append, configFor]; rfl, ?_⟩
  simp only [readSettings, extraOf, Kind.extraDefault, schemaOrConfig_entry, entry, h]

example : ∃ st, build .serializer none (textModel (some (.only "extra_fields_behavior" (.str "allow")))) = st ∧
    (st[0]?.map (fun x => x.2.extra)) = some (.ok .allow) ∧ (st[1]?.map (fun x => x.2.extra)) = some (.ok .allow) :=
  ⟨_, rfl, rfl, rfl⟩

/-- **C103 fails.** If only the fields' schema says that unknown fields are kept, the fields' serialiser expects
them and the model's serialiser does not hand them over. -/
theorem model_and_fields_differ :
    ∃ (own' : Dict) (st st' : Settings),
      build .serializer none (.node .model 0 .empty none (.cons "" (.node .modelFields 1 own' none .nil) .nil)) =
        [(0, st), (1, st')] ∧ st.extra = .ok .ignore ∧ st'.extra = .ok .allow :=
  ⟨.only "extra_behavior" (.str "allow"), _, _, rfl, rfl, rfl⟩

/-- **C103 fails.** Moving a schema to the definitions and referring to it changes its settings: it is built with
the configuration around the definitions, not with that of the model that refers to it. -/
theorem definition_changes_settings :
    ∃ (text : Schema) (config : Dict) (st st' : Settings),
      (2, st) ∈ build .validator none (.node .model 0 .empty (some config) (.cons "" text .nil)) ∧
      (2, st') ∈ build .validator none (.defs (.cons "text" text .nil)
        (.node .model 0 .empty (some config) (.cons "" (.ref "text") .nil))) ∧
      st.strip = .ok true ∧ st'.strip = .ok false := by
  refine ⟨.node .str 2 .empty none .nil, .only "str_strip_whitespace" (.bool true), _, _,
    List.mem_of_getElem? (i := 1) rfl, List.mem_of_getElem? (i := 0) rfl, rfl, rfl⟩

end PC.Settings
