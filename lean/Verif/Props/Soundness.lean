import Verif.Lemmas.EngineSound
import Verif.Props.Termination
import Verif.Spec.Sample

/-
C54 (first half) and C55: the output of a nested schema is of the type the schema describes, and the location of every
error leads to the value it reports.  For all schemas of the language without Python functions, all recursive
definitions and all inputs.
-/

namespace PC.Engine
open PC.Comb PC.Coll PC.Union PC.Fields PC.Lookup
variable {α : Type}

mutual
theorem Schema.All.imp {P Q : Schema α → Prop} (h : ∀ s, P s → Q s) : ∀ s : Schema α, s.All P → s.All Q
  | .leaf _, g => h _ g
  | .nullable s, g => ⟨h _ g.1, Schema.All.imp h s g.2⟩
  | .list _ _ _ _ s, g => ⟨h _ g.1, Schema.All.imp h s g.2⟩
  | .set _ _ _ _ _ s, g => ⟨h _ g.1, Schema.All.imp h s g.2⟩
  | .dict _ _ _ k v, g => ⟨h _ g.1, Schema.All.imp h k g.2.1, Schema.All.imp h v g.2.2⟩
  | .tuple _ _ _ _ ss, g => ⟨h _ g.1, Schemas.All.imp h ss g.2⟩
  | .tupleVar _ _ _ _ ss v ts, g =>
    ⟨h _ g.1, Schemas.All.imp h ss g.2.1, Schema.All.imp h v g.2.2.1, Schemas.All.imp h ts g.2.2.2⟩
  | .typedDict _ fs, g => ⟨h _ g.1, FieldSchemas.All.imp h fs g.2⟩
  | .typedDictExtras _ fs s, g => ⟨h _ g.1, FieldSchemas.All.imp h fs g.2.1, Schema.All.imp h s g.2.2⟩
  | .union _ _ ms, g => ⟨h _ g.1, Members.All.imp h ms g.2⟩
  | .tagged _ ss, g => ⟨h _ g.1, Schemas.All.imp h ss g.2⟩
  | .model _ fs, g => ⟨h _ g.1, FieldSchemas.All.imp h fs g.2⟩
  | .rootModel _ _ s, g => ⟨h _ g.1, Schema.All.imp h s g.2⟩
  | .before _ s, g => ⟨h _ g.1, Schema.All.imp h s g.2⟩
  | .after _ s, g => ⟨h _ g.1, Schema.All.imp h s g.2⟩
  | .wrap _ s, g => ⟨h _ g.1, Schema.All.imp h s g.2⟩
  | .customError _ s, g => ⟨h _ g.1, Schema.All.imp h s g.2⟩
  | .laxOrStrict _ s t, g => ⟨h _ g.1, Schema.All.imp h s g.2.1, Schema.All.imp h t g.2.2⟩
  | .ref _, g => h _ g
theorem Schemas.All.imp {P Q : Schema α → Prop} (h : ∀ s, P s → Q s) : ∀ s : Schemas α, s.All P → s.All Q
  | .nil, _ => trivial
  | .cons s rest, g => ⟨Schema.All.imp h s g.1, Schemas.All.imp h rest g.2⟩
theorem Members.All.imp {P Q : Schema α → Prop} (h : ∀ s, P s → Q s) : ∀ s : Members α, s.All P → s.All Q
  | .nil, _ => trivial
  | .cons _ _ s rest, g => ⟨Schema.All.imp h s g.1, Members.All.imp h rest g.2⟩
theorem FieldSchemas.All.imp {P Q : Schema α → Prop} (h : ∀ s, P s → Q s) : ∀ s : FieldSchemas α, s.All P → s.All Q
  | .nil, _ => trivial
  | .cons _ _ _ _ s rest, g => ⟨Schema.All.imp h s g.1, FieldSchemas.All.imp h rest g.2⟩
end

/-- **C54, soundness.**  Whatever a schema without Python functions accepts, the output is of the type the schema
describes: at every depth, through every recursive definition, for every input, strict or lax. -/
theorem accepted_output_conforms_partial (E : Env α) (hW : E.world.Lawful) (s : Schema α)
    (hs : s.All fun x => built x ∧ functionFree x ∧ extrasByName x)
    (hdefs : ∀ name, (E.defs name).All fun x => built x ∧ functionFree x ∧ extrasByName x)
    (a : α) (st : VState α) (hoff : st.allowPartial = .off) (N : Nat) (st' : VState α) (y : α)
    (h : EndsWith E N s a st (.ok y, st')) : Conforms st.extra.strict E.world E.defs s y :=
  (endsWith_out E False hW (fun name => Schema.All.imp (fun _ g => ⟨g.1, g.2.1, g.2.2, False.elim⟩) _ (hdefs name)) s
    (Schema.All.imp (fun _ g => ⟨g.1, g.2.1, g.2.2, False.elim⟩) s hs) a st ⟨rfl, hoff⟩ N _ h).2

/-- The same for Python inputs, with the existence of the result: validation ends, and what is accepted conforms. -/
theorem python_validation_sound_partial (E : Env α) (hp : E.platform.Valid) (hid : ∀ a, E.world.identity a ≠ none)
    (hW : E.world.Lawful) (s : Schema α)
    (hs : s.All fun x => built x ∧ functionFree x ∧ extrasByName x)
    (hdefs : ∀ name, (E.defs name).All fun x => built x ∧ functionFree x ∧ extrasByName x)
    (a : α) (st : VState α) (hg : st.guard = Guard.State.init) (hoff : st.allowPartial = .off) :
    ∃ r, EndsWith E (E.platform.limit + 1) s a st r ∧
      (∀ y, r.1 = .ok y → Conforms st.extra.strict E.world E.defs s y) ∧
      (∀ es, r.1 = .error (.lineErrors es) → es ≠ []) ∧ r.1 ≠ .error .omitted ∧ r.1 ≠ .error .useDefault := by
  obtain ⟨⟨r, st'⟩, hr⟩ := python_validation_ends E hp hid s a st hg
  have := (endsWith_out E False hW (fun name => Schema.All.imp (fun _ g => ⟨g.1, g.2.1, g.2.2, False.elim⟩) _ (hdefs name))
    s (Schema.All.imp (fun _ g => ⟨g.1, g.2.1, g.2.2, False.elim⟩) s hs) a st ⟨rfl, hoff⟩ _ _ hr).2
  refine ⟨_, hr, ?_, ?_, ?_, ?_⟩
  · rintro y rfl; exact this
  · rintro es rfl; exact this.1
  · rintro rfl; exact this
  · rintro rfl; exact this

/-- **C55.**  Every error of a schema without Python functions (and without tuple items after variadic ones, whose
positions are off by one) has a location that leads from the root of the input to the value the error reports, or to
the container in which something is missing. -/
theorem error_location_leads_to_input_partial (E : Env α) (hW : E.world.Lawful) (s : Schema α)
    (hs : s.All fun x => built x ∧ functionFree x ∧ extrasByName x ∧ variadicLast x)
    (hdefs : ∀ name, (E.defs name).All fun x => built x ∧ functionFree x ∧ extrasByName x ∧ variadicLast x)
    (a : α) (st : VState α) (hoff : st.allowPartial = .off) (N : Nat) (st' : VState α) (es : List (LineError α))
    (h : EndsWith E N s a st (.error (.lineErrors es), st')) :
    es ≠ [] ∧ ∀ e ∈ es, Leads E.world E.defs s a e.loc.toPy e.input := by
  have := (endsWith_out E True hW (fun name => Schema.All.imp (fun _ g => ⟨g.1, g.2.1, g.2.2.1, fun _ => g.2.2.2⟩) _ (hdefs name))
    s (Schema.All.imp (fun _ g => ⟨g.1, g.2.1, g.2.2.1, fun _ => g.2.2.2⟩) s hs) a st ⟨rfl, hoff⟩ N _ h).2
  exact ⟨this.1, fun e he => this.2 e he trivial⟩

/-! ### Concrete cases -/

section
open Sample

/-- A tree: `{'v': int, 'kids': list of trees}`, extra items allowed if they are strings or null. -/
def treeSchema : Schema PV :=
  .typedDictExtras ⟨.allow, false, true, none, none⟩
    (.cons "v" (byName "v") true none (.union false none (.cons "int" none (.leaf intLeaf) (.cons "str" none (.leaf strLeaf) .nil)))
      (.cons "kids" (byName "kids") true (some (.list [])) (.list false none (some 3) false (.ref 0)) .nil))
    (.nullable (.leaf strLeaf))

theorem byName_select {n : String} {ba bn : Bool} {key : LookupKey} (h : (byName n).select ba bn = .ok key) :
    key = .simple (.ofStr n) := by
  cases ba <;> cases bn <;> simp [KeyCollection.select, byName] at h <;> exact h.symm

theorem tree_fields {n k r d s} (h : (FieldSchemas.cons "v" (byName "v") true none
      (.union false none (.cons "int" none (.leaf intLeaf) (.cons "str" none (.leaf strLeaf) .nil)))
      (.cons "kids" (byName "kids") true (some (.list [])) (.list false none (some 3) false (.ref 0)) .nil)).Has n k r d s) :
    k = byName n := by
  rcases h with ⟨rfl, rfl, _⟩ | ⟨rfl, rfl, _⟩ | h
  · rfl
  · rfl
  · exact h.elim

theorem treeSchema_ok : treeSchema.All fun x => built x ∧ functionFree x ∧ extrasByName x ∧ variadicLast x := by
  refine ⟨⟨⟨by simp [FieldSchemas.names], fun n k r d s h ba bn key hk => ?_⟩, trivial, fun _ n k r d s h ba bn key hk => ?_, trivial⟩,
    ⟨⟨⟨fun h => (by cases h), trivial, trivial, trivial⟩, ⟨trivial, trivial, trivial, trivial⟩,
        ⟨trivial, trivial, trivial, trivial⟩, trivial⟩,
      ⟨⟨trivial, trivial, trivial, trivial⟩, ⟨trivial, trivial, trivial, trivial⟩⟩, trivial⟩,
    ⟨trivial, trivial, trivial, trivial⟩, ⟨trivial, trivial, trivial, trivial⟩⟩
  · rw [tree_fields h] at hk
    rw [byName_select hk]
    exact List.cons_ne_nil _ _
  · rw [tree_fields h] at hk
    exact byName_select hk

/-- Three levels, a float for an int, an extra item. -/
def goodTree : PV :=
  .dict [(.str "kids", .tuple [.dict [(.str "v", .str "x")], .dict [(.str "v", .float 2), (.str "note", .str "n")]]),
    (.str "v", .int 1)]

/-- Errors at the inner node: `v` missing, `kids` not a list, an extra item that is not a string. -/
def badTree : PV :=
  .dict [(.str "v", .list []), (.str "kids", .list [.dict [(.str "kids", .int 7), (.str "note", .int 5)]])]


theorem goodTree_ends : ∃ st, EndsWith (env fun _ => treeSchema) 2 (.ref 0) goodTree fresh
    (.ok (.dict [(.str "v", .int 1), (.str "kids", .list [
      .dict [(.str "v", .str "x"), (.str "kids", .list [])],
      .dict [(.str "v", .int 2), (.str "kids", .list []), (.str "note", .str "n")]])]), st) := by
  refine ⟨(run (env fun _ => treeSchema) 2 (.ref 0) goodTree fresh).2, fun n f p hn => ?_⟩
  obtain ⟨m, rfl⟩ : ∃ m, n = m + 2 := ⟨n - 2, by omega⟩
  exact Prod.ext (by cbv) (by cbv)

theorem badTree_ends : ∃ st, EndsWith (env fun _ => treeSchema) 2 (.ref 0) badTree fresh
    (.error (.lineErrors [
      ⟨.other "int_type", .list [.s "int", .s "v"], .list []⟩,
      ⟨.other "string_type", .list [.s "str", .s "v"], .list []⟩,
      ⟨.missing, .list [.s "v", .i 0, .s "kids"], .dict [(.str "kids", .int 7), (.str "note", .int 5)]⟩,
      ⟨.other "list_type", .list [.s "kids", .i 0, .s "kids"], .int 7⟩,
      ⟨.other "string_type", .list [.s "note", .i 0, .s "kids"], .int 5⟩]), st) := by
  refine ⟨(run (env fun _ => treeSchema) 2 (.ref 0) badTree fresh).2, fun n f p hn => ?_⟩
  obtain ⟨m, rfl⟩ : ∃ m, n = m + 2 := ⟨n - 2, by omega⟩
  exact Prod.ext (by cbv) (by cbv)

-- The hypotheses of the theorems are met: the output conforms, the errors are where the values are.
example : Conforms none world (fun _ => treeSchema) (.ref 0) (.dict [(.str "v", .int 1), (.str "kids", .list [
    .dict [(.str "v", .str "x"), (.str "kids", .list [])],
    .dict [(.str "v", .int 2), (.str "kids", .list []), (.str "note", .str "n")]])]) := by
  obtain ⟨st, h⟩ := goodTree_ends
  have weaker : treeSchema.All fun x => built x ∧ functionFree x ∧ extrasByName x :=
    Schema.All.imp (fun _ g => ⟨g.1, g.2.1, g.2.2.1⟩) _ treeSchema_ok
  exact accepted_output_conforms_partial (env fun _ => treeSchema) world_lawful (.ref 0) ⟨trivial, trivial, trivial⟩
    (fun _ => weaker) _ _ rfl _ _ _ h
example : Leads world (fun _ => treeSchema) (.ref 0) badTree [.s "kids", .i 0, .s "note"] (.int 5) := by
  obtain ⟨st, h⟩ := badTree_ends
  refine (error_location_leads_to_input_partial (env fun _ => treeSchema) world_lawful (.ref 0)
    ⟨trivial, trivial, trivial, trivial⟩ (fun _ => treeSchema_ok) _ _ rfl _ _ _ h).2
    ⟨.other "string_type", .list [.s "note", .i 0, .s "kids"], .int 5⟩ ?_
  exact .tail _ (.tail _ (.tail _ (.tail _ (.head _))))

/-- The fields of a cat: lives 9 by default, pets of any kind. -/
def catFields : FieldSchemas PV :=
  .cons "kind" (byName "kind") true none (.leaf (litLeaf "cat"))
    (.cons "lives" (byName "lives") false (some (.int 9)) (.leaf intLeaf)
      (.cons "pets" (byName "pets") false (some (.list [])) (.list false none (some 3) false (.ref 0)) .nil))

/-- The fields of a dog: its name is a root model of a string. -/
def dogFields : FieldSchemas PV :=
  .cons "kind" (byName "kind") true none (.leaf (litLeaf "dog"))
    (.cons "name" (byName "name") true none (.rootModel 3 .always (.leaf strLeaf)) .nil)

/-- Cats (class 1, extra items allowed) and dogs (class 2, extra items forbidden), told apart by `kind`. -/
def petSchema : Schema PV :=
  .tagged { key := .simple (.ofStr "kind"), fromAttributes := true,
            index := fun | .str s => if s = "cat" then some (.s "cat", 0) else if s = "dog" then some (.s "dog", 1) else none
                         | _ => none,
            tagString := fun | .str s => s | _ => "?",
            customError := none, tagsRepr := "'cat', 'dog'", discriminatorRepr := "'kind'" }
    (.cons (.model ⟨⟨.allow, false, true, none, none⟩, 1, .always, false⟩ catFields)
      (.cons (.model ⟨⟨.forbid, false, true, none, none⟩, 2, .always, false⟩ dogFields) .nil))

theorem cat_fields {n k r d s} (h : catFields.Has n k r d s) : k = byName n := by
  rcases h with ⟨rfl, rfl, _⟩ | ⟨rfl, rfl, _⟩ | ⟨rfl, rfl, _⟩ | h
  · rfl
  · rfl
  · rfl
  · exact h.elim

theorem dog_fields {n k r d s} (h : dogFields.Has n k r d s) : k = byName n := by
  rcases h with ⟨rfl, rfl, _⟩ | ⟨rfl, rfl, _⟩ | h
  · rfl
  · rfl
  · exact h.elim

theorem petSchema_ok : petSchema.All fun x => built x ∧ functionFree x ∧ extrasByName x ∧ variadicLast x := by
  refine ⟨⟨trivial, trivial, trivial, trivial⟩,
    ⟨⟨⟨by simp [FieldSchemas.names, catFields], fun n k r d s h ba bn key hk => ?_⟩, trivial, trivial, trivial⟩,
      ⟨trivial, trivial, trivial, trivial⟩, ⟨trivial, trivial, trivial, trivial⟩,
      ⟨⟨trivial, trivial, trivial, trivial⟩, ⟨trivial, trivial, trivial, trivial⟩⟩, trivial⟩,
    ⟨⟨⟨by simp [FieldSchemas.names, dogFields], fun n k r d s h ba bn key hk => ?_⟩, trivial, trivial, trivial⟩,
      ⟨trivial, trivial, trivial, trivial⟩,
      ⟨⟨trivial, trivial, trivial, trivial⟩, ⟨trivial, trivial, trivial, trivial⟩⟩, trivial⟩, trivial⟩
  · rw [cat_fields h] at hk
    rw [byName_select hk]
    exact List.cons_ne_nil _ _
  · rw [dog_fields h] at hk
    rw [byName_select hk]
    exact List.cons_ne_nil _ _

/-- A cat with two pets: a dog given as a dict and a cat given as an instance, with an extra item each. -/
def goodPet : PV :=
  .dict [(.str "kind", .str "cat"), (.str "colour", .str "grey"),
    (.str "pets", .list [.dict [(.str "name", .str "Rex"), (.str "kind", .str "dog")],
      .instX 1 [("kind", .str "cat"), ("lives", .float 3), ("pets", .list [])] [("age", .int 2)] ["lives"]])]

/-- What it becomes. -/
def goodPetOut : PV :=
  .instX 1 [("kind", .str "cat"), ("lives", .int 9), ("pets", .list [
      .inst 2 [("kind", .str "dog"), ("name", .inst 3 [("root", .str "Rex")] ["root"])] ["kind", "name"],
      .instX 1 [("kind", .str "cat"), ("lives", .int 3), ("pets", .list [])] [("age", .int 2)] ["lives"]])]
    [("colour", .str "grey")] ["kind", "pets", "colour"]

/-- A dog without name and with an extra item, a cow, and a cat whose lives are a string, inside a cat. -/
def badPet : PV :=
  .dict [(.str "kind", .str "cat"), (.str "pets", .list [.dict [(.str "kind", .str "dog"), (.str "age", .int 4)],
    .dict [(.str "kind", .str "cow")], .inst 1 [("kind", .str "cat"), ("lives", .str "x"), ("pets", .list [])] []])]

theorem goodPet_ends : ∃ st, EndsWith (env fun _ => petSchema) 2 (.ref 0) goodPet fresh (.ok goodPetOut, st) := by
  refine ⟨(run (env fun _ => petSchema) 2 (.ref 0) goodPet fresh).2, fun n f p hn => ?_⟩
  obtain ⟨m, rfl⟩ : ∃ m, n = m + 2 := ⟨n - 2, by omega⟩
  exact Prod.ext (by cbv) (by cbv)

theorem badPet_ends : ∃ st, EndsWith (env fun _ => petSchema) 2 (.ref 0) badPet fresh
    (.error (.lineErrors [
      ⟨.missing, .list [.s "name", .s "dog", .i 0, .s "pets", .s "cat"], .dict [(.str "kind", .str "dog"), (.str "age", .int 4)]⟩,
      ⟨.extraForbidden, .list [.s "age", .s "dog", .i 0, .s "pets", .s "cat"], .int 4⟩,
      ⟨.unionTagInvalid "'kind'" "cow" "'cat', 'dog'", .list [.i 1, .s "pets", .s "cat"], .dict [(.str "kind", .str "cow")]⟩,
      ⟨.other "int_type", .list [.s "lives", .s "cat", .i 2, .s "pets", .s "cat"], .str "x"⟩]), st) := by
  refine ⟨(run (env fun _ => petSchema) 2 (.ref 0) badPet fresh).2, fun n f p hn => ?_⟩
  obtain ⟨m, rfl⟩ : ∃ m, n = m + 2 := ⟨n - 2, by omega⟩
  exact Prod.ext (by cbv) (by cbv)

-- The same for models, root models and tagged unions.
example : Conforms none world (fun _ => petSchema) (.ref 0) goodPetOut := by
  obtain ⟨st, h⟩ := goodPet_ends
  have weaker : petSchema.All fun x => built x ∧ functionFree x ∧ extrasByName x :=
    Schema.All.imp (fun _ g => ⟨g.1, g.2.1, g.2.2.1⟩) _ petSchema_ok
  exact accepted_output_conforms_partial (env fun _ => petSchema) world_lawful (.ref 0) ⟨trivial, trivial, trivial⟩
    (fun _ => weaker) _ _ rfl _ _ _ h
example : Leads world (fun _ => petSchema) (.ref 0) badPet [.s "cat", .s "pets", .i 2, .s "cat", .s "lives"] (.str "x") := by
  obtain ⟨st, h⟩ := badPet_ends
  refine (error_location_leads_to_input_partial (env fun _ => petSchema) world_lawful (.ref 0)
    ⟨trivial, trivial, trivial, trivial⟩ (fun _ => petSchema_ok) _ _ rfl _ _ _ h).2
    ⟨.other "int_type", .list [.s "lives", .s "cat", .i 2, .s "pets", .s "cat"], .str "x"⟩ ?_
  exact .tail _ (.tail _ (.tail _ (.head _)))

/-! ### Where the code does not keep to the property -/

/-- A field `a: int` looked up as `b`, extra items allowed. -/
def aliasSchema : Schema PV :=
  .typedDict ⟨.allow, false, true, none, none⟩
    (.cons "a" ⟨.simple (.ofStr "a"), some (.simple (.ofStr "b")), none⟩ true none (.leaf intLeaf) .nil)

/-- Finding 22, seen from the schema: with `a: int` looked up under its alias `b` and extra items allowed,
`{'b': 1, 'a': 'x'}` is accepted with the output `{'a': 'x'}`, which is not of the type described. -/
theorem extra_item_replaces_field :
    (∃ st, EndsWith (env fun _ => aliasSchema) 0 aliasSchema (.dict [(.str "b", .int 1), (.str "a", .str "x")]) fresh
      (.ok (.dict [(.str "a", .str "x")]), st)) ∧
    ¬ Conforms none world (fun _ => aliasSchema) aliasSchema (.dict [(.str "a", .str "x")]) := by
  refine ⟨⟨(run (env fun _ => aliasSchema) 0 aliasSchema (.dict [(.str "b", .int 1), (.str "a", .str "x")]) fresh).2,
    fun n f p _ => Prod.ext (by cbv) (by cbv)⟩, fun h => ?_⟩
  generalize hy : PV.dict [(.str "a", .str "x")] = y at h
  unfold aliasSchema at h
  cases h with
  | @typedDict _ _ ds xs h1 h2 h3 h4 =>
    have hd : ds ++ xs = [("a", .str "x")] := by
      simp only [world] at hy
      injection hy with hy
      match h : ds ++ xs, hy with
      | [(n, v)], hy =>
        simp only [List.map_cons, List.map_nil] at hy
        injection hy with hy _
        injection hy with h5 h6
        injection h5 with h5
        rw [h5, h6]
    have hds : ds = [("a", .str "x")] := by
      match ds, h3 "a" _ _ _ _ (.inl ⟨rfl, rfl, rfl, rfl, rfl⟩) (.inl rfl) with
      | x :: ds, _ =>
        injection hd with h5 h6
        rw [h5, (List.append_eq_nil_iff.mp h6).1]
    subst hds
    have := h2 "a" (.str "x") (.head _)
    cases this with
    | field h4 h5 =>
      rcases h4 with ⟨_, _, _, _, rfl⟩ | h4
      · cases h5 with
        | @leaf _ x _ ex h6 => cases x <;> simp [intLeaf] at h6
      · exact h4
    | default h4 => rcases h4 with ⟨_, _, _, h, _⟩ | h4; cases h; exact h4

/-- A tuple of any number of strings and then one int. -/
def tailSchema : Schema PV := .tupleVar false none none false .nil (.leaf strLeaf) (.cons (.leaf intLeaf) .nil)

/-- Finding 6, seen from the schema: the error of the int at the end is reported one position too early. -/
theorem tuple_tail_location_off_by_one :
    (∃ st, EndsWith (env fun _ => tailSchema) 0 tailSchema (.list [.str "x", .str "y"]) fresh
      (.error (.lineErrors [⟨.other "int_type", .list [.i 0], .str "y"⟩]), st)) ∧
    ¬ Leads world (fun _ => tailSchema) tailSchema (.list [.str "x", .str "y"]) [.i 0] (.str "y") := by
  refine ⟨⟨(run (env fun _ => tailSchema) 0 tailSchema (.list [.str "x", .str "y"]) fresh).2,
    fun n f p _ => Prod.ext (by cbv) (by cbv)⟩, fun h => ?_⟩
  unfold tailSchema at h
  cases h with
  | tupleHead h1 h2 h3 h4 => exact h3
  | tupleVariadic h1 h2 h3 =>
    cases h3
    rename_i b seq ex
    have h4 : seq.items[0]? = some (.ok (.str "x")) := by
      cases b <;> simp only [world, Bool.false_eq_true, if_false, if_true] at h1 <;> cases h1 <;> rfl
    rw [h4] at h2
    injection h2 with h2
    injection h2 with h2
    injection h2 with h2
    exact absurd h2 (by decide)

/-- A function before a list schema that makes a list of two items of whatever it is given. -/
def twoItems : PyFunc PV := fun _ _ => .ok (.list [.int 1, .str "x"])

/-- With a function before the schema, a location leads into what the function has made, here to the second item of a list,
although the input is a number. -/
theorem before_function_location (n : Nat) (f : Nat → Validator PV PV) (p : ValResult PV PV) :
    let s : Schema PV := .before twoItems (.list false none none false (.leaf intLeaf))
    ∃ t, (run { env (fun _ => s) with outOfFuel := f, panic := p } n s (.int 7) fresh).1 =
      .error (.lineErrors [⟨t, .list [.i 1], .str "x"⟩]) :=
  ⟨_, by cbv⟩

/-- A function after the schema that raises a `ValidationError` of another validation. -/
def foreign : PyFunc PV := fun _ _ => .error (.validationError [⟨.missing, .list [.s "zip", .s "address"], .str "x"⟩])

/-- A `ValidationError` raised by a function brings its own locations, which need not lead anywhere in the input. -/
theorem after_function_location (n : Nat) (f : Nat → Validator PV PV) (p : ValResult PV PV) :
    let s : Schema PV := .after foreign (.leaf intLeaf)
    (run { env (fun _ => s) with outOfFuel := f, panic := p } n s (.int 7) fresh).1 =
      .error (.lineErrors [⟨.missing, .list [.s "zip", .s "address"], .str "x"⟩]) := by cbv

end

end PC.Engine
