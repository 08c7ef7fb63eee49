import Verif.Lemmas.EngineLaxSchema
import Verif.Props.Soundness

/-
C28, containers: what a strict run accepts, a lax run accepts with the same value.  For all schemas that `strictMeansLax`
describes, all recursive definitions and all inputs, with witnesses of what goes wrong outside.
-/

namespace PC.Engine
open PC.Comb PC.Coll PC.Union PC.Fields PC.Lookup
variable {α : Type}

/-- **C28, containers.**  If validation with `strict = True` accepts an input, then so does validation with any other
strictness and otherwise the same arguments, and the value is the same.

Missing: left-to-right unions, smart unions with members other than scalars, wrap functions, functions that raise
`PydanticOmit` or `PydanticUseDefault`, lax-or-strict schemas and partial validation (unions, wrap functions
and lax-or-strict schemas fail, see below). -/
theorem strict_accepted_means_lax_accepted_partial (E : Env α) (hW : E.world.Lawful) (hL : StrictInLax E.world)
    (hdefs : ∀ name, (E.defs name).All fun x => built x ∧ strictMeansLax x)
    (s : Schema α) (hs : s.All fun x => built x ∧ strictMeansLax x)
    (a : α) (st : VState α) (hoff : st.allowPartial = .off) (N : Nat) (st' : VState α) (y : α)
    (h : EndsWith E N s a { st with extra := { st.extra with strict := some true } } (.ok y, st'))
    (lax : Option Bool) (n : Nat) (f : Nat → Validator α α) (p : ValResult α α) (hn : N ≤ n) :
    (run { E with outOfFuel := f, panic := p } n s a { st with extra := { st.extra with strict := lax } }).1 = .ok y :=
  run_sim (st1 := { st with extra := { st.extra with strict := some true } })
    (st2 := { st with extra := { st.extra with strict := lax } }) E hW hL hdefs s hs a y ⟨rfl, rfl, hoff, hoff, rfl⟩ N st' h n f p hn

/-! ### Concrete cases -/

section
open Sample

theorem world_strictInLax : StrictInLax world where
  list strict a q ex h := by
    cases a <;> simp only [world, if_true] at h ⊢ <;> cases h
    exact ⟨_, rfl⟩
  set strict a q ex h := by
    cases a <;> simp only [world, if_true] at h ⊢ <;> cases h
    exact ⟨_, rfl⟩
  tuple strict a q ex h := by
    cases a <;> simp only [world, if_true] at h ⊢ <;> cases h
    exact ⟨_, rfl⟩
  dict strict a es h := h
  view strict a v h := h
  fields strict fa a v h := h

theorem intLeaf_marked : intLeaf.LaxMarked := by
  refine ⟨fun a y ex h => ?_, fun a t y ex h1 h2 => ?_⟩
  · cases a <;> simp [intLeaf] at h
    obtain ⟨rfl, rfl⟩ := h
    exact ⟨by decide, rfl⟩
  · cases a <;> simp [intLeaf] at h1 h2
    exact h2.2.symm

theorem strLeaf_marked : strLeaf.LaxMarked := by
  refine ⟨fun a y ex h => ?_, fun a t y ex h1 h2 => ?_⟩
  · cases a <;> simp [strLeaf] at h
    obtain ⟨rfl, rfl⟩ := h
    exact ⟨by decide, rfl⟩
  · cases a <;> simp [strLeaf] at h1 h2

theorem floatLeaf_marked : floatLeaf.LaxMarked := by
  refine ⟨fun a y ex h => ?_, fun a t y ex h1 h2 => ?_⟩
  · cases a <;> simp [floatLeaf] at h <;> obtain ⟨rfl, rfl⟩ := h <;> exact ⟨by decide, rfl⟩
  · cases a <;> simp [floatLeaf] at h1 h2
    split at h2 <;> cases h2
    rfl

theorem litLeaf_extends (t : String) : (litLeaf t).LaxExtends := fun strict a y ex h => ⟨ex, by
  cases a <;> exact h⟩

/-- The tree schema: typed dicts with extra items, lists, a smart union of scalars, recursion. -/
theorem treeSchema_lax : treeSchema.All fun x => built x ∧ strictMeansLax x := by
  obtain ⟨h1, ⟨⟨h2, _⟩, _⟩, _⟩ := treeSchema_ok
  exact ⟨⟨h1.1, trivial⟩, ⟨⟨⟨h2.1, rfl, ⟨_, rfl, intLeaf_marked⟩, ⟨_, rfl, strLeaf_marked⟩, trivial⟩,
      ⟨trivial, intLeaf_marked.extends⟩, ⟨trivial, strLeaf_marked.extends⟩, trivial⟩,
      ⟨⟨trivial, trivial⟩, trivial, trivial⟩, trivial⟩, ⟨trivial, trivial⟩, trivial, strLeaf_marked.extends⟩

/-- The pets: models, root models, tagged unions, literals. -/
theorem petSchema_lax : petSchema.All fun x => built x ∧ strictMeansLax x := by
  obtain ⟨_, ⟨h1, _⟩, ⟨h2, _⟩, _⟩ := petSchema_ok
  exact ⟨⟨trivial, trivial⟩,
    ⟨⟨h1.1, trivial⟩, ⟨trivial, litLeaf_extends _⟩, ⟨trivial, intLeaf_marked.extends⟩, ⟨⟨trivial, trivial⟩, trivial, trivial⟩, trivial⟩,
    ⟨⟨h2.1, trivial⟩, ⟨trivial, litLeaf_extends _⟩, ⟨⟨trivial, trivial⟩, trivial, strLeaf_marked.extends⟩, trivial⟩, trivial⟩

/-- A strict validation. -/
def strictly : VState PV := { fresh with extra := { fresh.extra with strict := some true } }

/-- Three levels without any conversion. -/
def plainTree : PV :=
  .dict [(.str "kids", .list [.dict [(.str "v", .str "x")], .dict [(.str "v", .int 2), (.str "note", .str "n")]]),
    (.str "v", .int 1)]

theorem plainTree_ends : ∃ st, EndsWith (env fun _ => treeSchema) 2 (.ref 0) plainTree strictly
    (.ok (.dict [(.str "v", .int 1), (.str "kids", .list [
      .dict [(.str "v", .str "x"), (.str "kids", .list [])],
      .dict [(.str "v", .int 2), (.str "kids", .list []), (.str "note", .str "n")]])]), st) := by
  refine ⟨(run (env fun _ => treeSchema) 2 (.ref 0) plainTree strictly).2, fun n f p hn => ?_⟩
  obtain ⟨m, rfl⟩ : ∃ m, n = m + 2 := ⟨n - 2, by omega⟩
  exact Prod.ext (by cbv) (by cbv)

-- The hypotheses are met: the lax run of the tree gives the same value, with any fuel that suffices for the strict run.
example (n : Nat) (f : Nat → Validator PV PV) (p : ValResult PV PV) (hn : 2 ≤ n) :
    (run { env (fun _ => treeSchema) with outOfFuel := f, panic := p } n (.ref 0) plainTree fresh).1 =
    .ok (.dict [(.str "v", .int 1), (.str "kids", .list [
      .dict [(.str "v", .str "x"), (.str "kids", .list [])],
      .dict [(.str "v", .int 2), (.str "kids", .list []), (.str "note", .str "n")]])]) := by
  obtain ⟨st, h⟩ := plainTree_ends
  exact strict_accepted_means_lax_accepted_partial (env fun _ => treeSchema) world_lawful world_strictInLax
    (fun _ => treeSchema_lax) (.ref 0) ⟨trivial, trivial⟩ plainTree fresh rfl 2 st _ h none n f p hn

/-- A cat with a dog, given as a dict, and a cat that is an instance. -/
def plainPet : PV :=
  .dict [(.str "kind", .str "cat"), (.str "colour", .str "grey"),
    (.str "pets", .list [.dict [(.str "name", .str "Rex"), (.str "kind", .str "dog")],
      .instX 1 [("kind", .str "cat"), ("lives", .int 3), ("pets", .list [])] [("age", .int 2)] ["lives"]])]

theorem plainPet_ends : ∃ st, EndsWith (env fun _ => petSchema) 2 (.ref 0) plainPet strictly (.ok goodPetOut, st) := by
  refine ⟨(run (env fun _ => petSchema) 2 (.ref 0) plainPet strictly).2, fun n f p hn => ?_⟩
  obtain ⟨m, rfl⟩ : ∃ m, n = m + 2 := ⟨n - 2, by omega⟩
  exact Prod.ext (by cbv) (by cbv)

-- Models and tagged unions.
example (n : Nat) (f : Nat → Validator PV PV) (p : ValResult PV PV) (hn : 2 ≤ n) :
    (run { env (fun _ => petSchema) with outOfFuel := f, panic := p } n (.ref 0) plainPet fresh).1 = .ok goodPetOut := by
  obtain ⟨st, h⟩ := plainPet_ends
  exact strict_accepted_means_lax_accepted_partial (env fun _ => petSchema) world_lawful world_strictInLax
    (fun _ => petSchema_lax) (.ref 0) ⟨trivial, trivial⟩ plainPet fresh rfl 2 st _ h none n f p hn

/-! ### Where lax mode gives another value -/

/-- A left-to-right union of `int` and `float`: `2.0` stays `2.0` in strict mode and becomes `2` in lax mode. -/
theorem left_to_right_strict_not_lax (n : Nat) (f : Nat → Validator PV PV) (p : ValResult PV PV) :
    let s : Schema PV := .union true none (.cons "int" none (.leaf intLeaf) (.cons "float" none (.leaf floatLeaf) .nil))
    (run { env (fun _ => s) with outOfFuel := f, panic := p } n s (.float 2) strictly).1 = .ok (.float 2) ∧
    (run { env (fun _ => s) with outOfFuel := f, panic := p } n s (.float 2) fresh).1 = .ok (.int 2) :=
  ⟨by cbv, by cbv⟩

/-- `A {a: int, z: int = 0}` or `B {a: float}`, smart mode. -/
def intOrFloatDict : Schema PV :=
  .union false none
    (.cons "A" none (.typedDict ⟨.ignore, false, true, none, none⟩
      (.cons "a" (byName "a") true none (.leaf intLeaf) (.cons "z" (byName "z") false (some (.int 0)) (.leaf intLeaf) .nil)))
    (.cons "B" none (.typedDict ⟨.ignore, false, true, none, none⟩
      (.cons "a" (byName "a") true none (.leaf floatLeaf) .nil))
    .nil))

/-- A smart union of typed dicts: the member with most fields set wins, before exactness is compared.
`{'a': 2.0, 'z': 1}` is a `B` in strict mode and an `A` in lax mode. -/
theorem smart_union_of_dicts_strict_not_lax (n : Nat) (f : Nat → Validator PV PV) (p : ValResult PV PV) :
    (run { env (fun _ => intOrFloatDict) with outOfFuel := f, panic := p } n intOrFloatDict
        (.dict [(.str "a", .float 2), (.str "z", .int 1)]) strictly).1 = .ok (.dict [(.str "a", .float 2)]) ∧
    (run { env (fun _ => intOrFloatDict) with outOfFuel := f, panic := p } n intOrFloatDict
        (.dict [(.str "a", .float 2), (.str "z", .int 1)]) fresh).1 = .ok (.dict [(.str "a", .int 2), (.str "z", .int 1)]) :=
  ⟨by cbv, by cbv⟩

/-- A world where instances of class 7 are Mappings, whose items are those of the dict in the attribute `data`
(`validate_model_fields`, `src/input/input_python.rs:392-424`: in lax mode Mappings come before attributes). -/
def mappingWorld : World PV :=
  { world with
    asFields := fun strict fromAttributes v =>
      match v with
      | .inst 7 (("data", .dict kvs) :: rest) fs =>
        if strict then world.asFields strict fromAttributes (.inst 7 (("data", .dict kvs) :: rest) fs)
        else .ok (dictView kvs)
      | v => world.asFields strict fromAttributes v }

/-- With `from_attributes`, an object that is also a Mapping is read by its attributes in strict mode and by its items in
lax mode: the values differ. -/
theorem mapping_attributes_strict_not_lax (n : Nat) (f : Nat → Validator PV PV) (p : ValResult PV PV) :
    let s : Schema PV := .model ⟨⟨.ignore, false, true, none, none⟩, 1, .never, true⟩
      (.cons "a" (byName "a") true none (.leaf intLeaf) .nil)
    let x : PV := .inst 7 [("data", .dict [(.str "a", .int 2)]), ("a", .int 1)] []
    (run { env (fun _ => s) with world := mappingWorld, outOfFuel := f, panic := p } n s x strictly).1 =
      .ok (.inst 1 [("a", .int 1)] ["a"]) ∧
    (run { env (fun _ => s) with world := mappingWorld, outOfFuel := f, panic := p } n s x fresh).1 =
      .ok (.inst 1 [("a", .int 2)] ["a"]) :=
  ⟨by cbv, by cbv⟩

/-- A wrap function that keeps what its handler refuses, and refuses what it accepts. -/
def contrary : Extra PV → PV → WrapProg PV := fun _ x =>
  .call x Option.none fun r =>
    match r with
    | .ok _ => .done (.error (.valueError (.ok "no")))
    | .error _ => .done (.ok x)

/-- A wrap function sees whether its handler accepts: one that turns this around accepts `2.0` in strict mode only. -/
theorem wrap_strict_not_lax (n : Nat) (f : Nat → Validator PV PV) (p : ValResult PV PV) :
    let s : Schema PV := .wrap contrary (.leaf intLeaf)
    (run { env (fun _ => s) with outOfFuel := f, panic := p } n s (.float 2) strictly).1 = .ok (.float 2) ∧
    ∀ y, (run { env (fun _ => s) with outOfFuel := f, panic := p } n s (.float 2) fresh).1 ≠ .ok y :=
  ⟨by cbv, by intro y h; revert h; cbv; intro h; cases h⟩

/-- The two schemas of a lax-or-strict schema have nothing to do with each other: a text is accepted in strict mode only. -/
theorem lax_or_strict_strict_not_lax (n : Nat) (f : Nat → Validator PV PV) (p : ValResult PV PV) :
    let s : Schema PV := .laxOrStrict false (.leaf intLeaf) (.leaf strLeaf)
    (run { env (fun _ => s) with outOfFuel := f, panic := p } n s (.str "x") strictly).1 = .ok (.str "x") ∧
    ∀ y, (run { env (fun _ => s) with outOfFuel := f, panic := p } n s (.str "x") fresh).1 ≠ .ok y :=
  ⟨by cbv, by intro y h; revert h; cbv; intro h; cases h⟩

end
end PC.Engine
