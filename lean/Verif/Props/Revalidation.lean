import Verif.Lemmas.EngineFix
import Verif.Props.Soundness

/-
C54 (second half): validating an output again gives the same output.  For all schemas of the language that `revalidable`
describes, all recursive definitions and all values, with witnesses of what goes wrong outside.
-/

namespace PC.Engine
open PC.Comb PC.Coll PC.Union PC.Fields PC.Lookup
variable {α : Type}

/-- **C54, idempotence.**  A value of the type the schema describes is accepted and comes back as it is, whatever has been
validated before in the same state, as long as it is not nested deeper than the recursion limit allows.

`depth` measures nesting; `rank` orders the definitions that refer to each other without going inside the value (all
ranks are zero if none does). -/
theorem conforming_value_comes_back_partial (E : Env α) (hp : E.platform.Valid) (hR : Rebuilds E.world)
    (depth : α → Nat) (hS : Sized E.world depth) (rank : Nat → Nat) (R : Nat) (hrank : ∀ name, rank name ≤ R)
    (hdir : ∀ name, ∀ nm ∈ (E.defs name).direct, rank nm < rank name) (st : VState α)
    (hoff : st.allowPartial = .off) (hg : st.guard = Guard.State.init)
    (hdefs : ∀ name, (E.defs name).All
      (revalidable st.extra.strict st.extra.byAlias st.extra.byName st.extra.fromAttributes E.world E.defs))
    (s : Schema α) (hs : s.All (revalidable st.extra.strict st.extra.byAlias st.extra.byName st.extra.fromAttributes E.world E.defs))
    (y : α) (hy : Conforms st.extra.strict E.world E.defs s y) (hd : depth y * (R + 1) + R < E.platform.limit)
    (n : Nat) (f : Nat → Validator α α) (p : ValResult α α) (hn : E.platform.limit ≤ n) :
    (run { E with outOfFuel := f, panic := p } n s y st).1 = .ok y := by
  let c : Mode := ⟨E.platform, st.extra.strict, st.extra.byAlias, st.extra.byName, st.extra.fromAttributes⟩
  let E' : Env α := { E with outOfFuel := f, panic := p }
  have hrefs : ∀ name x, depth x * (R + 1) + R < E.platform.limit → Conforms c.strict E.world E.defs (.ref name) x →
      Fix c [] (refs E' n name) x := by
    intro name x hx hcx
    have : need depth rank R x name ≤ depth x * (R + 1) + R := by
      have := hrank name
      unfold need
      omega
    exact refs_fix E' hp rfl hR depth hS rank R hrank hdir hdefs n [] name x (by omega)
      (by simp only [List.length_nil]; show _ < E.platform.limit; omega) (fun id nm h => nomatch h) hcx
  have hfix : Fix c [] (run E' n s) y := by
    refine build_fix E.world E.defs hR depth hS p (refs E' n) s hs y hy (fun name x hx hcx => ?_) (fun name _ hcx => ?_)
    · refine hrefs name x ?_ hcx
      have : depth x * (R + 1) ≤ depth y * (R + 1) := Nat.mul_le_mul_right _ (Nat.le_of_lt hx)
      omega
    · exact hrefs name y hd hcx
  obtain ⟨st', h, _⟩ := hfix st ⟨rfl, rfl, rfl, hoff, hg ▸ Guard.good_init _, rfl⟩
  rw [h]

/-- **C54.**  If validation accepts an input with some output, the output is accepted with the same value by a validation
with the same flags. -/
theorem accepted_output_revalidates_partial (E : Env α) (hp : E.platform.Valid) (hW : E.world.Lawful) (hR : Rebuilds E.world)
    (depth : α → Nat) (hS : Sized E.world depth) (rank : Nat → Nat) (R : Nat) (hrank : ∀ name, rank name ≤ R)
    (hdir : ∀ name, ∀ nm ∈ (E.defs name).direct, rank nm < rank name) (st : VState α)
    (hoff : st.allowPartial = .off) (hg : st.guard = Guard.State.init)
    (hdefs : ∀ name, (E.defs name).All fun x => built x ∧ functionFree x ∧ extrasByName x ∧
      revalidable st.extra.strict st.extra.byAlias st.extra.byName st.extra.fromAttributes E.world E.defs x)
    (s : Schema α) (hs : s.All fun x => built x ∧ functionFree x ∧ extrasByName x ∧
      revalidable st.extra.strict st.extra.byAlias st.extra.byName st.extra.fromAttributes E.world E.defs x)
    (a : α) (N : Nat) (st' : VState α) (y : α) (h : EndsWith E N s a st (.ok y, st'))
    (hd : depth y * (R + 1) + R < E.platform.limit)
    (n : Nat) (f : Nat → Validator α α) (p : ValResult α α) (hn : E.platform.limit ≤ n) :
    (run { E with outOfFuel := f, panic := p } n s y st).1 = .ok y :=
  conforming_value_comes_back_partial E hp hR depth hS rank R hrank hdir st hoff hg
    (fun name => Schema.All.imp (fun _ g => g.2.2.2) _ (hdefs name)) s (Schema.All.imp (fun _ g => g.2.2.2) s hs) y
    (accepted_output_conforms_partial E hW s (Schema.All.imp (fun _ g => ⟨g.1, g.2.1, g.2.2.1⟩) s hs)
      (fun name => Schema.All.imp (fun _ g => ⟨g.1, g.2.1, g.2.2.1⟩) _ (hdefs name)) a st hoff N st' y h) hd n f p hn

/-! ### Concrete cases -/

section
open Sample

mutual
/-- How deep a value is nested. -/
def Sample.PV.depth : PV → Nat
  | .list xs => depthAll xs + 1
  | .tuple xs => depthAll xs + 1
  | .set xs => depthAll xs + 1
  | .dict kvs => depthPairs kvs + 1
  | .inst _ ds _ => depthDict ds + 1
  | .instX _ ds _ _ => depthDict ds + 1
  | _ => 0
/-- The deepest of them. -/
def Sample.PV.depthAll : List PV → Nat
  | [] => 0
  | x :: xs => max x.depth (depthAll xs)
/-- The deepest key or value. -/
def Sample.PV.depthPairs : List (PV × PV) → Nat
  | [] => 0
  | (k, v) :: kvs => max (max k.depth v.depth) (depthPairs kvs)
/-- The deepest attribute. -/
def Sample.PV.depthDict : List (String × PV) → Nat
  | [] => 0
  | (_, v) :: kvs => max v.depth (depthDict kvs)
end

theorem depth_le : ∀ {ys : List PV} {x}, x ∈ ys → x.depth ≤ PV.depthAll ys
  | y :: ys, x, h => by
    rw [PV.depthAll]
    rcases List.mem_cons.mp h with rfl | h
    · exact Nat.le_max_left ..
    · exact Nat.le_trans (depth_le h) (Nat.le_max_right ..)

theorem depth_pair_le : ∀ {ys : List (PV × PV)} {x}, x ∈ ys → x.1.depth ≤ PV.depthPairs ys ∧ x.2.depth ≤ PV.depthPairs ys
  | (k, v) :: ys, x, h => by
    rw [PV.depthPairs]
    rcases List.mem_cons.mp h with rfl | h
    · dsimp only
      omega
    · have := depth_pair_le h
      omega

theorem depth_dict_le : ∀ {ys : List (String × PV)} {x}, x ∈ ys → x.2.depth ≤ PV.depthDict ys
  | (k, v) :: ys, x, h => by
    rw [PV.depthDict]
    rcases List.mem_cons.mp h with rfl | h
    · exact Nat.le_max_left ..
    · exact Nat.le_trans (depth_dict_le h) (Nat.le_max_right ..)

/-- The sample world, with Python objects: values have addresses (of values of the same depth, for simplicity the same). -/
def pyWorld : World PV := { world with identity := fun v => some v.depth }

mutual
theorem same_comm : ∀ x y : PV, x.same y = y.same x
  | .none, y => by cases y <;> simp only [PV.same]
  | .int a, y => by cases y <;> simp only [PV.same] <;> rw [Bool.eq_iff_iff, beq_iff_eq, beq_iff_eq] <;> exact eq_comm
  | .float a, y => by cases y <;> simp only [PV.same] <;> rw [Bool.eq_iff_iff, beq_iff_eq, beq_iff_eq] <;> exact eq_comm
  | .str a, y => by cases y <;> simp only [PV.same] <;> rw [Bool.eq_iff_iff, beq_iff_eq, beq_iff_eq] <;> exact eq_comm
  | .list a, y => by cases y <;> simp only [PV.same]; exact sameAll_comm a _
  | .tuple a, y => by cases y <;> simp only [PV.same]; exact sameAll_comm a _
  | .set a, y => by cases y <;> simp only [PV.same]
  | .dict a, y => by cases y <;> simp only [PV.same]
  | .inst .., y => by cases y <;> simp only [PV.same]
  | .instX .., y => by cases y <;> simp only [PV.same]
theorem sameAll_comm : ∀ xs ys : List PV, PV.sameAll xs ys = PV.sameAll ys xs
  | [], [] => rfl
  | [], _ :: _ => by simp only [PV.sameAll]
  | _ :: _, [] => by simp only [PV.sameAll]
  | x :: xs, y :: ys => by simp only [PV.sameAll, same_comm x y, sameAll_comm xs ys]
end

theorem find_typed (n : String) : ∀ d : Dict PV, find n (d.map fun kv => (PV.str kv.1, kv.2)) = Dict.get n d
  | [] => rfl
  | (k, v) :: d => by simp only [List.map_cons, find, Dict.get, find_typed n d]

theorem pyWorld_rebuilds : Rebuilds pyWorld where
  none := rfl
  isNone a h := by cases a <;> simp_all [pyWorld, world]
  list strict ys := ⟨_, _, _, rfl⟩
  tuple strict ys := ⟨_, _, _, rfl⟩
  set strict ys _ := ⟨ys, _, _, _, rfl, .refl _, rfl⟩
  dict strict kvs _ := rfl
  typed strict d _ := by
    refine ⟨dictView (d.map fun kv => (.str kv.1, kv.2)), .str, rfl, fun n => ?_, rfl, ?_, fun n => rfl⟩
    · simp only [dictView, LookupKey.pyGetDictItem, LookupPath.ofStr, find_typed]
      cases Dict.get n d <;> rfl
    · simp only [dictView, List.map_map]
      rfl
  model cls i := by
    obtain ⟨ds, extra, fs⟩ := i
    cases extra <;> simp [pyWorld, world, PV.inst?]
  fields strict fa d _ := by
    refine ⟨dictView (d.map fun kv => (.str kv.1, kv.2)), .str, rfl, fun n => ?_, rfl, ?_, fun n => rfl⟩
    · simp only [dictView, LookupKey.pyGetDictItem, LookupPath.ofStr, find_typed]
      cases Dict.get n d <;> rfl
    · simp only [dictView, List.map_map]
      rfl
  same := same_comm

theorem pyWorld_sized : Sized pyWorld PV.depth where
  list ys x h := Nat.lt_succ_of_le (depth_le h)
  tuple ys x h := Nat.lt_succ_of_le (depth_le h)
  set ys x h := Nat.lt_succ_of_le (depth_le h)
  dictKey kvs x h := Nat.lt_succ_of_le (depth_pair_le h).1
  dictValue kvs x h := Nat.lt_succ_of_le (depth_pair_le h).2
  typed d x h := Nat.lt_succ_of_le
    (depth_pair_le (List.mem_map_of_mem (f := fun kv : String × PV => (PV.str kv.1, kv.2)) h)).2
  model cls i x h := by
    obtain ⟨ds, extra, fs⟩ := i
    cases extra <;> exact Nat.lt_succ_of_le (depth_dict_le h)
  identity y z id h1 h2 := by cases h1; injection h2 with h2; exact h2.symm

theorem pyWorld_lawful : pyWorld.Lawful :=
  ⟨world_lawful.1, world_lawful.2, world_lawful.3, world_lawful.4, world_lawful.5, world_lawful.6, world_lawful.7, world_lawful.8,
    world_lawful.9, world_lawful.10⟩

theorem intLeaf_exact : intLeaf.ExactOutputs := by
  refine ⟨fun strict x y ex h => ?_, fun strict x y h => ?_⟩
  · cases strict <;> cases x <;> simp [intLeaf] at h <;> obtain ⟨rfl, _⟩ := h <;> simp [intLeaf]
  · cases strict <;> cases x <;> simp [intLeaf] at h <;> exact h.symm

theorem strLeaf_exact : strLeaf.ExactOutputs := by
  refine ⟨fun strict x y ex h => ?_, fun strict x y h => ?_⟩
  · cases x <;> simp [strLeaf] at h; obtain ⟨rfl, _⟩ := h; simp [strLeaf]
  · cases x <;> simp [strLeaf] at h; exact h.symm

theorem strLeaf_idempotent : strLeaf.Idempotent := fun strict x y ex h => ⟨_, strLeaf_exact.1 strict x y ex h⟩

theorem byName_select_ok (n : String) {ba bn : Bool} (h : (ba || bn) = true) :
    (byName n).select ba bn = .ok (.simple (.ofStr n)) := by
  cases ba <;> cases bn <;> first | rfl | cases h

theorem intLeaf_idempotent : intLeaf.Idempotent := fun strict x y ex h => ⟨_, intLeaf_exact.1 strict x y ex h⟩

/-- The tree schema may be validated again: its default `[]` is a list of trees. -/
theorem treeSchema_revalidable : treeSchema.All (revalidable none none none none pyWorld fun _ => treeSchema) := by
  refine ⟨⟨by simp [FieldSchemas.names], fun n k r d s h => ?_, fun n k r v s h => ?_⟩,
    ⟨⟨⟨rfl, ⟨⟨_, rfl, intLeaf_exact⟩, ⟨_, rfl, strLeaf_exact⟩, trivial⟩⟩, intLeaf_idempotent, strLeaf_idempotent, trivial⟩,
      ⟨trivial, trivial⟩, trivial⟩, trivial, strLeaf_idempotent⟩
  · rw [tree_fields h]
    exact byName_select_ok n rfl
  · rcases h with ⟨_, _, _, h, _⟩ | ⟨_, _, _, h, rfl⟩ | h
    · cases h
    · cases h
      exact .list (ys := []) (fun y h => nomatch h) (fun k h => nomatch h) (fun k h => by cases h; exact Nat.zero_le _)
    · exact h.elim

theorem goodTree_ends_py : ∃ st, EndsWith { env (fun _ => treeSchema) with world := pyWorld } 2 (.ref 0) goodTree fresh
    (.ok (.dict [(.str "v", .int 1), (.str "kids", .list [
      .dict [(.str "v", .str "x"), (.str "kids", .list [])],
      .dict [(.str "v", .int 2), (.str "kids", .list []), (.str "note", .str "n")]])]), st) := by
  refine ⟨(run { env (fun _ => treeSchema) with world := pyWorld } 2 (.ref 0) goodTree fresh).2, fun n f p hn => ?_⟩
  obtain ⟨m, rfl⟩ : ∃ m, n = m + 2 := ⟨n - 2, by omega⟩
  exact Prod.ext (by cbv) (by cbv)

-- The hypotheses are met: the output of the tree is accepted again, with recursion through Python objects.
example (n : Nat) (f : Nat → Validator PV PV) (p : ValResult PV PV) (hn : 255 ≤ n) :
    (run { env (fun _ => treeSchema) with world := pyWorld, outOfFuel := f, panic := p } n (.ref 0)
      (.dict [(.str "v", .int 1), (.str "kids", .list [
        .dict [(.str "v", .str "x"), (.str "kids", .list [])],
        .dict [(.str "v", .int 2), (.str "kids", .list []), (.str "note", .str "n")]])]) fresh).1 =
      .ok (.dict [(.str "v", .int 1), (.str "kids", .list [
        .dict [(.str "v", .str "x"), (.str "kids", .list [])],
        .dict [(.str "v", .int 2), (.str "kids", .list []), (.str "note", .str "n")]])]) := by
  obtain ⟨st, h⟩ := goodTree_ends_py
  have both : treeSchema.All fun x => built x ∧ functionFree x ∧ extrasByName x ∧
      revalidable none none none none pyWorld (fun _ => treeSchema) x := by
    obtain ⟨h1, ⟨⟨h2, h3, h4, _⟩, ⟨h5, h6⟩, _⟩, h7, h8⟩ := treeSchema_ok
    obtain ⟨g1, ⟨⟨g2, g3, g4, _⟩, ⟨g5, g6⟩, _⟩, g7, g8⟩ := treeSchema_revalidable
    exact ⟨⟨h1.1, h1.2.1, h1.2.2.1, g1⟩, ⟨⟨⟨h2.1, h2.2.1, h2.2.2.1, g2⟩, ⟨h3.1, h3.2.1, h3.2.2.1, g3⟩,
      ⟨h4.1, h4.2.1, h4.2.2.1, g4⟩, trivial⟩, ⟨⟨h5.1, h5.2.1, h5.2.2.1, g5⟩, ⟨h6.1, h6.2.1, h6.2.2.1, g6⟩⟩, trivial⟩,
      ⟨h7.1, h7.2.1, h7.2.2.1, g7⟩, ⟨h8.1, h8.2.1, h8.2.2.1, g8⟩⟩
  exact accepted_output_revalidates_partial { env (fun _ => treeSchema) with world := pyWorld } (.inl ⟨rfl, rfl⟩)
    pyWorld_lawful pyWorld_rebuilds PV.depth pyWorld_sized (fun _ => 0) 0 (fun _ => Nat.le_refl _)
    (fun _ nm h => nomatch h) fresh rfl rfl (fun _ => both) (.ref 0) ⟨trivial, trivial, trivial, trivial⟩ goodTree 2 st _ h
    (by decide) n f p hn

theorem litLeaf_idempotent (t : String) : (litLeaf t).Idempotent := by
  intro strict x y ex h
  cases x <;> simp only [litLeaf] at h <;> try (cases h; done)
  split at h
  · rename_i h1; cases h; exact ⟨.exact, by simp [litLeaf, h1]⟩
  · cases h

/-- What conforms to a literal is that string. -/
theorem conforms_lit {m : Option Bool} {W : World PV} {defs : Nat → Schema PV} {t : String} {v : PV}
    (h : Conforms m W defs (.leaf (litLeaf t)) v) : v = .str t := by
  cases h with
  | @leaf _ x _ ex h =>
    cases x <;> simp only [litLeaf] at h <;> try (cases h; done)
    split at h
    · rename_i h1; cases h; rw [h1]
    · cases h

/-- The tag of an instance whose first field is the tag. -/
theorem tag_of_instance (cls : Nat) (t : String) (ds : Dict PV) (extra : Option (Dict PV)) (fs : List String)
    (hx : ∀ xs, extra = some xs → (xs.map Prod.fst).Nodup ∧ ∀ x ∈ xs, x.1 ∉ (("kind", PV.str t) :: ds).map Prod.fst) :
    findTag pyWorld (.simple (.ofStr "kind")) false true (pyWorld.mkModel cls ⟨("kind", .str t) :: ds, extra, fs⟩) =
      .ok (some (.str t)) := by
  cases extra with
  | none => simp [findTag, pyWorld, world, PV.inst?, attrView, LookupKey.pyGetAttr, LookupKey.simplePyGetAttr, ops,
      LookupPath.ofStr, Cls.attributes, Dict.get]
  | some xs =>
    obtain ⟨h1, h2⟩ := hx xs rfl
    have h3 := update_new xs (("kind", PV.str t) :: ds) h1 h2
    simp [findTag, pyWorld, world, PV.inst?, attrView, LookupKey.pyGetAttr, LookupKey.simplePyGetAttr, ops,
      LookupPath.ofStr, Cls.attributes, h3, Dict.get]

/-- An entry under the name of the tag. -/
theorem entry_tag {m : Option Bool} {W : World PV} {defs : Nat → Schema PV} {t : String} {v : PV} {rest : FieldSchemas PV}
    (hn : "kind" ∉ rest.names)
    (h : Entry m W defs (.cons "kind" (byName "kind") true none (.leaf (litLeaf t)) rest) "kind" v) : v = .str t := by
  cases h with
  | field h1 h2 =>
    rcases h1 with ⟨_, _, _, _, rfl⟩ | h1
    · exact conforms_lit h2
    · exact absurd (has_names h1) hn
  | default h1 =>
    rcases h1 with ⟨_, _, _, h, _⟩ | h1
    · cases h
    · exact absurd (has_names h1) hn

/-- Cats and dogs may be validated again. -/
theorem petSchema_revalidable : petSchema.All (revalidable none none none none pyWorld fun _ => petSchema) := by
  have cat : catFields.ByName := fun n k r d s h ba bn key hk => by
    rw [cat_fields h] at hk
    exact byName_select hk
  refine ⟨fun i s y hi hc => ?_,
    ⟨fun _ => ⟨by simp [FieldSchemas.names, catFields], fun n k r d s h => ?_, fun _ => cat, fun n k r v s h => ?_⟩,
      litLeaf_idempotent _, intLeaf_idempotent, ⟨trivial, trivial⟩, trivial⟩,
    ⟨fun _ => ⟨by simp [FieldSchemas.names, dogFields], fun n k r d s h => ?_, fun h => (by cases h), fun n k r v s h => ?_⟩,
      litLeaf_idempotent _, ⟨fun _ _ => rfl, strLeaf_idempotent⟩, trivial⟩, trivial⟩
  · match i, hi with
    | 0, hi =>
      cases hi
      cases hc with
      | @model _ _ ds extra fs h1 h2 h3 =>
        match ds, h1, h2 with
        | (n, v) :: ds, h1, h2 =>
          injection h1 with h1 h1'
          change n = "kind" at h1
          subst h1
          obtain rfl := entry_tag (by simp [FieldSchemas.names]) (h2 "kind" v (.head _))
          refine ⟨_, _, tag_of_instance 1 "cat" ds extra fs ?_, rfl⟩
          rintro xs rfl
          refine ⟨h3.2.1, fun x hx => ?_⟩
          rw [List.map_cons, h1']
          exact h3.2.2 cat x.1 x.2 hx
      | «instance» h =>
        generalize pyWorld.source _ y = src at h
        cases src with
        | exact i => exact absurd rfl h
        | subclass i => cases h
        | genericOrigin i => exact h.elim
        | other => exact h.elim
    | 1, hi =>
      cases hi
      cases hc with
      | @model _ _ ds extra fs h1 h2 h3 =>
        match ds, h1, h2 with
        | (n, v) :: ds, h1, h2 =>
          injection h1 with h1 h1'
          change n = "kind" at h1
          subst h1
          obtain rfl := entry_tag (by simp [FieldSchemas.names]) (h2 "kind" v (.head _))
          refine ⟨_, _, tag_of_instance 2 "dog" ds extra fs ?_, rfl⟩
          rintro xs rfl
          cases h3.1
      | «instance» h =>
        generalize pyWorld.source _ y = src at h
        cases src with
        | exact i => exact absurd rfl h
        | subclass i => cases h
        | genericOrigin i => exact h.elim
        | other => exact h.elim
  · rw [cat_fields h]
    exact byName_select_ok n rfl
  · rcases h with ⟨_, _, _, h, _⟩ | ⟨_, _, _, h, rfl⟩ | ⟨_, _, _, h, rfl⟩ | h
    · cases h
    · cases h
      exact .leaf (x := .int 9) rfl
    · cases h
      exact .list (ys := []) (fun y h => nomatch h) (fun k h => nomatch h) (fun k h => by cases h; exact Nat.zero_le _)
    · exact h.elim
  · rw [dog_fields h]
    exact byName_select_ok n rfl
  · rcases h with ⟨_, _, _, h, _⟩ | ⟨_, _, _, h, _⟩ | h
    · cases h
    · cases h
    · exact h.elim

theorem goodPet_ends_py : ∃ st, EndsWith { env (fun _ => petSchema) with world := pyWorld } 2 (.ref 0) goodPet fresh
    (.ok goodPetOut, st) := by
  refine ⟨(run { env (fun _ => petSchema) with world := pyWorld } 2 (.ref 0) goodPet fresh).2, fun n f p hn => ?_⟩
  obtain ⟨m, rfl⟩ : ∃ m, n = m + 2 := ⟨n - 2, by omega⟩
  exact Prod.ext (by cbv) (by cbv)

-- Models inside a tagged union: the output, instances all the way down, comes back as it is though all are revalidated.
example (n : Nat) (f : Nat → Validator PV PV) (p : ValResult PV PV) (hn : 255 ≤ n) :
    (run { env (fun _ => petSchema) with world := pyWorld, outOfFuel := f, panic := p } n (.ref 0) goodPetOut fresh).1 =
      .ok goodPetOut := by
  obtain ⟨st, h⟩ := goodPet_ends_py
  exact conforming_value_comes_back_partial { env (fun _ => petSchema) with world := pyWorld } (.inl ⟨rfl, rfl⟩)
    pyWorld_rebuilds PV.depth pyWorld_sized (fun _ => 0) 0 (fun _ => Nat.le_refl _)
    (fun _ nm h => nomatch h) fresh rfl rfl (fun _ => petSchema_revalidable) (.ref 0) trivial _
    (accepted_output_conforms_partial { env (fun _ => petSchema) with world := pyWorld } pyWorld_lawful (.ref 0)
      ⟨trivial, trivial, trivial⟩ (fun _ => Schema.All.imp (fun _ g => ⟨g.1, g.2.1, g.2.2.1⟩) _ petSchema_ok) goodPet fresh rfl
      2 st _ h) (by decide) n f p hn

/-! ### Where validating again changes the value -/

/-- A tagged union that does not read attributes refuses the instances it makes (by default it does read them). -/
theorem tagged_instance_refused (n : Nat) (f : Nat → Validator PV PV) (p : ValResult PV PV) :
    let s : Schema PV := .tagged
      ⟨.simple (.ofStr "kind"), false, fun _ => some (.s "dog", 0), fun _ => "", none, "'dog'", "'kind'"⟩
      (.cons (.model ⟨⟨.forbid, false, true, none, none⟩, 2, .never, false⟩ dogFields) .nil)
    (run { env (fun _ => s) with outOfFuel := f, panic := p } n s
        (.dict [(.str "name", .str "Rex"), (.str "kind", .str "dog")]) fresh).1 =
      .ok (.inst 2 [("kind", .str "dog"), ("name", .inst 3 [("root", .str "Rex")] ["root"])] ["kind", "name"]) ∧
    (run { env (fun _ => s) with outOfFuel := f, panic := p } n s
        (.inst 2 [("kind", .str "dog"), ("name", .inst 3 [("root", .str "Rex")] ["root"])] ["kind", "name"]) fresh).1 =
      .error (.new (.other "dict_type")
        (.inst 2 [("kind", .str "dog"), ("name", .inst 3 [("root", .str "Rex")] ["root"])] ["kind", "name"])) :=
  ⟨by cbv, by cbv⟩

/-- `A {a: int, z: int, q: int = 7}` or `B {a: int = 5, z: int}`, smart mode. -/
def twoDicts : Schema PV :=
  .union false none
    (.cons "A" none (.typedDict ⟨.ignore, false, true, none, none⟩
      (.cons "a" (byName "a") true none (.leaf intLeaf) (.cons "z" (byName "z") true none (.leaf intLeaf)
        (.cons "q" (byName "q") false (some (.int 7)) (.leaf intLeaf) .nil))))
    (.cons "B" none (.typedDict ⟨.ignore, false, true, none, none⟩
      (.cons "a" (byName "a") false (some (.int 5)) (.leaf intLeaf) (.cons "z" (byName "z") true none (.leaf intLeaf) .nil)))
    .nil))

/-- A smart union of typed dicts may choose another member for its own output: `{'z': 1}` is a `B` and becomes
`{'a': 5, 'z': 1}`, which is then taken for an `A` and becomes `{'a': 5, 'z': 1, 'q': 7}`. -/
theorem smart_union_of_dicts_not_idempotent (n : Nat) (f : Nat → Validator PV PV) (p : ValResult PV PV) :
    (run { env (fun _ => twoDicts) with outOfFuel := f, panic := p } n twoDicts (.dict [(.str "z", .int 1)]) fresh).1 =
      .ok (.dict [(.str "a", .int 5), (.str "z", .int 1)]) ∧
    (run { env (fun _ => twoDicts) with outOfFuel := f, panic := p } n twoDicts
        (.dict [(.str "a", .int 5), (.str "z", .int 1)]) fresh).1 =
      .ok (.dict [(.str "a", .int 5), (.str "z", .int 1), (.str "q", .int 7)]) :=
  ⟨by cbv, by cbv⟩

/-- A left-to-right union of `int` and `float`: `'1e3'` becomes `1000.0`, which becomes `1000`. -/
theorem left_to_right_not_idempotent (n : Nat) (f : Nat → Validator PV PV) (p : ValResult PV PV) :
    let s : Schema PV := .union true none (.cons "int" none (.leaf intLeaf) (.cons "float" none (.leaf floatLeaf) .nil))
    (run { env (fun _ => s) with outOfFuel := f, panic := p } n s (.str "1e3") fresh).1 = .ok (.float 1000) ∧
    (run { env (fun _ => s) with outOfFuel := f, panic := p } n s (.float 1000) fresh).1 = .ok (.int 1000) :=
  ⟨by cbv, by cbv⟩

/-- A default is not validated: `{}` becomes `{'a': 'x'}`, which is refused. -/
theorem default_not_revalidated (n : Nat) (f : Nat → Validator PV PV) (p : ValResult PV PV) :
    let s : Schema PV := .typedDict ⟨.ignore, false, true, none, none⟩
      (.cons "a" (byName "a") false (some (.str "x")) (.leaf intLeaf) .nil)
    (run { env (fun _ => s) with outOfFuel := f, panic := p } n s (.dict []) fresh).1 = .ok (.dict [(.str "a", .str "x")]) ∧
    (run { env (fun _ => s) with outOfFuel := f, panic := p } n s (.dict [(.str "a", .str "x")]) fresh).1 =
      .error (.lineErrors [⟨.other "int_type", .list [.s "a"], .str "x"⟩]) :=
  ⟨by cbv, by cbv⟩

/-- A field looked up under an alias only: `{'b': 1}` becomes `{'a': 1}`, in which `b` is missing. -/
theorem alias_not_revalidated (n : Nat) (f : Nat → Validator PV PV) (p : ValResult PV PV) :
    let s : Schema PV := .typedDict ⟨.ignore, false, true, none, none⟩
      (.cons "a" ⟨.simple (.ofStr "a"), some (.simple (.ofStr "b")), none⟩ true none (.leaf intLeaf) .nil)
    (run { env (fun _ => s) with outOfFuel := f, panic := p } n s (.dict [(.str "b", .int 1)]) fresh).1 =
      .ok (.dict [(.str "a", .int 1)]) ∧
    (run { env (fun _ => s) with outOfFuel := f, panic := p } n s (.dict [(.str "a", .int 1)]) fresh).1 =
      .error (.lineErrors [⟨.missing, .list [.s "b"], .dict [(.str "a", .int 1)]⟩]) :=
  ⟨by cbv, by cbv⟩

end

end PC.Engine
