import Verif.Lemmas.TripEqual
import Verif.Spec.TripSample
import Verif.Props.SerExact

/-
C80: what `to_json` writes is accepted by `validate_json` of the same schema, and gives an equal value.
-/

namespace PC.Trip
open PC.Infer (Json Text Opts)
open PC.Fields (Dict Instance)
open PC.Lookup (LookupKey KeyCollection LookupPath)
open PC.Coll PC.Engine PC.Comb

variable {α : Type}

/-- The arguments of a validation in this state. -/
def flags (st : VState α) : Flags := ⟨st.extra.strict, st.extra.byAlias, st.extra.byName, st.extra.fromAttributes⟩

/-- **C80.**  A value `a` of the type a schema describes, with a document `d` of a height that the recursion limit allows, is
written as `d` without warnings.  Validation of `d` by the same schema, with any of the arguments for which the
conditions hold (each field is written under a name it is looked up by, scalars come back), accepts it; the value `v` it gives
is of that type with the same document, and so is written as `d` again. -/
theorem document_comes_back_partial {T : Setting α} (hR : Reads T) (hT : Sees T) (hd : T.Shared) (hp : T.S.platform.Valid)
    (hid : ∀ a b, T.S.world.identity a = T.S.world.identity b → a = b) (hst : 0 < T.S.world.stack) {o : Opts}
    {x : Infer.Extra α} (hx : x.Fits o) {st : VState α} (hoff : st.allowPartial = .off) (hg : st.guard = Guard.State.init)
    (hdefs : ∀ d, (T.defs d).Ok T (flags st) o) {s : Core α} (hs : s.Ok T (flags st) o) {a : α} {d : Json} {h : Nat}
    (ha : Data T o s a d h) (hh : h ≤ T.S.platform.limit) (bottom : Infer.Recs α) (n : Nat) (hn : T.S.platform.limit < n)
    (m : Nat) (hm : h ≤ m) (f : Nat → Validator α α) (p : ValResult α α) :
    (∃ w, Infer.toJson T.S bottom n s.ser x a none none Infer.freshSt = (.ok d, w) ∧ w.warnings = []) ∧
    ∃ v st', run { T.V with outOfFuel := f, panic := p } m s.val (T.json d) st = (.ok v, st') ∧ Data T o s v d h ∧
      ∃ w, Infer.toJson T.S bottom n s.ser x v none none Infer.freshSt = (.ok d, w) ∧ w.warnings = [] := by
  have wr : ∀ v, Data T o s v d h → ∃ w, Infer.toJson T.S bottom n s.ser x v none none Infer.freshSt = (.ok d, w)
      ∧ w.warnings = [] := fun v hv =>
    (Infer.to_json_exact hp hid hst hx (data_writes (fl := flags st) hT hd hdefs hs hv) bottom n hn).1 hh
  let c : Mode := ⟨T.V.platform, st.extra.strict, st.extra.byAlias, st.extra.byName, st.extra.fromAttributes⟩
  obtain ⟨v, h1, h2, _⟩ := back (c := c) (opn := []) hR hT hd hdefs ⟨rfl, rfl, rfl⟩ f p m hm hs ha
  obtain ⟨st', h3, _⟩ := h1 st ⟨rfl, rfl, rfl, hoff, hg ▸ Guard.good_init _, rfl⟩
  exact ⟨wr a ha, v, st', h3, h2, wr v h2⟩

/-- **C80, equality.**  If moreover scalars with the same document are the same, then the value that comes back is equal to
the one that was written. -/
theorem value_comes_back_partial {T : Setting α} (hR : Reads T) (hT : Sees T) (hd : T.Shared) (hp : T.S.platform.Valid)
    (hid : ∀ a b, T.S.world.identity a = T.S.world.identity b → a = b) (hst : 0 < T.S.world.stack) {o : Opts}
    {x : Infer.Extra α} (hx : x.Fits o) {st : VState α} (hoff : st.allowPartial = .off) (hg : st.guard = Guard.State.init)
    {same : α → α → Prop} (hdefs : ∀ d, (T.defs d).Ok T (flags st) o ∧ (T.defs d).Exact T same o) {s : Core α}
    (hs : s.Ok T (flags st) o ∧ s.Exact T same o) {a : α} {d : Json} {h : Nat} (ha : Data T o s a d h)
    (hh : h ≤ T.S.platform.limit) (bottom : Infer.Recs α) (n : Nat) (hn : T.S.platform.limit < n)
    (m : Nat) (hm : h ≤ m) (f : Nat → Validator α α) (p : ValResult α α) :
    ∃ w v st', Infer.toJson T.S bottom n s.ser x a none none Infer.freshSt = (.ok d, w) ∧
      run { T.V with outOfFuel := f, panic := p } m s.val (T.json d) st = (.ok v, st') ∧ Equal T same s a v := by
  obtain ⟨⟨w, h1, _⟩, v, st', h2, h3, _⟩ := document_comes_back_partial hR hT hd hp hid hst hx hoff hg (fun d => (hdefs d).1)
    hs.1 ha hh bottom n hn m hm f p
  exact ⟨w, v, st', h1, h2, equal (fun d => (hdefs d).1) (fun d => (hdefs d).2) hs.1 hs.2 ha h3⟩

/-! ### A concrete case -/

namespace Sample

/-- A class: a name under an alias, an optional number, children of the class, tags; extra items are allowed. -/
def node : Core Obj :=
  .model "Node".toList ⟨⟨.allow, false, true, none, none⟩, 7, .never, false⟩
    (.cons "name" ⟨.simple (.ofStr "name"), some (.simple (.ofStr "nm")), some (.choice (.ofStr "nm") (.ofStr "name"))⟩ true none
        (some "nm".toList) none (.leaf str .str)
      (.cons "n" ⟨.simple (.ofStr "n"), none, none⟩ false (some .none) none none (.nullable (.leaf int .int))
        (.cons "kids" ⟨.simple (.ofStr "kids"), none, none⟩ true none none none
            (.list "list[Node]".toList false none (some 10) false (.ref 0))
          (.cons "tags" ⟨.simple (.ofStr "tags"), none, none⟩ true none none none
            (.dict "dict[str, Any]".toList false none none str .str .any) .nil))))

/-- The setting with this class as the only definition. -/
noncomputable def T : Setting Obj := setting fun _ => node

/-- `by_alias=True`, `exclude_none=True`. -/
def opts : Opts := ⟨some true, true, false⟩

/-- Arguments of a dump. -/
def extra (o : Opts) : Infer.Extra Obj where
  mode := .json
  config := ⟨.iso8601, .utf8, .null⟩
  check := .none
  serializeUnknown := false
  fallback := none
  duck := .schemaBased
  byAlias := o.byAlias
  excludeNone := o.excludeNone
  excludeUnset := o.excludeUnset
  model := none

theorem extra_fits (o : Opts) : (extra o).Fits o := ⟨rfl, rfl, rfl, rfl, rfl, rfl, rfl⟩

theorem str_trips (defs : Nat → Core Obj) (fl : Flags) (o : Opts) : LeafTrips (setting defs) fl o str .str := by
  intro a d _ hw
  cases hw with
  | str h =>
    exact ⟨_, _, rfl, .str rfl, fun h => by cases h⟩

theorem int_trips (defs : Nat → Core Obj) (fl : Flags) (o : Opts) : LeafTrips (setting defs) fl o int .int := by
  intro a d _ hw
  cases hw with
  | int h => exact ⟨_, _, rfl, .int rfl, fun h => by cases h⟩

theorem asStr_inv {defs : Nat → Core Obj} {a : Obj} {t : Text} (h : (setting defs).S.asStr a = some (.utf8 t)) : a = .str t := by
  simp only [setting, serEnv] at h
  split at h
  · cases h; rfl
  · cases h

theorem key_trips (defs : Nat → Core Obj) (fl : Flags) : KeyTrips (setting defs) fl str .str where
  trip a t _ _ := ⟨.str t, .exact, rfl, rfl⟩
  differ a b t u ha hb hne := by
    obtain rfl := asStr_inv ha
    obtain rfl := asStr_inv hb
    simpa [setting, world] using hne
  hash a t h := rfl

theorem str_exact (defs : Nat → Core Obj) (o : Opts) : LeafExact (setting defs) Eq o str .str := by
  intro a b d _ _ ha hb
  cases ha with
  | str h =>
    cases hb with
    | str h' => rw [asStr_inv h, asStr_inv h']

theorem int_exact (defs : Nat → Core Obj) (o : Opts) : LeafExact (setting defs) Eq o int .int := by
  intro a b d _ _ ha hb
  have inv : ∀ {a i}, (setting defs).S.extractInt a = some i → a = .int i := by
    intro a i h
    simp only [setting, serEnv] at h
    split at h
    · cases h; rfl
    · cases h
  cases ha with
  | int h =>
    cases hb with
    | int h' => rw [inv h, inv h']

theorem looks {ba bn : Bool} {keys : KeyCollection} {key : LookupKey} {ns ms : List String} (h : keys.select ba bn = .ok key)
    (hn : names key = some ns) (hl : LooksBy ba bn keys ms) : ms = ns := by
  obtain ⟨k, h1, h2⟩ := hl
  rw [h] at h1
  cases h1
  rw [hn] at h2
  exact (Option.some.inj h2).symm

theorem node_ok (defs : Nat → Core Obj) (fl : Flags) (h1 : fl.byAlias = none ∨ fl.byAlias = some true) (h2 : fl.byName = none ∨ fl.byName = some false)
    (o : Opts) (ho : o.byAlias = some true) : node.Ok (setting defs) fl o := by
  obtain ⟨b, e, u⟩ := o
  cases ho
  have e1 : (fl.byAlias.or none).getD true = true := by rcases h1 with h | h <;> rw [h] <;> rfl
  have e2 : (fl.byName.or none).getD false = false := by rcases h2 with h | h <;> rw [h] <;> rfl
  simp only [node, Core.Ok, CoreFields.Ok, CoreFields.KeysOk, CoreFields.Unlooked, CoreFields.names, e1, e2]
  refine ⟨⟨by decide, ⟨["nm"], ⟨_, rfl, rfl⟩, by simp [Opts.fieldKey, info], fun n hn => ?_⟩, by decide, ⟨["n"], ⟨_, rfl, rfl⟩, by simp [Opts.fieldKey, info], fun n hn => ?_⟩,
    by decide, ⟨["kids"], ⟨_, rfl, rfl⟩, by simp [Opts.fieldKey, info], fun n hn => ?_⟩, by decide, ⟨["tags"], ⟨_, rfl, rfl⟩, by simp [Opts.fieldKey, info], fun n hn => ?_⟩,
    trivial⟩, str_trips defs fl _, int_trips defs fl _, trivial, ⟨key_trips defs fl, trivial⟩, trivial⟩ <;>
  · rw [List.mem_singleton] at hn
    subst hn
    first
      | trivial
      | (refine ⟨fun ms hl => ?_, ?_⟩
         · rw [looks rfl rfl hl]; decide
         first
           | trivial
           | (refine ⟨fun ms hl => ?_, ?_⟩
              · rw [looks rfl rfl hl]; decide
              first
                | trivial
                | (refine ⟨fun ms hl => ?_, trivial⟩
                   rw [looks rfl rfl hl]; decide)))

theorem node_exact (defs : Nat → Core Obj) (o : Opts) : node.Exact (setting defs) Eq o := by
  simp only [node, Core.Exact, CoreFields.Exact]
  refine ⟨str_exact defs o, int_exact defs o, trivial, ⟨fun a b t _ _ ha hb => ?_, trivial⟩, trivial⟩
  rw [asStr_inv ha, asStr_inv hb]

/-- A child. -/
def kid : Obj :=
  world.mkModel 7 ⟨[("name", .str "b".toList), ("n", .int 5), ("kids", world.mkList []), ("tags", world.mkDict [])], some [],
    ["name", "n", "kids", "tags"]⟩

/-- A parent, its number not set, with an extra item. -/
def parent : Obj :=
  world.mkModel 7 ⟨[("name", .str "a".toList), ("n", .none), ("kids", world.mkList [kid]),
      ("tags", world.mkDict [(.str "k".toList, world.mkList [.int 1, .bool true])])], some [("zz", .float (.fin 3 1))],
    ["name", "kids", "tags", "zz"]⟩

/-- The document of the child. -/
def kidDoc : Json := .obj [("nm".toList, .str "b".toList), ("n".toList, .int 5), ("kids".toList, .arr []), ("tags".toList, .obj [])]

/-- The document of the parent: the number is left out. -/
def parentDoc : Json :=
  .obj [("nm".toList, .str "a".toList), ("kids".toList, .arr [kidDoc]),
    ("tags".toList, .obj [("k".toList, .arr [.int 1, .bool true])]), ("zz".toList, .float (.fin 3 1))]

theorem source_made (cls : Nat) (i : Instance Obj) : T.V.world.source cls (world.mkModel cls i) = .exact i :=
  (sees fun _ => node).made cls i

theorem not_left_out {name : String} {v : Obj} {set : Option (List String)} (h : T.S.world.shape v ≠ .none) :
    ¬ LeftOut T opts set name v := by
  rintro (⟨h1, _⟩ | ⟨_, h2⟩)
  · cases h1
  · exact h h2

theorem kid_data : Data T opts node kid kidDoc 0 := by
  refine .modelExtra (es := [("nm".toList, .str "b".toList), ("n".toList, .int 5), ("kids".toList, .arr []),
    ("tags".toList, .obj [])]) (es' := []) (n := 0) (n' := 0) (source_made 7 _) rfl rfl ?_ .nil .nil
  refine .written (n := 0) (n' := 0) (not_left_out (by simp [T, setting, serEnv, serWorld])) (by simp)
    (.leaf ⟨false, .str "b".toList, .exact, rfl⟩ (.str rfl)) ?_
  refine .written (n := 0) (n' := 0) (not_left_out (by simp [T, setting, serEnv, serWorld])) (by simp)
    (.nullable (by simp [T, setting, serEnv, serWorld]) (by simp) (.leaf ⟨false, .int 5, .exact, rfl⟩ (.int rfl))) ?_
  refine .written (n := 0) (n' := 0) (not_left_out ((sees fun _ => node).list _).2) (by simp)
    (.list ((sees fun _ => node).list _).1 .nil (by simp [FitsMin]) (by simp [FitsMax])) ?_
  refine .written (n := 0) (n' := 0) (not_left_out ((sees fun _ => node).dict [] ⟨by simp, .nil⟩).2) (by simp)
    (.dict ((sees fun _ => node).dict [] ⟨by simp, .nil⟩).1 .nil .nil (by simp [FitsMin]) (by simp [FitsMax])) .nil

theorem parent_data : Data T opts node parent parentDoc 2 := by
  refine .modelExtra (es := [("nm".toList, .str "a".toList), ("kids".toList, .arr [kidDoc]),
    ("tags".toList, .obj [("k".toList, .arr [.int 1, .bool true])])]) (es' := [("zz".toList, .float (.fin 3 1))])
    (n := 2) (n' := 1) (source_made 7 _) rfl rfl ?_ ?_ (by simp)
  · refine .written (n := 0) (n' := 2) (not_left_out (by simp [T, setting, serEnv, serWorld])) (by simp)
      (.leaf ⟨false, .str "a".toList, .exact, rfl⟩ (.str rfl)) ?_
    refine .omitted (.inr ⟨rfl, rfl⟩) rfl ?_
    refine .written (n := 1) (n' := 2) (not_left_out ((sees fun _ => node).list _).2) (by simp)
      (.list ((sees fun _ => node).list _).1 (.cons (n := 1) (n' := 0) (.ref (by decide) kid_data) .nil) (by simp [FitsMin])
        (by simp [FitsMax])) ?_
    have hd : DictOk T.V.world.hashing [((.str "k".toList : Obj), world.mkList [.int 1, .bool true])] :=
      ⟨fun _ _ => rfl, List.pairwise_singleton ..⟩
    have hs := (sees fun _ => node).dict _ hd
    refine .written (n := 2) (n' := 0) (not_left_out hs.2) (by simp)
      (.dict hs.1 (.cons (n := 2) (n' := 0) ⟨false, .str "k".toList, .exact, rfl⟩ rfl (.any ?_ ?_) .nil) (by simp)
        (by simp [FitsMin]) (by simp [FitsMax])) .nil
    · exact ⟨[.int 1, .bool true], .inl rfl, rfl, rfl, trivial⟩
    · simp [Json.norm, Infer.normItems]
  · refine .cons (name := "zz") (n := 0) (d := .float (.fin 3 1)) ?_ (by simp) ⟨rfl, rfl⟩ (by simp [Json.norm]) .nil
    simp only [CoreFields.Free]
    refine ⟨by decide, ?_, by decide, ?_, by decide, ?_, by decide, ?_, trivial⟩ <;>
    · intro ba bn key ns hk hn
      cases ba <;> cases bn <;> cases hk <;> cases hn <;> decide

/-- The state of a validation at its start, with `strict` as given. -/
def start (strict : Option Bool) : VState Obj := VState.new { strict := strict } Guard.State.init .off

/-- The parent with its child is written, and comes back equal, in strict mode too. -/
example (strict : Option Bool) : ∃ w v st',
    Infer.toJson T.S Infer.deadEnd 256 node.ser (extra opts) parent none none Infer.freshSt = (.ok parentDoc, w) ∧
    run T.V 256 node.val (T.json parentDoc) (start strict) = (.ok v, st') ∧ Equal T Eq node parent v :=
  value_comes_back_partial (T := T) (reads _) (sees _) (shared _) (.inl ⟨rfl, rfl⟩) (injective _) (by decide)
    (extra_fits opts) rfl rfl (fun _ => ⟨node_ok _ _ (.inl rfl) (.inl rfl) _ rfl, node_exact _ _⟩)
    ⟨node_ok _ _ (.inl rfl) (.inl rfl) _ rfl, node_exact _ _⟩ parent_data (by decide) _ 256 (by decide) 256 (by decide) _ _

/-- The same for the document only. -/
example : ∃ v st', run T.V 256 node.val (T.json parentDoc) (start none) = (.ok v, st') ∧ Data T opts node v parentDoc 2 := by
  obtain ⟨_, v, st', h1, h2, _⟩ := document_comes_back_partial (T := T) (reads _) (sees _) (shared _) (.inl ⟨rfl, rfl⟩)
    (injective _) (by decide) (extra_fits opts) (st := start none) rfl rfl
    (fun _ => node_ok _ _ (.inl rfl) (.inl rfl) _ rfl) (node_ok _ _ (.inl rfl) (.inl rfl) _ rfl) parent_data (by decide)
    Infer.deadEnd 256 (by decide) 256 (by decide) T.V.outOfFuel T.V.panic
  exact ⟨v, st', h1, h2⟩

/-- A tuple of a name, any number of numbers, and a class. -/
def row : Core Obj :=
  .tupleVar "tuple[str, *tuple[int, ...], Node]".toList false (some 2) (some 4) false (.cons (.leaf str .str) .nil)
    (.leaf int .int) (.cons (.tuple "tuple[int, Node]".toList true none none false
      (.cons (.leaf int .int) (.cons (.ref 0) .nil))) .nil)

/-- Such a tuple. -/
def rowValue : Obj :=
  world.mkTuple [.str "x".toList, .int 1, .int 2, world.mkTuple [.int 3, kid]]

theorem row_data : Data T opts row rowValue
    (.arr [.str "x".toList, .int 1, .int 2, .arr [.int 3, kidDoc]]) 1 := by
  have leafI : ∀ i, Data T opts (.leaf int .int) (.int i) (.int i) 0 := fun i => .leaf ⟨false, .int i, .exact, rfl⟩ (.int rfl)
  refine .tupleVar (xs := [Obj.str "x".toList]) (ys := [Obj.int 1, Obj.int 2]) (zs := [world.mkTuple [.int 3, kid]])
    (ds := [.str "x".toList]) (es := [.int 1, .int 2]) (fs := [.arr [.int 3, kidDoc]]) (n := 0) (n' := 0) (n'' := 1)
    ((sees fun _ => node).tuple [.str "x".toList, .int 1, .int 2, world.mkTuple [.int 3, kid]]).1 ?_ ?_ ?_ (by simp [FitsMin]) (by simp [FitsMax])
  · exact .cons (n := 0) (n' := 0) (.leaf ⟨false, .str "x".toList, .exact, rfl⟩ (.str rfl)) .nil
  · exact .cons (n := 0) (n' := 0) (leafI 1) (.cons (n := 0) (n' := 0) (leafI 2) .nil)
  · exact .cons (n := 1) (n' := 0) (.tuple ((sees fun _ => node).tuple _).1 (.cons (n := 0) (n' := 1) (leafI 3)
      (.cons (n := 1) (n' := 0) (.ref (by decide) kid_data) .nil)) (by simp [FitsMin]) (by simp [FitsMax])) .nil

theorem row_ok (fl : Flags) : row.Ok T fl opts :=
  ⟨⟨str_trips _ _ _, trivial⟩, int_trips _ _ _, ⟨int_trips _ _ _, trivial, trivial⟩, trivial⟩

theorem row_exact : row.Exact T Eq opts :=
  ⟨⟨str_exact _ _, trivial⟩, int_exact _ _, ⟨int_exact _ _, trivial, trivial⟩, trivial⟩

/-- The tuple comes back equal, in strict mode too: the array is a tuple. -/
example (strict : Option Bool) : ∃ w v st',
    Infer.toJson T.S Infer.deadEnd 256 row.ser (extra opts) rowValue none none Infer.freshSt =
      (.ok (.arr [.str "x".toList, .int 1, .int 2, .arr [.int 3, kidDoc]]), w) ∧
    run T.V 256 row.val (T.json (.arr [.str "x".toList, .int 1, .int 2, .arr [.int 3, kidDoc]])) (start strict) = (.ok v, st') ∧
    Equal T Eq row rowValue v :=
  value_comes_back_partial (T := T) (reads _) (sees _) (shared _) (.inl ⟨rfl, rfl⟩) (injective _) (by decide)
    (extra_fits opts) rfl rfl (fun _ => ⟨node_ok _ _ (.inl rfl) (.inl rfl) _ rfl, node_exact _ _⟩)
    ⟨row_ok _, row_exact⟩ row_data (by decide) _ 256 (by decide) 256 (by decide) _ _

end Sample

/-! ### Without the conditions -/

/-- C80, full statement for a schema and arguments: what validation returns and `to_json` writes comes back equal. -/
def AllComeBack (T : Setting α) (same : α → α → Prop) (s : Core α) (x : Infer.Extra α) (st : VState α) : Prop :=
  ∀ input a st', run T.V T.S.platform.limit s.val input st = (.ok a, st') → ∀ d w,
    Infer.toJson T.S Infer.deadEnd (T.S.platform.limit + 1) s.ser x a none none Infer.freshSt = (.ok d, w) →
    ∃ v st', run T.V T.S.platform.limit s.val (T.json d) st = (.ok v, st') ∧ Equal T same s a v

namespace Sample

/-- What to show to refute it. -/
theorem not_all {s : Core Obj} {defs : Nat → Core Obj} {same : Obj → Obj → Prop} {o : Opts} (input a : Obj) (d : Json) {n : Nat}
    (hin : ∃ st', run (setting defs).V (setting defs).S.platform.limit s.val input (start none) = (.ok a, st'))
    (hw : Infer.Writes (setting defs).S o s.ser a d n) (hn : n ≤ 255)
    (hb : ∀ v st', run (setting defs).V (setting defs).S.platform.limit s.val (json d) (start none) = (.ok v, st') →
      ¬ Equal (setting defs) same s a v) :
    ¬ AllComeBack (setting defs) same s (extra o) (start none) := by
  intro h
  obtain ⟨st', hin⟩ := hin
  obtain ⟨w, hw, _⟩ := (Infer.to_json_exact (E := (setting defs).S) (.inl ⟨rfl, rfl⟩) (injective defs)
    (show 0 < (setting fun _ => node).S.world.stack by decide)
    (extra_fits o) hw Infer.deadEnd ((setting defs).S.platform.limit + 1) (Nat.lt_succ_self _)).1 hn
  obtain ⟨v, st', h1, h2⟩ := h input a st' hin d w hw
  exact hb v st' h1 h2

/-- A class with an alias. -/
def named : Core Obj :=
  .model "Named".toList ⟨⟨.ignore, false, true, none, none⟩, 7, .never, false⟩
    (.cons "name" ⟨.simple (.ofStr "name"), some (.simple (.ofStr "nm")), some (.choice (.ofStr "nm") (.ofStr "name"))⟩ true none
      (some "nm".toList) none (.leaf str .str) .nil)

/-- A name. -/
def ann : Obj := world.mkModel 7 ⟨[("name", .str "ann".toList)], none, ["name"]⟩

/-- C80 fails with the default arguments for a class with an alias: the field is written under its name and looked up by its
alias. -/
theorem aliased_field_does_not_come_back (same : Obj → Obj → Prop) :
    ¬ AllComeBack (setting fun _ => named) same named (extra ⟨none, false, false⟩) (start none) := by
  refine not_all (n := 0) (json (.obj [("nm".toList, .str "ann".toList)])) ann (.obj [("name".toList, .str "ann".toList)]) ⟨_, rfl⟩
    ?_ (by decide) ?_
  · exact .model rfl rfl (.fields rfl (.field (n := 0) (n' := 0) (t := "name".toList)
      (info := info "name" (some "nm".toList) true none) (.inl rfl) rfl rfl (.str rfl) .nil))
  · intro v st' h
    cases h

/-- A class with an optional number that is 5 by default. -/
def five : Core Obj :=
  .model "Five".toList ⟨⟨.ignore, false, true, none, none⟩, 7, .never, false⟩
    (.cons "n" ⟨.simple (.ofStr "n"), none, none⟩ false (some (.int 5)) none none (.nullable (.leaf int .int)) .nil)

/-- C80 fails with `exclude_none`: a field that is `None`, with another default, comes back as the default. -/
theorem excluded_none_comes_back_as_default :
    ¬ AllComeBack (setting fun _ => five) Eq five (extra ⟨none, true, false⟩) (start none) := by
  refine not_all (n := 0) (json (.obj [("n".toList, .null)])) (world.mkModel 7 ⟨[("n", .none)], none, ["n"]⟩) (.obj []) ⟨_, rfl⟩
    ?_ (by decide) ?_
  · exact .model rfl rfl (.fields rfl (.skipNone rfl rfl .nil))
  · intro v st' h he
    have hv : v = world.mkModel 7 ⟨[("n", .int 5)], none, []⟩ := by
      cases h
      rfl
    subst hv
    cases he with
    | model ha hb h hi hj =>
      cases ha
      cases hb
      generalize hx : decode _ = x at h
      generalize hy : decode _ = y at h
      cases h with
      | both h hs =>
        cases hx
        cases hy
        cases h with
        | null ha hb => cases hb
        | nullable h =>
          cases h with
          | leaf h => cases h
      | default h hs =>
        cases hx
        cases h
      | neither hs =>
        cases hs
        cases hx
    | modelExtra ha hb h hi hj hx =>
      cases ha
      cases hi

/-- `None` or a root model of `None`. -/
def rooted : Core Obj :=
  .nullable (.rootModel "Root".toList 8 .never (.leaf ⟨false, fun _ v => match v with | .none => .ok (.none, .exact) | _ => .error (.other "none_required")⟩ .none))

/-- C80 fails for an optional root model of `None`: an instance is written as `null`, which comes back as `None`. -/
theorem root_model_of_none_comes_back_as_none (same : Obj → Obj → Prop) :
    ¬ AllComeBack (setting fun _ => rooted) same rooted (extra ⟨none, false, false⟩) (start none) := by
  let a := world.mkModel 8 ⟨[("root", .none)], none, ["root"]⟩
  refine not_all (n := 0) a a .null ⟨_, rfl⟩ ?_ (by decide) ?_
  · exact .nullable (by intro h; cases h) (.root (b := .none) rfl (.none rfl))
  · intro v st' h he
    have hv : v = .none := by
      cases h
      rfl
    subst hv
    cases he with
    | null ha hb => cases ha
    | nullable h =>
      cases h with
      | rootModel ha hb => cases hb

/-- A number. -/
def number : Core Obj :=
  .leaf ⟨false, fun _ v => match v with | .float f => .ok (.float f, .exact) | _ => .error (.other "float_type")⟩ (.float .null)

/-- C80 fails for `nan` and the infinities, which are written as `null`. -/
theorem infinity_does_not_come_back (same : Obj → Obj → Prop) :
    ¬ AllComeBack (setting fun _ => number) same number (extra ⟨none, false, false⟩) (start none) := by
  refine not_all (n := 0) (.float (.posInf)) (.float (.posInf)) .null ⟨_, rfl⟩ (.nan rfl (.null (.inr (.inl rfl)))) (by decide) ?_
  intro v st' h
  cases h

end Sample

end PC.Trip
