import Verif.Lemmas.TripTakes
import Verif.Lemmas.TripTuple

/-
Documents back through validators.
-/

namespace PC.Trip
open PC.Infer (Json Text Opts)
open PC.Fields (Dict ExtraBehavior Instance Field FAcc XAcc TAcc ModelFields TypedDict DictView)
open PC.Lookup (LookupKey KeyCollection LookupPath)
open PC.Coll PC.Engine PC.Comb

variable {α : Type}

theorem looksBy_unique {ba bn : Bool} {keys : KeyCollection} {ns ms : List String} (h : LooksBy ba bn keys ns)
    (h' : LooksBy ba bn keys ms) : ns = ms := by
  obtain ⟨k, h1, h2⟩ := h
  obtain ⟨k', h3, h4⟩ := h'
  rw [h1] at h3
  cases h3
  rw [h2] at h4
  exact Option.some.inj h4

/-! ### Fields of a schema and of its validator -/

section
variable (W : World α) (p : ValResult α α) (rf : Nat → Validator α α)

theorem mem_names : ∀ (fs : CoreFields α) {f : Field α}, f ∈ buildFields W p rf fs.val → f.name ∈ fs.names
  | .nil, f, h => by simp [CoreFields.val, buildFields] at h
  | .cons name keys r dflt alias sba s rest, f, h => by
    simp only [CoreFields.val, buildFields] at h
    rcases List.mem_cons.mp h with rfl | h
    · exact .head _
    · exact .tail _ (mem_names rest h)

theorem unlooked {ba bn : Bool} {n : String} : ∀ (fs : CoreFields α), fs.Unlooked ba bn n →
    ∀ f ∈ buildFields W p rf fs.val, ∀ ns, Looks ba bn f ns → n ∉ ns
  | .nil, _, f, h => by simp [CoreFields.val, buildFields] at h
  | .cons name keys r dflt alias sba s rest, hu, f, h => by
    simp only [CoreFields.Unlooked] at hu
    simp only [CoreFields.val, buildFields] at h
    rcases List.mem_cons.mp h with rfl | h
    · exact hu.1
    · exact unlooked rest hu.2 f h

theorem apart {o : Opts} {ba bn : Bool} : ∀ (fs : CoreFields α), fs.KeysOk o ba bn → Apart ba bn (buildFields W p rf fs.val)
  | .nil, _ => by simp [CoreFields.val, buildFields, Apart]
  | .cons name keys r dflt alias sba s rest, h => by
    simp only [CoreFields.KeysOk] at h
    obtain ⟨h1, ⟨ns, h2, _, h3⟩, h4⟩ := h
    simp only [CoreFields.val, buildFields]
    refine ⟨fun g hg => ⟨?_, fun ns' ms hn hm n hin hin' => ?_⟩, apart rest h4⟩
    · intro e
      have e' : name = g.name := e
      exact h1 (e' ▸ mem_names W p rf rest hg)
    · have : ns' = ns := looksBy_unique hn h2
      subst this
      exact unlooked W p rf rest (h3 n hin) g hg ms hm hin'

theorem free_names {n : String} : ∀ (fs : CoreFields α), fs.Free n → n ∉ fs.names
  | .nil, _, h => by cases h
  | .cons name keys r dflt alias sba s rest, hf, h => by
    simp only [CoreFields.Free] at hf
    rcases List.mem_cons.mp h with h | h
    · exact hf.1 h
    · exact free_names rest hf.2.2 h

theorem free_looks {ba bn : Bool} {n : String} : ∀ (fs : CoreFields α), fs.Free n →
    ∀ f ∈ buildFields W p rf fs.val, ∀ ns, Looks ba bn f ns → n ∉ ns
  | .nil, _, f, h => by simp [CoreFields.val, buildFields] at h
  | .cons name keys r dflt alias sba s rest, hf, f, h => by
    simp only [CoreFields.Free] at hf
    simp only [CoreFields.val, buildFields] at h
    rcases List.mem_cons.mp h with rfl | h
    · rintro ns ⟨key, h1, h2⟩
      exact hf.2.1 _ _ key ns h1 h2
    · exact free_looks rest hf.2.2 f h

end

theorem get_nodup {c : Mode} {opn : List Guard.Key} {ba bn total : Bool} {fs : List (Field α)} {xs : List (String × α)}
    {ds : Dict α} {set : List String} (h : FieldsGet c opn ba bn total fs xs ds set) (hap : Apart ba bn fs) :
    (xs.map Prod.fst).Nodup := by
  induction h with
  | nil => exact .nil
  | written hk hm h hs ih => exact List.nodup_cons.mpr ⟨head_found hs hap hk hm, ih hap.2⟩
  | omitted hk hd hs ih => exact ih hap.2
  | absent hk hd hr hs ih => exact ih hap.2

theorem ds_nodup {c : Mode} {opn : List Guard.Key} {ba bn total : Bool} {fs : List (Field α)} {xs : List (String × α)}
    {ds : Dict α} {set : List String} (h : FieldsGet c opn ba bn total fs xs ds set) (hap : Apart ba bn fs) :
    (ds.map Prod.fst).Nodup := by
  induction h with
  | nil => exact .nil
  | written hk hm h hs ih =>
    refine List.nodup_cons.mpr ⟨fun hn => ?_, ih hap.2⟩
    obtain ⟨g, hg, e⟩ := List.mem_map.mp (get_names hs _ hn)
    exact (hap.1 g hg).1 e.symm
  | omitted hk hd hs ih =>
    refine List.nodup_cons.mpr ⟨fun hn => ?_, ih hap.2⟩
    obtain ⟨g, hg, e⟩ := List.mem_map.mp (get_names hs _ hn)
    exact (hap.1 g hg).1 e.symm
  | absent hk hd hr hs ih => exact ih hap.2

/-! ### Objects as dicts -/

section
variable {T : Setting α} {o : Opts}

/-- The entries of an object, by strings. -/
def entriesOf (T : Setting α) (es : List (Text × Json)) : Dict α := es.map fun e => (String.ofList e.1, T.json e.2)

theorem entries_keys (es : List (Text × Json)) : (entriesOf T es).map Prod.fst = (es.map Prod.fst).map String.ofList := by
  simp [entriesOf]

theorem entries_get (n : String) : ∀ es : List (Text × Json),
    Dict.get n (entriesOf T es) = (es.find? fun e => e.1 = n.toList).map fun e => T.json e.2
  | [] => rfl
  | (t, d) :: es => by
    have ih := entries_get n es
    unfold entriesOf at ih
    simp only [entriesOf, List.map_cons, Dict.get, List.find?_cons]
    by_cases h : t = n.toList
    · subst h
      simp
    · have : ¬ String.ofList t = n := fun e => h (by rw [← e, String.toList_ofList])
      simp only [this, if_false, h, decide_false, ih]

theorem find_first (ns : List String) (es : List (Text × Json)) : find T ns es = first ns (entriesOf T es) := by
  simp only [find, first, entries_get, Option.map_map]
  rfl

theorem shows {view : DictView α} {es : List (Text × Json)} (h : ReadsAs T view es) :
    Shows view (fun n => T.key n.toList) (entriesOf T es) := by
  refine ⟨fun key ns hn => ?_, h.attrs, ?_⟩
  · rw [h.get key ns hn, find_first]
  · rw [h.entries]
    simp [entriesOf, Function.comp_def]

theorem texts_nodup {es : List (Text × Json)} (h : ((entriesOf T es).map Prod.fst).Nodup) : (es.map Prod.fst).Nodup := by
  rw [entries_keys] at h
  exact List.Pairwise.of_map String.ofList (fun a b h e => h (e ▸ rfl)) h

/-! ### Extra items, keys, plain data -/

theorem isOf_none {d : Json} {a : α} (h : d.isOf T.S.world a) (hn : T.S.world.shape a = .none) : d = .null := by
  cases d with
  | null => rfl
  | bool b => rw [Infer.Json.isOf, hn] at h; cases h
  | int b => rw [Infer.Json.isOf, hn] at h; cases h
  | float b => rw [Infer.Json.isOf, hn] at h; cases h.1
  | str b => rw [Infer.Json.isOf, hn] at h; cases h
  | arr b => obtain ⟨_, h, _⟩ := h; rw [hn] at h; rcases h with h | h <;> cases h
  | obj b => obtain ⟨_, h, _⟩ := h; rw [hn] at h; cases h

theorem extras_back (hT : Sees T) : ∀ {fs : CoreFields α} {xs : Dict α} {es : List (Text × Json)} {n : Nat},
    DataExtras T o fs xs es n → DataExtras T o fs (entriesOf T es) es n ∧ ∀ e ∈ entriesOf T es, fs.Free e.1
  | _, _, _, _, .nil => ⟨.nil, fun e h => by cases h⟩
  | fs, (name, v) :: xs, _ :: es, _, .cons (d := d) hf hv h hd hs => by
    obtain ⟨h1, h2⟩ := extras_back hT hs
    have := DataExtras.cons hf hv (hT.plain d v hd h) hd h1
    simp only [entriesOf, List.map_cons, String.ofList_toList]
    refine ⟨this, fun e he => ?_⟩
    rcases List.mem_cons.mp he with rfl | he
    · exact hf
    · exact h2 e he
termination_by structural _ _ _ _ h => h

theorem dict_ok {fl : Flags} {kv : Engine.Leaf α} {ks : Infer.Leaf} (hk : KeyTrips T fl kv ks) {s : Core α} :
    ∀ {kvs : List (α × α)} {es : List (Text × Json)} {n : Nat}, DataDict T o kv ks s kvs es n → (es.map Prod.fst).Nodup →
    DictOk T.V.world.hashing kvs
  | [], _, _, _, _ => ⟨fun x h => (by cases h), .nil⟩
  | (k, v) :: kvs, (t, d) :: es, _, .cons ho ht _ hs, hn => by
    simp only [List.map_cons, List.nodup_cons] at hn
    obtain ⟨h1, h2⟩ := dict_ok hk hs hn.2
    have texts : ∀ {kvs : List (α × α)} {es : List (Text × Json)} {n : Nat}, DataDict T o kv ks s kvs es n → ∀ x ∈ kvs,
        ∃ u ∈ es.map Prod.fst, Infer.KeyText T.S (.leaf ks) x.1 u := by
      intro kvs
      induction kvs with
      | nil => intro es n _ x hx; cases hx
      | cons y kvs ih =>
        intro es n h x hx
        cases h with
        | cons ho ht h hs =>
          rcases List.mem_cons.mp hx with rfl | hx
          · exact ⟨_, .head _, ht⟩
          · obtain ⟨u, h1, h2⟩ := ih hs x hx
            exact ⟨u, .tail _ h1, h2⟩
    refine ⟨fun x hx => ?_, List.pairwise_cons.mpr ⟨fun x hx => ?_, h2⟩⟩
    · rcases List.mem_cons.mp hx with rfl | hx
      · exact hk.hash _ _ ht
      · exact h1 x hx
    · obtain ⟨u, h3, h4⟩ := texts hs x hx
      exact hk.differ _ _ _ _ ht h4 (fun e => hn.1 (e ▸ h3))

end

/-! ### Back from the document -/

/-- The names in `__pydantic_fields_set__` after the trip: of the fields those that were in the document. -/
def SetAfter (fs : CoreFields α) (set set' : Option (List String)) (written : List String) : Prop :=
  match set with
  | none => set' = none
  | some _ => ∃ l, set' = some l ∧ (∀ n ∈ written, n ∈ l) ∧ ∀ n ∈ fs.names, n ∈ l → n ∈ written

theorem SetAfter.rest {fs : CoreFields α} {name : String} {keys : KeyCollection} {r : Bool} {dflt : Option α}
    {alias : Option Text} {sba : Option Bool} {s : Core α} {set set' : Option (List String)} {w w' : List String}
    (h : SetAfter (.cons name keys r dflt alias sba s fs) set set' w) (hn : name ∉ fs.names) (hw : w = w' ∨ w = name :: w') :
    SetAfter fs set set' w' := by
  cases set with
  | none => exact h
  | some l =>
    obtain ⟨l', h1, h2, h3⟩ := h
    refine ⟨l', h1, fun n hn => h2 n ?_, fun n hm hl => ?_⟩
    · rcases hw with rfl | rfl
      · exact hn
      · exact .tail _ hn
    · have := h3 n (.tail _ hm) hl
      rcases hw with rfl | rfl
      · exact this
      · rcases List.mem_cons.mp this with e | h
        · exact absurd (e ▸ hm) hn
        · exact h

variable {T : Setting α} {o : Opts} {fl : Flags} {opn : List Guard.Key} {c : Mode}

/-- The arguments of the validation are those of the conditions. -/
def Agrees (c : Mode) (fl : Flags) : Prop :=
  c.strict = fl.strict ∧ c.byAlias = fl.byAlias ∧ c.byName = fl.byName

/-- What is proved of a schema, a document and a validator. -/
def Back (T : Setting α) (o : Opts) (c : Mode) (opn : List Guard.Key) (s : Core α) (v : Validator α α) (d : Json) (n : Nat) :
    Prop :=
  ∃ y, Takes c opn v (T.json d) y ∧ Data T o s y d n ∧ (T.S.world.shape y = .none → d = .null)

/-- The same for the items of a list. -/
def BackAll (T : Setting α) (o : Opts) (c : Mode) (opn : List Guard.Key) (s : Core α) (v : Validator α α) (ds : List Json)
    (n : Nat) : Prop :=
  ∃ ys, All2 (Takes c opn v) (ds.map T.json) ys ∧ DataAll T o s ys ds n ∧ ys.length = ds.length

/-- The same for the items of a tuple: what goes in and what comes out. -/
def BackEach (T : Setting α) (o : Opts) (c : Mode) (opn : List Guard.Key) (s : CoreItems α) (vs : List (Validator α α))
    (ds : List Json) (n : Nat) : Prop :=
  ∃ ps, TakesEach c opn (vs.map titem) ps ∧ ps.map Prod.fst = ds.map T.json ∧ DataEach T o s (ps.map Prod.snd) ds n

/-- The same for the entries of a dict. -/
def BackDict (T : Setting α) (o : Opts) (c : Mode) (opn : List Guard.Key) (kv : Engine.Leaf α) (ks : Infer.Leaf) (s : Core α)
    (v : Validator α α) (es : List (Text × Json)) (n : Nat) : Prop :=
  ∃ kvs, All2 (fun x y => Takes c opn kv.validate x.1 y.1 ∧ Takes c opn v x.2 y.2)
      (es.map fun e => (T.key e.1, T.json e.2)) kvs ∧ DataDict T o kv ks s kvs es n ∧ kvs.length = es.length

/-- The same for fields. -/
def BackFields (T : Setting α) (o : Opts) (c : Mode) (opn : List Guard.Key) (ba bn total : Bool) (set : Option (List String))
    (fs : CoreFields α) (vs : List (Field α)) (es : List (Text × Json)) (n : Nat) : Prop :=
  ∃ ds w, FieldsGet c opn ba bn total vs (entriesOf T es) ds w ∧
    ∀ set', SetAfter fs set set' w → DataFields T o total set' fs ds es n

theorem dataAll_length : ∀ {s : Core α} {xs : List α} {ds : List Json} {n : Nat}, DataAll T o s xs ds n → xs.length = ds.length
  | _, _, _, _, .nil => rfl
  | _, _, _, _, .cons _ hs => by simp [dataAll_length hs]
termination_by structural _ _ _ _ h => h

theorem dataDict_length {kv : Engine.Leaf α} {ks : Infer.Leaf} : ∀ {s : Core α} {kvs : List (α × α)} {es : List (Text × Json)}
    {n : Nat}, DataDict T o kv ks s kvs es n → kvs.length = es.length
  | _, _, _, _, .nil => rfl
  | _, _, _, _, .cons _ _ _ hs => by simp [dataDict_length hs]
termination_by structural _ _ _ _ h => h

theorem getFields_set {ba bn total : Bool} {fs : List (Field α)} {xs : List (String × α)} {ds : Dict α} {w : List String}
    (h : FieldsGet c opn ba bn total fs xs ds w) : ∀ n ∈ w, n ∈ fs.map Field.name := by
  induction h with
  | nil => intro e he; cases he
  | written hk hm h hs ih =>
    intro n hn
    rcases List.mem_cons.mp hn with rfl | hn
    · exact .head _
    · exact .tail _ (ih n hn)
  | omitted hk hd hs ih => exact fun n hn => .tail _ (ih n hn)
  | absent hk hd hr hs ih => exact fun n hn => .tail _ (ih n hn)

theorem back_model (hR : Reads T) (hc : Agrees c fl) (p : ValResult α α) (rf : Nat → Validator α α)
    {name : Text} {cfg : Engine.ModelCfg} {fs : CoreFields α} {set : List String} {es es' : List (Text × Json)} {n : Nat}
    (hok : fs.KeysOk o ((fl.byAlias.or cfg.byAlias).getD true) ((fl.byName.or cfg.byName).getD false))
    (hs : BackFields T o c opn ((fl.byAlias.or cfg.byAlias).getD true) ((fl.byName.or cfg.byName).getD false) true (some set) fs
      (buildFields T.V.world p rf fs.val) es n)
    (hx : ∀ e ∈ entriesOf T es', fs.Free e.1) (hn : (es'.map Prod.fst).Nodup) (ha : es' ≠ [] → cfg.extra = .allow) :
    ∃ ds w, Takes c opn (build T.V.world p rf (Core.model name cfg fs).val) (T.json (.obj (es ++ es')))
        (T.V.world.mkModel cfg.cls ⟨ds, if cfg.extra = .allow then some (entriesOf T es') else none,
          w ++ (entriesOf T es').map Prod.fst⟩) ∧
      DataFields T o true (some (w ++ (entriesOf T es').map Prod.fst)) fs ds es n := by
  obtain ⟨ds, w, h1, h2⟩ := hs
  have hap := apart T.V.world p rf fs hok
  have hfree : ∀ e ∈ entriesOf T es', ∀ f ∈ buildFields T.V.world p rf fs.val, ∀ ns,
      Looks ((fl.byAlias.or cfg.byAlias).getD true) ((fl.byName.or cfg.byName).getD false) f ns → e.1 ∉ ns :=
    fun e he => free_looks T.V.world p rf fs (hx e he)
  have happ : entriesOf T es ++ entriesOf T es' = entriesOf T (es ++ es') := by simp [entriesOf]
  have hnd : ((entriesOf T es ++ entriesOf T es').map Prod.fst).Nodup := by
    rw [List.map_append]
    refine List.nodup_append.mpr ⟨get_nodup h1 hap, ?_, ?_⟩
    · rw [entries_keys]
      exact List.Pairwise.map String.ofList (fun a b h e => h (by simpa using congrArg String.toList e)) hn
    · intro a ha b hb e
      subst e
      obtain ⟨x, hx1, rfl⟩ := List.mem_map.mp ha
      obtain ⟨y, hy1, hy2⟩ := List.mem_map.mp hb
      obtain ⟨f, hf, ns, hl, hm⟩ := get_keys h1 x hx1
      exact hfree y hy1 f hf ns hl (hy2 ▸ hm)
  refine ⟨ds, w, ?_, h2 _ ⟨_, rfl, fun n hn => List.mem_append_left _ hn, fun n hm hl => ?_⟩⟩
  · simp only [Core.val, build]
    refine take_model (c := c) (opn := opn) T.V.world cfg _ _ (hR.source _ _) (fun n => T.key n.toList)
      (fun n => by rw [hR.keyStr, String.ofList_toList]) (fun strict fa => ?_) hnd ?_ ?_ ?_ ?_
    · obtain ⟨view, h3, h4⟩ := hR.fields strict fa (es ++ es') (texts_nodup (T := T) (happ ▸ hnd))
      exact ⟨view, h3, happ ▸ shows h4⟩
    · rw [hc.2.1, hc.2.2]; exact h1
    · rw [hc.2.1, hc.2.2]; exact hap
    · rw [hc.2.1, hc.2.2]; exact hfree
    · intro h
      exact ha (fun e => h (by rw [e]; rfl))
  · rcases List.mem_append.mp hl with h | h
    · exact h
    · obtain ⟨e, he, rfl⟩ := List.mem_map.mp h
      exact absurd hm (free_names fs (hx e he))

mutual
/-- Documents of values come back. -/
theorem back (hR : Reads T) (hT : Sees T) (hd : T.Shared) (hok : ∀ d, (T.defs d).Ok T fl o) (hc : Agrees c fl)
    (f : Nat → Validator α α) (p : ValResult α α) :
    ∀ {s : Core α} {a : α} {d : Json} {n : Nat} (k : Nat), n ≤ k → s.Ok T fl o → Data T o s a d n →
      Back T o c opn s (build T.V.world p (refs { T.V with outOfFuel := f, panic := p } k) s.val) d n
  | _, a, d, _, k, _, _, .any h hn => by
    refine ⟨T.json d, ?_, .any (hT.plain d a hn h) hn, isOf_none (hT.plain d a hn h)⟩
    simp only [Core.val, build]
    exact take_leaf anyLeaf (ex := .lax) rfl
  | .leaf l s, a, d, _, k, _, hk, .leaf hv hw => by
    simp only [Core.Ok] at hk
    obtain ⟨v, ex, h1, h2, h3⟩ := hk a d hv hw
    refine ⟨v, ?_, .leaf ⟨_, _, _, h1⟩ h2, h3⟩
    simp only [Core.val, build]
    exact take_leaf l (ex := ex) (by rw [hc.1]; exact h1)
  | .nullable s, _, _, _, k, _, _, .null h => by
    refine ⟨T.V.world.noneV, ?_, .null hT.none, fun _ => rfl⟩
    simp only [Core.val, build]
    exact take_none ((hR.isNone _).mpr rfl)
  | .nullable s, _, _, _, k, hle, hk, .nullable h hd' hs => by
    simp only [Core.Ok] at hk
    obtain ⟨y, h1, h2, h3⟩ := back hR hT hd hok hc f p k hle hk hs
    refine ⟨y, ?_, .nullable (fun h => hd' (h3 h)) hd' h2, h3⟩
    simp only [Core.val, build]
    exact take_nullable (fun h => hd' ((hR.isNone _).mp h)) h1
  | .list name strict mn mx ff s, _, .arr ds, _, k, hle, hk, .list h hs hmn hmx => by
    simp only [Core.Ok] at hk
    obtain ⟨ys, h1, h2, h3⟩ := backAll hR hT hd hok hc f p k hle hk hs
    have hlen := (dataAll_length hs).trans h3.symm
    refine ⟨T.V.world.mkList ys, ?_, .list (hT.list ys).1 h2 (hlen ▸ hmn) (hlen ▸ hmx), fun h => absurd h (hT.list ys).2⟩
    simp only [Core.val, build]
    refine take_list _ _ rfl (fun strict => ?_) h1 (hlen ▸ hmn) (hlen ▸ hmx)
    obtain ⟨len, py, ex, h4⟩ := hR.list strict ds
    exact ⟨len, py, ex, by rw [List.map_map]; exact h4⟩
  | .dict name strict mn mx kv ks s, _, .obj es, _, k, hle, hk, .dict h hs hn hmn hmx => by
    simp only [Core.Ok] at hk
    obtain ⟨kvs, h1, h2, h3⟩ := backDict hR hT hd hok hc f p k hle hk.1 hk.2 hs
    have hlen := (dataDict_length hs).trans h3.symm
    have hdo := dict_ok hk.1 h2 hn
    refine ⟨T.V.world.mkDict kvs, ?_, .dict (hT.dict kvs hdo).1 h2 hn (hlen ▸ hmn) (hlen ▸ hmx),
      fun h => absurd h (hT.dict kvs hdo).2⟩
    simp only [Core.val, build]
    refine take_dict _ hdo (fun strict => ?_) h1 (hlen ▸ hmn) (hlen ▸ hmx)
    rw [List.map_map]
    exact hR.dict strict es hn
  | .typedDict cfg fs, _, .obj es, _, k, hle, hk, .typedDict h hx hs => by
    simp only [Core.Ok] at hk
    obtain ⟨ds, w, h1, h2⟩ := backFields hR hT hd hok hc f p _ _ k hle hk.1 hk.2 hs
    have hap := apart T.V.world p (refs { T.V with outOfFuel := f, panic := p } k) fs hk.1
    have hnd := get_nodup h1 hap
    have hty := hT.typed ds (ds_nodup h1 hap)
    refine ⟨T.V.world.mkTyped ds, ?_, .typedDict hty.1 hx (h2 none rfl), fun h => absurd h hty.2⟩
    simp only [Core.val, build]
    refine take_typed (total := false) (set := w) (xs := entriesOf T es)
      (typedDictV T.V.world cfg (buildFields T.V.world p (refs { T.V with outOfFuel := f, panic := p } k) fs.val) none)
      (fun n => T.key n.toList) (fun n => ?_) (fun strict => ?_) hnd ?_ ?_
    · show T.V.world.keyOps.str _ = _
      rw [hR.keyStr, String.ofList_toList]
    · obtain ⟨view, h3, h4⟩ := hR.typed strict es (texts_nodup hnd)
      exact ⟨view, h3, shows h4⟩
    · rw [hc.2.1, hc.2.2]; exact h1
    · rw [hc.2.1, hc.2.2]; exact hap
  | .model name cfg fs, _, .obj es, _, k, hle, hk, .model h hx hi hs => by
    simp only [Core.Ok] at hk
    obtain ⟨ds, w, h1, h2⟩ := back_model (name := name) (es' := []) hR hc p _ hk.1
      (backFields hR hT hd hok hc f p _ _ k hle hk.1 hk.2 hs) (fun e he => by cases he) .nil (fun h => absurd rfl h)
    rw [if_neg hx, List.append_nil] at h1
    have hm := hT.made cfg.cls ⟨ds, none, w ++ (entriesOf T []).map Prod.fst⟩
    exact ⟨_, h1, .model hm hx rfl h2, fun h => absurd h (hT.allow _ _ _ hm).2⟩
  | .model name cfg fs, _, .obj _, _, k, hle, hk, .modelExtra h hx hi hs he hn => by
    simp only [Core.Ok] at hk
    obtain ⟨he1, he2⟩ := extras_back hT he
    obtain ⟨ds, w, h1, h2⟩ := back_model (name := name) hR hc p _ hk.1
      (backFields hR hT hd hok hc f p _ _ k (Nat.le_trans (Nat.le_max_left ..) hle) hk.1 hk.2 hs) he2 hn (fun _ => hx)
    rw [if_pos hx] at h1
    exact ⟨_, h1, .modelExtra (hT.made cfg.cls _) hx rfl h2 he1 hn,
      fun h => absurd h (hT.allow _ _ _ (hT.made cfg.cls _)).2⟩
  | .rootModel name cls rv s, _, d, _, k, hle, hk, .rootModel h hi hs => by
    simp only [Core.Ok] at hk
    obtain ⟨y, h1, h2, h3⟩ := back hR hT hd hok hc f p k hle hk hs
    have hm := hT.made cls ⟨[("root", y)], none, if T.V.world.isUndefined (T.json d) then [] else ["root"]⟩
    refine ⟨_, ?_, .rootModel hm rfl h2, fun h => absurd h (hT.allow _ _ _ hm).2⟩
    simp only [Core.val, build]
    exact take_root T.V.world cls rv _ (hR.source _ _) h1
  | .ref r, _, d, _, k + 1, hle, _, .ref hr h => by
    obtain ⟨y, h1, h2, h3⟩ := back hR hT hd hok hc f p k (Nat.le_of_succ_le_succ hle) (hok r) h
    refine ⟨y, ?_, .ref hr h2, h3⟩
    simp only [Core.val, build, refs]
    refine take_ref _ _ (hR.identity d) ?_
    have e : T.V.defs r = (T.defs r).val := congrFun hd.val r
    rw [e]
    exact h1
  | .tuple name strict mn mx ff items, _, .arr ds, _, k, hle, hk, .tuple h hs hmn hmx => by
    simp only [Core.Ok] at hk
    obtain ⟨ps, h1, h2, h3⟩ := backEach hR hT hd hok hc f p k hle hk hs
    have hlen : (ps.map Prod.snd).length = _ := ((dataEach_length h3).symm.trans (dataEach_length hs))
    refine ⟨T.V.world.mkTuple (ps.map Prod.snd), ?_, .tuple (hT.tuple _).1 h3 (hlen ▸ hmn) (hlen ▸ hmx),
      fun h => absurd h (hT.tuple _).2⟩
    simp only [Core.val, build]
    refine take_tuple p _ rfl ps (fun strict => ?_) h1 (hlen ▸ hmn) (hlen ▸ hmx)
    obtain ⟨len, py, ex, h4⟩ := hR.tuple strict ds
    exact ⟨len, py, ex, by rw [h2, List.map_map]; exact h4⟩
  | .tupleVar name strict mn mx ff first s last, _, .arr _, _, k, hle, hk,
      .tupleVar (xs := ws) (ys := us) (zs := zs) (ds := ds) (es := es) (fs := fs) h a1 a2 a3 hmn hmx => by
    simp only [Core.Ok] at hk
    obtain ⟨ps, b1, b2, b3⟩ := backEach hR hT hd hok hc f p k (by omega) hk.1 a1
    obtain ⟨ys, c1, c2, c3⟩ := backAll hR hT hd hok hc f p k (by omega) hk.2.1 a2
    obtain ⟨rs, d1, d2, d3⟩ := backEach hR hT hd hok hc f p k (by omega) hk.2.2 a3
    obtain ⟨qs, e1, e2, e3⟩ := all2_pairs c1
    subst e2
    have hlen : (ps.map Prod.snd ++ (qs.map Prod.snd ++ rs.map Prod.snd)).length = (ws ++ (us ++ zs)).length := by
      rw [List.length_append, List.length_append, ← dataEach_length b3, dataEach_length a1, dataAll_length c2,
        ← dataAll_length a2, ← dataEach_length d3, dataEach_length a3, ← List.length_append, ← List.length_append]
    refine ⟨T.V.world.mkTuple (ps.map Prod.snd ++ (qs.map Prod.snd ++ rs.map Prod.snd)), ?_,
      .tupleVar (hT.tuple _).1 b3 c2 d3 (hlen ▸ hmn) (hlen ▸ hmx), fun h => absurd h (hT.tuple _).2⟩
    simp only [Core.val, build]
    refine take_tupleVar p _ _ _ rfl ps qs rs (fun strict => ?_) b1 e3 d1 (hlen ▸ hmn) (hlen ▸ hmx)
    obtain ⟨len, py, ex, h4⟩ := hR.tuple strict (ds ++ (es ++ fs))
    refine ⟨len, py, ex, ?_⟩
    rw [b2, e1, d2, ← List.map_append, ← List.map_append, List.map_map]
    exact h4
termination_by structural _ _ _ _ _ _ _ h => h
theorem backEach (hR : Reads T) (hT : Sees T) (hd : T.Shared) (hok : ∀ d, (T.defs d).Ok T fl o) (hc : Agrees c fl)
    (f : Nat → Validator α α) (p : ValResult α α) :
    ∀ {s : CoreItems α} {xs : List α} {ds : List Json} {n : Nat} (k : Nat), n ≤ k → s.Ok T fl o → DataEach T o s xs ds n →
      BackEach T o c opn s (buildAll T.V.world p (refs { T.V with outOfFuel := f, panic := p } k) s.val) ds n
  | _, _, _, _, _, _, _, .nil => ⟨[], .nil, rfl, .nil⟩
  | .cons s rest, _, .cons d ds, _, k, hle, hk, .cons h hs => by
    simp only [CoreItems.Ok] at hk
    obtain ⟨y, h1, h2, _⟩ := back hR hT hd hok hc f p k (Nat.le_trans (Nat.le_max_left ..) hle) hk.1 h
    obtain ⟨ps, h3, h4, h5⟩ := backEach hR hT hd hok hc f p k (Nat.le_trans (Nat.le_max_right ..) hle) hk.2 hs
    exact ⟨(T.json d, y) :: ps, .cons h1 h3, by simp [h4], .cons h2 h5⟩
termination_by structural _ _ _ _ _ _ _ h => h
theorem backAll (hR : Reads T) (hT : Sees T) (hd : T.Shared) (hok : ∀ d, (T.defs d).Ok T fl o) (hc : Agrees c fl)
    (f : Nat → Validator α α) (p : ValResult α α) :
    ∀ {s : Core α} {xs : List α} {ds : List Json} {n : Nat} (k : Nat), n ≤ k → s.Ok T fl o → DataAll T o s xs ds n →
      BackAll T o c opn s (build T.V.world p (refs { T.V with outOfFuel := f, panic := p } k) s.val) ds n
  | _, _, _, _, _, _, _, .nil => ⟨[], .nil, .nil, rfl⟩
  | _, _, _, _, k, hle, hk, .cons h hs => by
    obtain ⟨y, h1, h2, _⟩ := back hR hT hd hok hc f p k (Nat.le_trans (Nat.le_max_left ..) hle) hk h
    obtain ⟨ys, h3, h4, h5⟩ := backAll hR hT hd hok hc f p k (Nat.le_trans (Nat.le_max_right ..) hle) hk hs
    exact ⟨y :: ys, .cons h1 h3, .cons h2 h4, by simp [h5]⟩
termination_by structural _ _ _ _ _ _ _ h => h
theorem backDict (hR : Reads T) (hT : Sees T) (hd : T.Shared) (hok : ∀ d, (T.defs d).Ok T fl o) (hc : Agrees c fl)
    (f : Nat → Validator α α) (p : ValResult α α) :
    ∀ {kv : Engine.Leaf α} {ks : Infer.Leaf} {s : Core α} {kvs : List (α × α)} {es : List (Text × Json)} {n : Nat} (k : Nat),
      n ≤ k → KeyTrips T fl kv ks → s.Ok T fl o → DataDict T o kv ks s kvs es n →
      BackDict T o c opn kv ks s (build T.V.world p (refs { T.V with outOfFuel := f, panic := p } k) s.val) es n
  | _, _, _, _, _, _, _, _, _, _, .nil => ⟨[], .nil, .nil, rfl⟩
  | kv, _, _, _, _, _, k, hle, hkt, hk, .cons ho ht h hs => by
    obtain ⟨y, h1, h2, _⟩ := back hR hT hd hok hc f p k (Nat.le_trans (Nat.le_max_left ..) hle) hk h
    obtain ⟨ys, h3, h4, h5⟩ := backDict hR hT hd hok hc f p k (Nat.le_trans (Nat.le_max_right ..) hle) hkt hk hs
    obtain ⟨v, ex, h6, h7⟩ := hkt.trip _ _ ho ht
    exact ⟨(v, y) :: ys, .cons ⟨take_leaf kv (ex := ex) (by rw [hc.1]; exact h6), h1⟩ h3, .cons ⟨_, _, _, h6⟩ h7 h2 h4,
      by simp [h5]⟩
termination_by structural _ _ _ _ _ _ _ _ _ _ h => h
theorem backFields (hR : Reads T) (hT : Sees T) (hd : T.Shared) (hok : ∀ d, (T.defs d).Ok T fl o) (hc : Agrees c fl)
    (f : Nat → Validator α α) (p : ValResult α α) (ba bn : Bool) :
    ∀ {total : Bool} {set : Option (List String)} {fs : CoreFields α} {ds : Dict α} {es : List (Text × Json)} {n : Nat} (k : Nat),
      n ≤ k → fs.KeysOk o ba bn → fs.Ok T fl o → DataFields T o total set fs ds es n →
      BackFields T o c opn ba bn total set fs
        (buildFields T.V.world p (refs { T.V with outOfFuel := f, panic := p } k) fs.val) es n
  | _, _, _, _, _, _, _, _, _, _, .nil => by
    refine ⟨[], [], ?_, fun _ _ => .nil⟩
    simp only [CoreFields.val, buildFields]
    exact .nil
  | total, set, .cons name keys r dflt alias sba s rest, (_, v) :: ds, (_, d) :: es, _, k, hle, hkey, hk, .written hl hd' h hs => by
    simp only [CoreFields.KeysOk, CoreFields.Ok] at hkey hk
    obtain ⟨hn, ⟨ns, hns, hin, _⟩, hkey⟩ := hkey
    obtain ⟨y, h1, h2, h3⟩ := back hR hT hd hok hc f p k (Nat.le_trans (Nat.le_max_left ..) hle) hk.1 h
    obtain ⟨ds', w, h4, h5⟩ := backFields hR hT hd hok hc f p ba bn k (Nat.le_trans (Nat.le_max_right ..) hle) hkey hk.2 hs
    refine ⟨(name, y) :: ds', name :: w, ?_, fun set' hset => ?_⟩
    · simp only [CoreFields.val, buildFields, entriesOf, List.map_cons]
      exact .written (f := field name keys r dflt _) hns hin (take_withDefault h1) h4
    · refine .written (fun hlo => ?_) hd' h2 (h5 set' (hset.rest hn (.inr rfl)))
      rcases hlo with ⟨_, l, hl1, hl2⟩ | ⟨he, hnone⟩
      · cases set with
        | none =>
          have hset' : set' = none := hset
          rw [hset'] at hl1
          cases hl1
        | some l0 =>
          obtain ⟨l', e1, e2, _⟩ := hset
          rw [e1] at hl1
          cases hl1
          exact hl2 (e2 name (.head _))
      · exact hd' he (h3 hnone)
  | total, set, .cons name keys r dflt alias sba s rest, (_, v) :: ds, es, _, k, hle, hkey, hk, .omitted hl hd' hs => by
    simp only [CoreFields.KeysOk, CoreFields.Ok] at hkey hk
    obtain ⟨hn, ⟨ns, hns, hin, _⟩, hkey⟩ := hkey
    obtain ⟨ds', w, h4, h5⟩ := backFields hR hT hd hok hc f p ba bn k hle hkey hk.2 hs
    refine ⟨(name, v) :: ds', w, ?_, fun set' hset => ?_⟩
    · simp only [CoreFields.val, buildFields]
      exact .omitted (f := field name keys r dflt _) hns (fun _ _ => by rw [hd']; rfl) h4
    · refine .omitted ?_ hd' (h5 set' (hset.rest hn (.inl rfl)))
      rcases hl with ⟨hu, l, hl1, hl2⟩ | h
      · subst hl1
        obtain ⟨l', e1, _, e3⟩ := hset
        refine .inl ⟨hu, l', e1, fun hm => ?_⟩
        have hw := e3 name (.head _) hm
        obtain ⟨g, hg, e⟩ := List.mem_map.mp (getFields_set h4 name hw)
        exact hn (e ▸ mem_names _ _ _ rest hg)
      · exact .inr h
  | _, set, .cons name keys _ _ alias sba s rest, ds, es, _, k, hle, hkey, hk, .absent hs => by
    simp only [CoreFields.KeysOk, CoreFields.Ok] at hkey hk
    obtain ⟨hn, ⟨ns, hns, hin, _⟩, hkey⟩ := hkey
    obtain ⟨ds', w, h4, h5⟩ := backFields hR hT hd hok hc f p ba bn k hle hkey hk.2 hs
    refine ⟨ds', w, ?_, fun set' hset => .absent (h5 set' (hset.rest hn (.inl rfl)))⟩
    simp only [CoreFields.val, buildFields]
    exact .absent (f := field name keys false none _) hns (fun _ _ => rfl) rfl h4
termination_by structural _ _ _ _ _ _ _ _ _ _ h => h
end

end PC.Trip
