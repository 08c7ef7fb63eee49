import Verif.Lemmas.EnginePostModel

/-
Outcomes of the validator of a whole schema.
-/

namespace PC.Engine
open PC.Comb PC.Coll PC.Union PC.Fields PC.Lookup
variable {α : Type}

/-- The conditions on each schema of a run; `T` says whether error locations are looked at. -/
def nodeOk (T : Prop) (s : Schema α) : Prop :=
  built s ∧ functionFree s ∧ extrasByName s ∧ (T → variadicLast s)

section
variable (m : Option Bool) (W : World α) (defs : Nat → Schema α) (T : Prop)

/-- What errors of a schema satisfy. -/
def errSpec (s : Schema α) (a : α) (p : List LocItem) (z : α) : Prop := T → Leads W defs s a p z

/-- The specifications of a list of schemas. -/
def itemSpecs : Schemas α → List (ItemSpec α)
  | .nil => []
  | .cons s rest => (Conforms m W defs s, errSpec W defs T s) :: itemSpecs rest

/-- The specifications of members. -/
def memberSpecs : Members α → List (MemberSpec α)
  | .nil => []
  | .cons name label s rest => ⟨name, label, Conforms m W defs s, errSpec W defs T s⟩ :: memberSpecs rest

/-- The specifications of fields. -/
def fieldSpecs : FieldSchemas α → List (FieldSpec α)
  | .nil => []
  | .cons name keys required dflt s rest =>
    ⟨name, keys, required, dflt, Conforms m W defs s, errSpec W defs T s⟩ :: fieldSpecs rest

variable {m W defs T}

theorem mem_itemSpecs : ∀ {ss : Schemas α} {c}, c ∈ itemSpecs m W defs T ss →
    ∃ s, ss.Has s ∧ c = (Conforms m W defs s, errSpec W defs T s)
  | .nil, c, h => by cases h
  | .cons s rest, c, h => by
    rcases List.mem_cons.mp h with h | h
    · exact ⟨s, .inl rfl, h⟩
    · obtain ⟨s', h1, h2⟩ := mem_itemSpecs h
      exact ⟨s', .inr h1, h2⟩

theorem all2_itemSpecs : ∀ {ss : Schemas α} {ys : List α},
    All2 (fun y (c : ItemSpec α) => c.1 y) ys (itemSpecs m W defs T ss) → ConformsAll m W defs ss ys
  | .nil, ys, h => by cases h; exact .nil
  | .cons s rest, ys, h => by
    cases h with
    | cons h1 h2 => exact .cons h1 (all2_itemSpecs h2)

theorem mem_memberSpecs : ∀ {ms : Members α} {c}, c ∈ memberSpecs m W defs T ms →
    ∃ s, ms.Has c.name c.label s ∧ c.out = Conforms m W defs s ∧ c.errs = errSpec W defs T s
  | .nil, c, h => by cases h
  | .cons n l s rest, c, h => by
    rcases List.mem_cons.mp h with h | h
    · subst h; exact ⟨s, .inl ⟨rfl, rfl, rfl⟩, rfl, rfl⟩
    · obtain ⟨s', h1, h2⟩ := mem_memberSpecs h
      exact ⟨s', .inr h1, h2⟩

theorem mem_fieldSpecs : ∀ {fs : FieldSchemas α} {c}, c ∈ fieldSpecs m W defs T fs →
    ∃ s, fs.Has c.name c.keys c.required c.dflt s ∧ c.out = Conforms m W defs s ∧ c.errs = errSpec W defs T s
  | .nil, c, h => by cases h
  | .cons n k r d s rest, c, h => by
    rcases List.mem_cons.mp h with h | h
    · subst h; exact ⟨s, .inl ⟨rfl, rfl, rfl, rfl, rfl⟩, rfl, rfl⟩
    · obtain ⟨s', h1, h2⟩ := mem_fieldSpecs h
      exact ⟨s', .inr h1, h2⟩

theorem has_fieldSpecs : ∀ {fs : FieldSchemas α} {n k r d s}, fs.Has n k r d s →
    ⟨n, k, r, d, Conforms m W defs s, errSpec W defs T s⟩ ∈ fieldSpecs m W defs T fs
  | .nil, _, _, _, _, _, h => h.elim
  | .cons n k r d s rest, _, _, _, _, _, h => by
    rcases h with ⟨rfl, rfl, rfl, rfl, rfl⟩ | h
    · exact List.mem_cons_self ..
    · exact List.mem_cons_of_mem _ (has_fieldSpecs h)

theorem AtInput.out {C : α → Prop} {M : List LocItem → α → Prop} {a : α} {e : ValError α} (h : AtInput a e)
    (hM : M [] a) : Out C M (.error e) := h.outErr hM

theorem AtInput.out' {a : α} {e : ValError α} (h : AtInput a e) :
    Out (fun _ => False) (fun p z => p = [] ∧ z = a) (.error e) := h.out ⟨rfl, rfl⟩

theorem ViewLawful.ok {ops : KeyOps α} {a : α} {view : DictView α} (h : ViewLawful ops a view) : ViewOk ops a view :=
  ⟨h.get, fun e he => (h.entries e he).out', fun es e h1 h2 => (h.entry es e h1 h2).out', h.byName⟩

theorem World.Lawful.strOk (hW : W.Lawful) : StrOk W.keyOps := by
  intro k e he
  have := hW.str k e he
  match e, this with
  | .lineErrors es, h => exact .inr ⟨es, rfl, h⟩
  | .internal x, _ => exact .inl ⟨x, rfl⟩

theorem names_fieldSpecs : ∀ {fs : FieldSchemas α}, (fieldSpecs m W defs T fs).map FieldSpec.name = fs.names
  | .nil => rfl
  | .cons n k r d s rest => by
    simp only [fieldSpecs, List.map_cons, FieldSchemas.names, names_fieldSpecs]

theorem entry_of_typedOk {fields : FieldSchemas α} {cfg : TypedCfg} {d : Dict α} {X : α → Prop}
    (h : TypedOk (fieldSpecs m W defs T fields) (fun v => cfg.extra = .allow ∧ X v) d) :
    ∃ ds xs, d = ds ++ xs ∧ (ds.map Prod.fst).Sublist fields.names ∧ (∀ n v, (n, v) ∈ ds → Entry m W defs fields n v) ∧
      fields.Present ds ∧ ExtraItems cfg fields xs ∧ ∀ n v, (n, v) ∈ xs → X v := by
  obtain ⟨ds, xs, rfl, h1, h2, h3⟩ := h
  refine ⟨ds, xs, rfl, ?_, fun n v hm => ?_, fun n k r dflt s hs hr => ?_,
    ⟨h2, fun n v hm => ⟨(h3 n v hm).2.1, fun k r dd s hh => ?_⟩⟩, fun n v hm => (h3 n v hm).2.2⟩
  · have := h1.order
    rwa [names_fieldSpecs] at this
  · obtain ⟨f, hf, rfl, hv⟩ := h1.entries n v hm
    obtain ⟨s, g1, g2, g3⟩ := mem_fieldSpecs hf
    rcases hv with hv | hv
    · rw [hv] at g1
      exact .default g1
    · rw [g2] at hv
      exact .field g1 hv
  · exact h1.present _ (has_fieldSpecs (m := m) (W := W) (defs := defs) (T := T) hs) hr
  · exact (h3 n v hm).1 _ (has_fieldSpecs (m := m) (W := W) (defs := defs) (T := T) hh) rfl

variable (p : ValResult α α) (rs : Nat → Validator α α)

theorem post_typedDictV (hW : W.Lawful) (cfg : TypedCfg) (fields : FieldSchemas α) (vs : List (Field α))
    (ex : Option (Validator α α)) {C' : α → Prop} {L' : α → List LocItem → α → Prop} {X : α → Prop}
    {LX : α → List LocItem → α → Prop}
    (hb : fields.names.Nodup ∧ ∀ n k r d s, fields.Has n k r d s → ∀ ba bn key, k.select ba bn = .ok key → keyPaths key ≠ [])
    (hn : cfg.extra = .allow → ∀ n k r d s, fields.Has n k r d s → ∀ ba bn key, k.select ba bn = .ok key →
      key = .simple (.ofStr n))
    (hfs : All2 (FieldPost m) vs (fieldSpecs m W defs T fields)) (hX : ExtrasPost m X LX ex)
    (hC : ∀ d, TypedOk (fieldSpecs m W defs T fields) (fun v => cfg.extra = .allow ∧ X v) d → C' (W.mkTyped d))
    (hL : ∀ a p z, (T → Leads W defs (.typedDict cfg fields) a p z) → L' a p z)
    (hval : ∀ strict a view entries k w p z, W.view strict a = .ok view → view.entries = .ok entries →
      .ok (k, w) ∈ entries → LX w p z → L' a (W.keyOps.loc k :: p) z) :
    Post m C' L' (typedDictV W cfg vs ex).validate := by
  refine post_typedDict (typedDictV W cfg vs ex) (fieldSpecs m W defs T fields) hfs hX hW.strOk
    (fun _ a v h => (hW.views _ a v h).ok) (by rw [names_fieldSpecs]; exact hb.1) ?_ ?_ hC (fun a => hL _ _ _ fun _ => .here)
    (fun b a e h => (hW.view b a e h).out (hL _ _ _ fun _ => .here)) ?_ ?_ ?_ ?_ hval
  · intro s hs
    obtain ⟨x, h1, _⟩ := mem_fieldSpecs hs
    exact hb.2 _ _ _ _ _ h1
  · intro he s hs
    obtain ⟨x, h1, _⟩ := mem_fieldSpecs hs
    exact hn he _ _ _ _ _ h1
  · intro s hs b a view ba bn key path hv hk hg hr hd hp
    obtain ⟨x, h1, _⟩ := mem_fieldSpecs hs
    rw [hr, hd] at h1
    exact hL _ _ _ fun _ => .missing hv h1 hk hg hp
  · intro s hs b a view ba bn key path x q z hv hk hg he
    obtain ⟨s', h1, h2, h3⟩ := mem_fieldSpecs hs
    rw [h3] at he
    exact hL _ _ _ fun t => .field hv h1 hk hg (he t)
  · intro b a view entries k w h1 h2 h3
    exact hL _ _ _ fun _ => .invalidKey h1 h2 h3
  · intro b a view entries k w h1 h2 h3 h4
    exact hL _ _ _ fun _ => .forbidden h1 h2 h3 h4

theorem itemSpecs_get : ∀ {ss : Schemas α} {i : Nat} {c}, (itemSpecs m W defs T ss)[i]? = some c →
    ∃ s, ss.at? i = some s ∧ c = (Conforms m W defs s, errSpec W defs T s)
  | .nil, _, _, h => by cases h
  | .cons s rest, 0, c, h => by cases h; exact ⟨s, rfl, rfl⟩
  | .cons s rest, i + 1, c, h => itemSpecs_get (ss := rest) (i := i) h

theorem post_modelV (hW : W.Lawful) (cfg : ModelCfg) (fields : FieldSchemas α) (vs : List (Field α))
    (hb : fields.names.Nodup ∧ ∀ n k r d s, fields.Has n k r d s → ∀ ba bn key, k.select ba bn = .ok key → keyPaths key ≠ [])
    (hfs : All2 (FieldPost m) vs (fieldSpecs m W defs T fields)) :
    Post m (Conforms m W defs (.model cfg fields)) (errSpec W defs T (.model cfg fields))
      (modelRun W cfg.cls (modelV W cfg vs)) := by
  have hpost := post_modelFields (m := m) (L' := errSpec W defs T (.model cfg fields)) (modelFieldsV W cfg vs) rfl rfl
    (fieldSpecs m W defs T fields) hfs hW.strOk hW.fieldViews (by rw [names_fieldSpecs]; exact hb.1) (by
      intro s hs
      obtain ⟨x, h1, _⟩ := mem_fieldSpecs hs
      exact hb.2 _ _ _ _ _ h1) (fun a _ => .here) hW.asFields
    (by
      intro s hs b fa a view ba bn key path hv hk hg hd hp _
      obtain ⟨x, h1, _⟩ := mem_fieldSpecs hs
      rw [hd] at h1
      exact .modelMissing hv h1 hk hg hp)
    (by
      intro s hs b fa a view ba bn key e hv hk hg _
      obtain ⟨x, h1, _⟩ := mem_fieldSpecs hs
      exact .modelUnreadable hv h1 hk hg)
    (by
      intro s hs b fa a view ba bn key path x q z hv hk hg he t
      obtain ⟨s', h1, h2, h3⟩ := mem_fieldSpecs hs
      rw [h3] at he
      exact .modelField hv h1 hk hg (he t))
    (by intro b fa a view entries k w h1 h2 h3 _; exact .modelInvalidKey h1 h2 h3)
    (by intro b fa a view entries k w h1 h2 h3 h4 _; exact .modelForbidden h1 h2 h3 h4)
  refine post_modelRun (L := errSpec W defs T (.model cfg fields)) W cfg.cls _ rfl rfl
    (fun i => i.dict.map Prod.fst = fields.names ∧ (∀ n v, (n, v) ∈ i.dict → Entry m W defs fields n v) ∧
      InstanceExtra cfg fields i.extra) (fun a h => .instance h) ?_ ?_ (fun _ _ _ h => h) ?_ ?_
  · rintro ⟨ds, extra, fs⟩ ⟨h1, h2, h3⟩
    exact .model h1 h2 h3
  · intro a ex st hk
    obtain ⟨k1, o1⟩ := hpost a st hk
    simp only [Cls.ModelV.attrs, modelV]
    generalize (modelFieldsV W cfg vs).validate a st = r at k1 o1
    obtain ⟨r, st1⟩ := r
    dsimp only at k1 o1 ⊢
    cases r with
    | error e => exact ⟨k1, o1⟩
    | ok out =>
      obtain ⟨g1, g2⟩ := o1
      refine ⟨k1, ?_, fun n v hm => ?_, ?_⟩
      · have := g1.order
        rwa [names_fieldSpecs] at this
      · obtain ⟨f, hf, rfl, hv⟩ := g1.entries n v hm
        obtain ⟨s, e1, e2, e3⟩ := mem_fieldSpecs hf
        rcases hv with hv | hv
        · rw [hv] at e1
          exact .default e1
        · rw [e2] at hv
          exact .field e1 hv
      · dsimp only
        cases hx : out.extra with
        | none => rw [hx] at g2; exact g2
        | some xs =>
          rw [hx] at g2
          refine ⟨g2.1, g2.2.1, fun hbn n v hm => ?_⟩
          have := g2.2.2 n v hm (fun s hs => by
            obtain ⟨x, h1, _⟩ := mem_fieldSpecs hs
            exact hbn _ _ _ _ _ h1)
          rwa [names_fieldSpecs] at this
  · intro i e he
    cases he
  · intro a i data hi hd p z hz t
    cases hd
    exact .modelInstance hi (hz t)

mutual
theorem build_post (hW : W.Lawful)
    (hr : ∀ name, Post m (Conforms m W defs (.ref name)) (errSpec W defs T (.ref name)) (rs name)) :
    ∀ s : Schema α, s.All (nodeOk T) → Post m (Conforms m W defs s) (errSpec W defs T s) (build W p rs s)
  | .leaf l, _ => by
    simp only [build]
    exact post_leaf l (fun x y ex h => .leaf h) (fun a _ => .here)
  | .nullable s, h => by
    simp only [build]
    exact post_nullable (build_post hW hr s h.2) .none (fun y hy => .nullable hy) (fun a p z hz t => .nullable (hz t))
  | .list strict mn mx ff item, h => by
    simp only [build]
    exact post_list ⟨strict, none, mn, mx, ff, W.asList, W.mkList⟩ _ (build_post hW hr item h.2)
      (fun ys h1 h2 h3 => .list h1 h2 h3) (fun a _ => .here) (fun b a e he => (hW.asList b a e he).out fun _ => .here)
      (fun b a seq ex i e h1 h2 _ => .listIter h1 h2) (fun b a seq ex i x p z h1 h2 h3 t => .list h1 h2 (h3 t))
  | .set ty strict mn mx ff item, h => by
    simp only [build]
    exact post_set ⟨strict, build W p rs item, mn, mx, ff, ty, W.hashing, W.asSet, W.mkSet⟩ _ (build_post hW hr item h.2)
      (fun _ _ => .here) (fun ys h1 h2 h3 h4 => .set h1 h2 h3 h4) (fun a _ => .here)
      (fun b a e he => (hW.asSet b a e he).out fun _ => .here)
      (fun b a seq ex i e h1 h2 _ => .setIter h1 h2) (fun b a seq ex i x p z h1 h2 h3 t => .set h1 h2 (h3 t))
  | .dict strict mn mx key value, h => by
    simp only [build]
    exact post_dict ⟨strict, build W p rs key, build W p rs value, mn, mx, W.hashing, W.keyLoc, W.asDict, W.mkDict⟩ _ _
      (build_post hW hr key h.2.1) (build_post hW hr value h.2.2) (fun a _ => .here)
      (fun kvs h1 h2 h3 h4 => .dict (fun x hx => (h1 x hx).1) (fun x hx => (h1 x hx).2) h2 h3 h4)
      (fun b a e he => (hW.asDict b a e he).out fun _ => .here)
      (fun b a es e h1 h2 => (hW.dictEntry b a es e h1 h2).out fun _ => .here)
      (fun b a es k w p z h1 h2 h3 t => .dictKey h1 h2 (h3 t))
      (fun b a es k w p z h1 h2 h3 t => .dictValue h1 h2 (h3 t))
  | .tuple strict mn mx ff head, h => by
    simp only [build]
    refine post_tuple _ p (itemSpecs m W defs T head) none (buildAll_post hW hr head h.2) trivial
      (fun ys h1 h2 h3 => .tuple (all2_itemSpecs h1) h2 h3) (fun a _ => .here)
      (fun b a e he => (hW.asTuple b a e he).out fun _ => .here)
      (fun b a seq ex i h1 h2 _ => .tupleMissing h1 h2)
      (fun b a seq ex i e h1 h2 _ => .tupleIter h1 h2) ?_ (fun _ _ h => (by cases h)) (fun _ _ _ h => (by cases h))
    intro c hc b a seq ex i x q z h1 h2 h3 t
    obtain ⟨s, g1, rfl⟩ := mem_itemSpecs hc
    exact .tuple h1 h2 g1 (h3 t)
  | .tupleVar strict mn mx ff head variadic tail, h => by
    simp only [build]
    refine post_tuple _ p (itemSpecs m W defs T head)
      (some ((Conforms m W defs variadic, errSpec W defs T variadic), itemSpecs m W defs T tail))
      (buildAll_post hW hr head h.2.1) ⟨⟨build_post hW hr variadic h.2.2.1, rfl⟩, buildAll_post hW hr tail h.2.2.2⟩
      ?_ (fun a _ => .here)
      (fun b a e he => (hW.asTuple b a e he).out fun _ => .here)
      (fun b a seq ex i h1 h2 _ => .tupleVarMissing h1 h2)
      (fun b a seq ex i e h1 h2 _ => .tupleVarIter h1 h2) ?_ ?_ ?_
    · rintro ys ⟨hs, vs, ts, rfl, h1, h2, h3⟩ h4 h5
      exact .tupleVar (all2_itemSpecs h1) h2 (all2_itemSpecs h3) h4 h5
    · intro c hc b a seq ex i x q z h1 h2 h3 t
      obtain ⟨s, g1, rfl⟩ := mem_itemSpecs hc
      exact .tupleHead h1 h2 g1 (h3 t)
    · intro c cs he b a seq ex i x q z h1 h2 h3 t
      cases he
      exact .tupleVariadic h1 h2 (h3 t)
    · intro c c' cs he a q z t
      have := h.1.2.2.2 t
      simp only [variadicLast] at this
      subst this
      cases he
  | .typedDict cfg fields, h => by
    simp only [build]
    refine post_typedDictV (m := m) (defs := defs) (T := T) hW cfg fields (buildFields W p rs fields) none (X := fun _ => True)
      (LX := fun _ _ _ => False) h.1.1 h.1.2.2.1 (buildFields_post hW hr fields h.2) (fun _ => trivial) ?_
      (fun _ _ _ h => h) (fun _ _ _ _ _ _ _ _ _ _ _ h => h.elim)
    intro d hd
    obtain ⟨ds, xs, rfl, h1, h2, h3, h4, _⟩ := entry_of_typedOk hd
    exact .typedDict h1 h2 h3 h4
  | .typedDictExtras cfg fields extras, h => by
    simp only [build]
    refine post_typedDictV (m := m) (defs := defs) (T := T) hW cfg fields (buildFields W p rs fields) (some (build W p rs extras))
      (X := Conforms m W defs extras) (LX := errSpec W defs T extras) h.1.1 h.1.2.2.1
      (buildFields_post hW hr fields h.2.1) (build_post hW hr extras h.2.2) ?_
      (fun _ _ _ h t => .extras (h t)) (fun b a view es k w q z h1 h2 h3 h4 t => .extra h1 h2 h3 (h4 t))
    intro d hd
    obtain ⟨ds, xs, rfl, h1, h2, h3, h4, h5⟩ := entry_of_typedOk hd
    exact .typedDictExtras h1 h2 h3 h4 h5
  | .union ltr ce members, h => by
    have h2 := buildMembers_post hW hr members h.2
    have hne : buildMembers W p rs members ≠ [] ∨ ce ≠ none := by
      left
      cases members with
      | nil => exact absurd rfl h.1.1
      | cons n l s rest => simp only [buildMembers]; exact List.cons_ne_nil _ _
    have hC : ∀ s ∈ memberSpecs m W defs T members, ∀ y, s.out y → Conforms m W defs (.union ltr ce members) y := by
      intro s hs y hy
      obtain ⟨x, g1, g2, _⟩ := mem_memberSpecs hs
      rw [g2] at hy
      exact .union g1 hy
    have hM : ce = none → ∀ s ∈ memberSpecs m W defs T members, ∀ a q z, s.errs a q z →
        errSpec W defs T (.union ltr ce members) a (.s (s.label.getD s.name) :: q) z := by
      intro hce s hs a q z hz t
      obtain ⟨x, g1, _, g3⟩ := mem_memberSpecs hs
      rw [g3] at hz
      subst hce
      exact .union g1 (hz t)
    simp only [build]
    cases ltr with
    | true => exact post_leftToRight _ _ ce h2 hne hC (fun a _ _ => .here) hM
    | false => exact post_smart _ _ ce h2 hne hC (fun a _ _ => .here) hM
  | .tagged cfg choices, h => by
    simp only [build]
    refine post_tagged W hW cfg _ (itemSpecs m W defs T choices) (buildAll_post hW hr choices h.2) (fun a _ => .here) ?_ ?_
    · intro c hc y hy
      obtain ⟨s, g1, rfl⟩ := mem_itemSpecs hc
      exact .tagged g1 hy
    · intro b fa a tag item i c q z h1 h2 h3 h4 t
      obtain ⟨s, g1, rfl⟩ := itemSpecs_get h3
      exact .tagged h1 h2 g1 (h4 t)
  | .model cfg fields, h => by
    simp only [build]
    exact post_modelV hW cfg fields _ h.1.1 (buildFields_post hW hr fields h.2)
  | .rootModel cls rv root, h => by
    simp only [build]
    exact post_rootModel W cls rv (build_post hW hr root h.2) (fun a h => .rootInstance h) (fun x y hy => .rootModel hy)
      (fun a q z hz t => .rootModel (hz t)) (fun a i x h1 h2 q z hz t => .rootInstance h1 h2 (hz t))
  | .before f s, h => h.1.2.1.elim
  | .after f s, h => h.1.2.1.elim
  | .wrap f s, h => h.1.2.1.elim
  | .customError ty s, h => by
    simp only [build]
    exact post_customError ty (build_post hW hr s h.2) (fun y hy => .customError hy) (fun a _ => .here)
  | .laxOrStrict strict lax strictS, h => by
    simp only [build]
    exact post_laxOrStrict strict (build_post hW hr lax h.2.1) (build_post hW hr strictS h.2.2)
      (fun hm y hy => .lax hm hy) (fun y hy => .strict hy) (fun _ a q z hz t => .lax (hz t))
      (fun a q z hz t => .strict (hz t))
  | .ref name, _ => by
    simp only [build]
    exact hr name
theorem buildAll_post (hW : W.Lawful)
    (hr : ∀ name, Post m (Conforms m W defs (.ref name)) (errSpec W defs T (.ref name)) (rs name)) :
    ∀ ss : Schemas α, ss.All (nodeOk T) →
      All2 (ItemPost m) ((buildAll W p rs ss).map titem) (itemSpecs m W defs T ss)
  | .nil, _ => by simp only [buildAll]; exact .nil
  | .cons s rest, h => by
    simp only [buildAll]
    exact .cons ⟨build_post hW hr s h.1, rfl⟩ (buildAll_post hW hr rest h.2)
theorem buildMembers_post (hW : W.Lawful)
    (hr : ∀ name, Post m (Conforms m W defs (.ref name)) (errSpec W defs T (.ref name)) (rs name)) :
    ∀ ss : Members α, ss.All (nodeOk T) → All2 (ChoicePost m) (buildMembers W p rs ss) (memberSpecs m W defs T ss)
  | .nil, _ => by simp only [buildMembers]; exact .nil
  | .cons n l s rest, h => by
    simp only [buildMembers]
    exact .cons ⟨rfl, rfl, build_post hW hr s h.1⟩ (buildMembers_post hW hr rest h.2)
theorem buildFields_post (hW : W.Lawful)
    (hr : ∀ name, Post m (Conforms m W defs (.ref name)) (errSpec W defs T (.ref name)) (rs name)) :
    ∀ ss : FieldSchemas α, ss.All (nodeOk T) → All2 (FieldPost m) (buildFields W p rs ss) (fieldSpecs m W defs T ss)
  | .nil, _ => by simp only [buildFields]; exact .nil
  | .cons n k r d s rest, h => by
    simp only [buildFields]
    exact .cons ⟨rfl, rfl, rfl, rfl, post_withDefault d (build_post hW hr s h.1)⟩ (buildFields_post hW hr rest h.2)
end

end

theorem refs_post {m : Option Bool} (E : Env α) (T : Prop) (hW : E.world.Lawful)
    (hdefs : ∀ name, (E.defs name).All (nodeOk T))
    (hfuel : ∀ name, Post m (Conforms m E.world E.defs (.ref name)) (errSpec E.world E.defs T (.ref name)) (E.outOfFuel name))
    (hpanic : ∃ e, E.panic = .error (.internal e)) :
    ∀ n name, Post m (Conforms m E.world E.defs (.ref name)) (errSpec E.world E.defs T (.ref name)) (refs E n name) := by
  intro n
  induction n with
  | zero => exact hfuel
  | succ n ih =>
    intro name
    obtain ⟨e, he⟩ := hpanic
    exact post_definitionRef E name (build_post E.panic (refs E n) hW ih (E.defs name) (hdefs name))
      (fun y hy => .ref hy) (fun a q z hz t => .ref (hz t)) (fun a _ => .here) (fun a => by rw [he]; trivial)

/-- Every outcome of a run that ends. -/
theorem endsWith_out {m : Option Bool} (E : Env α) (T : Prop) (hW : E.world.Lawful)
    (hdefs : ∀ name, (E.defs name).All (nodeOk T)) (s : Schema α) (hs : s.All (nodeOk T)) (a : α) (st : VState α)
    (hk : Keeps m st) (N : Nat) (r : ValResult α α × VState α) (h : EndsWith E N s a st r) :
    Keeps m r.2 ∧ Out (Conforms m E.world E.defs s) (errSpec E.world E.defs T s a) r.1 := by
  have := h N (fun _ a st => (.error (.new .recursionLoop a), st)) (.error (.internal ⟨"panic"⟩)) (Nat.le_refl _)
  rw [← this]
  exact build_post _ _ hW (refs_post { E with
      outOfFuel := fun _ a st => (.error (.new .recursionLoop a), st), panic := .error (.internal ⟨"panic"⟩) } T hW hdefs
    (fun name a st hk => ⟨hk, Out.new fun _ => .here⟩) ⟨_, rfl⟩ N) s hs a st hk

end PC.Engine
