import Verif.Props.Dataclass

/-
C71: assignment to an attribute of a dataclass instance.  C72: dataclass instances as inputs, and
the construction of instances.

Both are partial; what goes wrong otherwise is at the end of each part.
-/

namespace PC.Dc
open PC.Lookup PC.Fields PC.Args
variable {α : Type}

/-! ### Reading an instance -/

theorem nodup_set (k : String) (v : α) : ∀ {d : Dict α}, (d.map Prod.fst).Nodup →
    ((d.set k v).map Prod.fst).Nodup
  | [], _ => by simp [Dict.set]
  | (k', v') :: rest, h => by
    rw [List.map_cons, List.nodup_cons] at h
    unfold Dict.set
    by_cases hk : k' = k
    · rw [if_pos hk, List.map_cons, List.nodup_cons, ← hk]
      exact h
    · rw [if_neg hk, List.map_cons, List.nodup_cons]
      refine ⟨fun hm => ?_, nodup_set k v h.2⟩
      rcases (Dict.keys_set k v rest k').1 hm with h1 | h1
      · exact hk h1
      · exact h.1 h1

theorem readFields_spec (c : Dc α) (attrs : Dict α) : ∀ (ns : List String) (dict d : Dict α),
    c.readFields attrs ns dict = .ok d →
    (∀ n ∈ ns, (c.getAttr attrs n).isSome = true) ∧
    (∀ k, d.get k = if k ∈ ns then c.getAttr attrs k else dict.get k) ∧
    ((dict.map Prod.fst).Nodup → (d.map Prod.fst).Nodup)
  | [], dict, d, h => by
    simp only [Dc.readFields, Except.ok.injEq] at h
    subst h
    exact ⟨fun _ h => (by cases h), fun k => (by simp), id⟩
  | n :: ns, dict, d, h => by
    rw [Dc.readFields] at h
    cases hg : c.getAttr attrs n with
    | none => rw [hg] at h; cases h
    | some v =>
      rw [hg] at h
      obtain ⟨h1, h2, h3⟩ := readFields_spec c attrs ns _ d h
      refine ⟨?_, ?_, fun hn => h3 ?_⟩
      · intro m hm
        rcases List.mem_cons.1 hm with rfl | hm
        · rw [hg]; rfl
        · exact h1 m hm
      · intro k
        rw [h2 k]
        by_cases hk : k ∈ ns
        · rw [if_pos hk, if_pos (List.mem_cons_of_mem _ hk)]
        · rw [if_neg hk, Dict.get_set]
          by_cases hkn : n = k
          · subst hkn
            rw [if_pos rfl, if_pos (List.mem_cons_self ..), hg]
          · rw [if_neg hkn, if_neg]
            intro hm
            rcases List.mem_cons.1 hm with rfl | hm
            · exact hkn rfl
            · exact hk hm
      · exact nodup_set n v hn

theorem readFields_ok (c : Dc α) (attrs : Dict α) : ∀ (ns : List String) (dict : Dict α),
    (∀ n ∈ ns, (c.getAttr attrs n).isSome = true) → ∃ d, c.readFields attrs ns dict = .ok d
  | [], dict, _ => ⟨dict, rfl⟩
  | n :: ns, dict, h => by
    have := h n (List.mem_cons_self ..)
    rw [Dc.readFields]
    cases hg : c.getAttr attrs n with
    | none => rw [hg] at this; cases this
    | some v => exact readFields_ok c attrs ns _ fun m hm => h m (List.mem_cons_of_mem _ hm)

/-! ### C71 -/

/-- **C71**.  An assignment that is rejected leaves the instance as it was. -/
theorem dataclass_assign_rejected_keeps (c : Dc α) (attrs : Dict α) (name : String) (value : α)
    (st : VState α) (e : ValError α) (h : (c.validateAssignment attrs name value st).1 = .error e) :
    (c.validateAssignment attrs name value st).2.1 = attrs := by
  unfold Dc.validateAssignment at h ⊢
  by_cases hf : c.frozen = true
  · rw [if_pos hf]
  rw [if_neg hf] at h ⊢
  cases ht : c.toDict attrs with
  | error e => rfl
  | ok d =>
    rw [ht] at h
    dsimp only at h ⊢
    cases hr : (c.args.validateAssignment (d.set name value) name value st).1 with
    | error e => rfl
    | ok dict =>
      rw [hr] at h
      dsimp only at h ⊢
      cases hs : c.slots with
      | none => rw [hs] at h; cases h
      | some names =>
        rw [hs] at h
        dsimp only at h ⊢
        cases hg : dict.get name with
        | none => rfl
        | some v =>
          rw [hg] at h
          dsimp only at h ⊢
          unfold setSlot at h ⊢
          by_cases hm : name ∈ names
          · rw [if_pos hm] at h
            cases h
          · rw [if_neg hm]

/-- **C71**.  Nothing can be assigned to a frozen instance, nor to a frozen field. -/
theorem dataclass_assign_frozen (c : Dc α) (attrs : Dict α) (name : String) (value : α)
    (st : VState α) (hd : (c.args.fields.map DcField.name).Nodup)
    (h : c.frozen = true ∨ ∃ f ∈ c.args.fields, f.name = name ∧ f.frozen = true) :
    ∃ e, (c.validateAssignment attrs name value st).1 = .error e := by
  unfold Dc.validateAssignment
  cases hf : c.frozen with
  | true => exact ⟨_, rfl⟩
  | false =>
    rcases h with h | ⟨f, h1, h2, h3⟩
    · rw [hf] at h; cases h
    rw [if_neg (by simp)]
    cases ht : c.toDict attrs with
    | error e => exact ⟨_, rfl⟩
    | ok d =>
      dsimp only
      have hfind : c.args.fields.find? (fun f => f.name = name) = some f := by
        obtain ⟨as, bs, he⟩ := List.append_of_mem h1
        rw [List.find?_eq_some_iff_append]
        refine ⟨by simpa using h2, as, bs, he, fun a ha => ?_⟩
        rw [he, List.map_append, List.nodup_append] at hd
        have := hd.2.2 a.name (List.mem_map.2 ⟨a, ha, rfl⟩) f.name (by simp)
        rw [h2] at this
        simpa using this
      unfold DcArgs.validateAssignment
      rw [hfind]
      dsimp only
      rw [if_pos h3]
      exact ⟨_, rfl⟩

/-- **C71**.  An assignment that is accepted sets that attribute, to the output of the field's
validator (which is shown the other fields), or to the value given if there is no such field and
extra ones are allowed; and it changes no other attribute.  Partial: the instance of a class
without slots must have no attributes besides its fields. -/
theorem dataclass_assign_accepted_partial (c : Dc α) (attrs : Dict α) (name : String) (value : α)
    (st : VState α) (hx : c.slots = none → ∀ k ∈ attrs.map Prod.fst, k ∈ c.fields)
    (h : (c.validateAssignment attrs name value st).1 = .ok ()) :
    c.frozen = false ∧ ∃ v, c.getAttr (c.validateAssignment attrs name value st).2.1 name = some v ∧
      (∀ k, k ≠ name → c.getAttr (c.validateAssignment attrs name value st).2.1 k = c.getAttr attrs k) ∧
      ((∃ f ∈ c.args.fields, f.name = name ∧ f.frozen = false ∧
          ∃ st data, c.Others attrs name data ∧ st.extra.data = some data ∧
            st.extra.fieldName = some name ∧ (f.run value st).1 = .ok v) ∨
        ((∀ f ∈ c.args.fields, f.name ≠ name) ∧ c.args.extra = .allow ∧ v = value)) := by
  unfold Dc.validateAssignment at h ⊢
  split at h
  · cases h
  rename_i hf
  rw [if_neg hf]
  refine ⟨by simpa using hf, ?_⟩
  cases ht : c.toDict attrs with
  | error e => rw [ht] at h; cases h
  | ok d =>
    rw [ht] at h
    dsimp only at h ⊢
    obtain ⟨hr1, hr2, -⟩ := readFields_spec c attrs c.fields [] d ht
    cases hr : (c.args.validateAssignment (d.set name value) name value st).1 with
    | error e => rw [hr] at h; cases h
    | ok dict =>
      rw [hr] at h
      dsimp only at h ⊢
      have key : ∃ v, (∀ k, dict.get k = if name = k then some v else d.get k) ∧
          ((∃ f ∈ c.args.fields, f.name = name ∧ f.frozen = false ∧
            ∃ st data, c.Others attrs name data ∧ st.extra.data = some data ∧
            st.extra.fieldName = some name ∧ (f.run value st).1 = .ok v) ∨
          ((∀ f ∈ c.args.fields, f.name ≠ name) ∧ c.args.extra = .allow ∧ v = value)) := by
        unfold DcArgs.validateAssignment at hr
        cases hfi : c.args.fields.find? (fun f => f.name = name) with
        | none =>
          rw [hfi] at hr
          dsimp only at hr
          cases hex : c.args.extra with
          | allow =>
            rw [hex] at hr
            cases hr
            refine ⟨value, fun k => ?_, Or.inr ⟨?_, rfl, rfl⟩⟩
            · rw [Dict.get_set, Dict.get_set]
              split <;> rfl
            · intro f hfm
              simpa using List.find?_eq_none.1 hfi f hfm
          | ignore => rw [hex] at hr; cases hr
          | forbid => rw [hex] at hr; cases hr
        | some f =>
          rw [hfi] at hr
          dsimp only at hr
          have hfn : f.name = name := by simpa using List.find?_some hfi
          cases hfr : f.frozen with
          | true => rw [hfr, if_pos rfl] at hr; cases hr
          | false =>
            rw [hfr, if_neg (by simp)] at hr
            unfold rebindExtra at hr
            dsimp only at hr
            split at hr
            · rename_i v hv
              cases hr
              refine ⟨v, fun k => ?_, Or.inl ⟨f, List.mem_of_find?_eq_some hfi, hfn, hfr, _, _,
                ?_, rfl, congrArg some hfn, hv⟩⟩
              · rw [Dict.get_set, Dict.get_set]
                split <;> rfl
              · intro k
                rw [Dict.get_del, Dict.get_set, hr2 k]
                by_cases hk : name = k
                · rw [if_pos hk, if_pos (Or.inl hk.symm)]
                · rw [if_neg hk, if_neg hk]
                  by_cases hkf : k ∈ c.fields
                  · rw [if_pos hkf, if_neg]
                    rintro (h | h)
                    · exact hk h.symm
                    · exact h hkf
                  · rw [if_neg hkf, if_pos (Or.inr hkf)]
                    rfl
            · cases hr
            · cases hr
      obtain ⟨v, hv1, hv2⟩ := key
      have hvn : dict.get name = some v := by rw [hv1, if_pos rfl]
      cases hs : c.slots with
      | none =>
        rw [hs] at h
        dsimp only at h ⊢
        refine ⟨v, ?_, ?_, hv2⟩
        · unfold Dc.getAttr
          rw [hvn]
          rfl
        · intro k hk
          show (dict.get k).or (c.classAttr k) = _
          rw [hv1, if_neg (Ne.symm hk), hr2 k]
          by_cases hkf : k ∈ c.fields
          · rw [if_pos hkf]
            have := hr1 k hkf
            cases hg : c.getAttr attrs k with
            | none => rw [hg] at this; cases this
            | some w => rfl
          · rw [if_neg hkf]
            have : attrs.get k = none := by
              rw [Dict.get_eq_none]
              exact fun hm => hkf (hx hs k hm)
            unfold Dc.getAttr
            rw [this]
            rfl
      | some names =>
        rw [hs] at h
        dsimp only at h ⊢
        rw [hvn] at h ⊢
        dsimp only at h ⊢
        unfold setSlot at h ⊢
        by_cases hm : name ∈ names
        · rw [if_pos hm]
          refine ⟨v, ?_, ?_, hv2⟩
          · unfold Dc.getAttr
            show ((attrs.set name v).get name).or _ = _
            rw [Dict.get_set, if_pos rfl]
            rfl
          · intro k hk
            unfold Dc.getAttr
            show ((attrs.set name v).get k).or _ = _
            rw [Dict.get_set, if_neg (Ne.symm hk)]
        · rw [if_neg hm] at h
          cases h

/-- **C71**.  An assignment of a value that the field's validator accepts is accepted.  Partial:
every field of the instance must be set. -/
theorem dataclass_assign_valid_partial (c : Dc α) (attrs : Dict α) (name : String) (value : α)
    (st : VState α) (hd : (c.args.fields.map DcField.name).Nodup) (hf : c.frozen = false)
    (hset : ∀ n ∈ c.fields, (c.getAttr attrs n).isSome = true)
    (hslot : ∀ names, c.slots = some names → name ∈ names)
    (f : DcField α) (hm : f ∈ c.args.fields) (hn : f.name = name) (hff : f.frozen = false)
    (hv : ∀ st, ∃ w, (f.run value st).1 = .ok w) :
    (c.validateAssignment attrs name value st).1 = .ok () := by
  unfold Dc.validateAssignment
  rw [if_neg (by simp [hf])]
  obtain ⟨d, ht⟩ : ∃ d, c.toDict attrs = .ok d := readFields_ok c attrs c.fields [] hset
  rw [ht]
  dsimp only
  have hfind : c.args.fields.find? (fun f => f.name = name) = some f := by
    obtain ⟨as, bs, he⟩ := List.append_of_mem hm
    rw [List.find?_eq_some_iff_append]
    refine ⟨by simpa using hn, as, bs, he, fun a ha => ?_⟩
    rw [he, List.map_append, List.nodup_append] at hd
    have := hd.2.2 a.name (List.mem_map.2 ⟨a, ha, rfl⟩) f.name (by simp)
    rw [hn] at this
    simpa using this
  have : ∃ dict w, (c.args.validateAssignment (d.set name value) name value st).1 = .ok dict ∧
      dict.get name = some w := by
    unfold DcArgs.validateAssignment
    rw [hfind]
    dsimp only
    rw [hff, if_neg (by simp)]
    unfold rebindExtra
    dsimp only
    obtain ⟨w, hw⟩ := hv { st with extra := { st.extra with
      data := some ((d.set name value).del name), fieldName := some f.name } }
    rw [hw]
    exact ⟨_, w, rfl, by rw [Dict.get_set, if_pos rfl]⟩
  obtain ⟨dict, w, hr, hw⟩ := this
  rw [hr]
  dsimp only
  cases hs : c.slots with
  | none => rfl
  | some names =>
    dsimp only
    rw [hw]
    dsimp only
    unfold setSlot
    rw [if_pos (hslot names hs)]

/-! ### C72 -/

/-- **C72**.  An instance of the class is returned as it is, and nothing is run, unless instances
(or instances of subclasses) are to be revalidated. -/
theorem dataclass_instance_kept (c : Dc α) (mkDict : Dict α → α) (python : Bool)
    (attrs : Dict α) (input : α) (st : VState α) :
    (c.revalidate ≠ .always → c.validate mkDict python (.exact attrs) input st = (.ok .same, st)) ∧
    (c.revalidate = .never →
      c.validate mkDict python (.subclass attrs) input st = (.ok .same, st)) := by
  constructor
  · intro h
    unfold Dc.validate Revalidate.should
    cases hr : c.revalidate with
    | always => exact absurd hr h
    | never => rfl
    | subclassInstances => rfl
  · intro h
    unfold Dc.validate Revalidate.should
    rw [h]
    rfl

/-- **C72**.  In strict mode a Python input that is no instance is rejected. -/
theorem dataclass_strict (c : Dc α) (mkDict : Dict α → α) (input : α) (st : VState α)
    (h : st.strictOr c.strict = true) :
    c.validate mkDict true .other input st = (.error (.new c.exactType input), st) := by
  unfold Dc.validate
  rw [h]
  rfl

theorem setSlots_spec (names : List String) : ∀ (new attrs : Dict α),
    ((setSlots names new attrs).1 = .ok () ↔ ∀ k ∈ new.map Prod.fst, k ∈ names) ∧
    ((setSlots names new attrs).1 = .ok () →
      (setSlots names new attrs).2 = new.foldl (fun d kv => Dict.set kv.1 kv.2 d) attrs)
  | [], attrs => by simp [setSlots]
  | (k, v) :: rest, attrs => by
    simp only [setSlots, setSlot]
    by_cases hk : k ∈ names
    · simp only [if_pos hk, List.map_cons, List.mem_cons, List.foldl_cons]
      obtain ⟨h1, h2⟩ := setSlots_spec names rest (attrs.set k v)
      refine ⟨?_, h2⟩
      rw [h1]
      constructor
      · rintro h k' (rfl | hk')
        · exact hk
        · exact h k' hk'
      · exact fun h k' hk' => h k' (Or.inr hk')
    · simp only [if_neg hk]
      refine ⟨⟨fun h => (by cases h), fun h => absurd (h k ?_) hk⟩, fun h => (by cases h)⟩
      rw [List.map_cons]
      exact List.mem_cons_self ..

theorem setDictCall_spec (c : Dc α) (old : Dict α) (out : DcOut α)
    (h : (c.setDictCall old out).1 = .ok ()) :
    ∃ before, c.Replaced old out.dict before ∧
      c.PostInit out.initOnly before (c.setDictCall old out).2 := by
  unfold Dc.setDictCall at h ⊢
  unfold Dc.Replaced Dc.PostInit
  cases hs : c.slots with
  | none =>
    rw [hs] at h
    dsimp only at h ⊢
    refine ⟨out.dict, rfl, ?_⟩
    cases hp : c.postInit with
    | none => rfl
    | some f =>
      rw [hp] at h
      exact Prod.ext h rfl
  | some names =>
    rw [hs] at h
    dsimp only at h ⊢
    obtain ⟨h1, h2⟩ := setSlots_spec names out.dict old
    cases hr : (setSlots names out.dict old).1 with
    | error e => rw [hr] at h; cases h
    | ok u =>
      rw [hr] at h
      dsimp only at h ⊢
      refine ⟨(setSlots names out.dict old).2, ⟨h1.1 hr, fun k => ?_⟩, ?_⟩
      · rw [h2 hr, Dict.get_foldl_set]
        rfl
      · cases hp : c.postInit with
        | none => rfl
        | some f =>
          rw [hp] at h
          exact Prod.ext h rfl

/-- **C72**.  `__init__` of an instance: if it succeeds, the arguments were accepted; the
attributes made of them replace the attributes of the instance; then `__post_init__` is called
with the init-only values. -/
theorem dataclass_init (c : Dc α) (attrs attrs' : Dict α) (input : α) (st st' : VState α)
    (h : c.validateInit attrs input st = (.ok (), attrs', st')) :
    ∃ out before, (c.args.validate input st).1 = .ok out ∧ c.Replaced attrs out.dict before ∧
      c.PostInit out.initOnly before attrs' := by
  unfold Dc.validateInit at h
  dsimp only at h
  cases hr : (c.args.validate input st).1 with
  | error e => rw [hr] at h; cases h
  | ok out =>
    rw [hr] at h
    dsimp only at h
    have h1 : (c.setDictCall attrs out).1 = .ok () := congrArg Prod.fst h
    have h2 : (c.setDictCall attrs out).2 = attrs' := congrArg (·.2.1) h
    obtain ⟨before, g1, g2⟩ := setDictCall_spec c attrs out h1
    rw [h2] at g2
    exact ⟨out, before, rfl, g1, g2⟩

/-- **C72**.  `__init__` with arguments that are rejected leaves the instance as it was. -/
theorem dataclass_init_rejected_keeps (c : Dc α) (attrs : Dict α) (input : α) (st : VState α)
    (e : ValError α) (h : (c.args.validate input st).1 = .error e) :
    c.validateInit attrs input st = (.error e, attrs, (c.args.validate input st).2) := by
  unfold Dc.validateInit
  dsimp only
  rw [h]

/-- **C72**.  Without slots and `__post_init__`, an `__init__` that fails leaves the instance as it
was. -/
theorem dataclass_init_failed_keeps_partial (c : Dc α) (attrs : Dict α) (input : α) (st : VState α)
    (hs : c.slots = none) (hp : c.postInit = none)
    (e : ValError α) (h : (c.validateInit attrs input st).1 = .error e) :
    (c.validateInit attrs input st).2.1 = attrs := by
  unfold Dc.validateInit at h ⊢
  dsimp only at h ⊢
  cases hr : (c.args.validate input st).1 with
  | error e => rfl
  | ok out =>
    rw [hr] at h
    unfold Dc.setDictCall at h
    rw [hs, hp] at h
    cases h

/-- **C72**.  An input that is no instance makes a new instance with the attributes made of the
arguments, as left by `__post_init__`. -/
theorem dataclass_new (c : Dc α) (mkDict : Dict α → α) (python : Bool) (input : α)
    (st st' : VState α) (m : Made α)
    (h : c.validate mkDict python .other input st = (.ok m, st')) :
    ∃ out before after, (c.args.validate input st).1 = .ok out ∧ m = .fresh after ∧
      c.Replaced [] out.dict before ∧ c.PostInit out.initOnly before after := by
  unfold Dc.validate at h
  dsimp only at h
  split at h
  · cases h
  cases hr : (c.args.validate input st).1 with
  | error e => rw [hr] at h; cases h
  | ok out =>
    rw [hr] at h
    dsimp only at h
    have h1 : c.make out = .ok m := congrArg Prod.fst h
    unfold Dc.make at h1
    dsimp only at h1
    cases hc : (c.setDictCall [] out).1 with
    | error e => rw [hc] at h1; cases h1
    | ok u =>
      rw [hc] at h1
      cases h1
      obtain ⟨before, g1, g2⟩ := setDictCall_spec c [] out hc
      exact ⟨out, before, _, rfl, rfl, g1, g2⟩

/-- **C72**.  Revalidation of an instance whose attributes are accepted unchanged makes a new
instance with the same fields.  Partial: every field takes an argument and makes an attribute
(`init`, not init-only), and there is no `__post_init__`. -/
theorem dataclass_revalidate_partial (c : Dc α) (ho : c.args.Ordered) (he : c.args.Explains)
    (mkDict : Dict α → α) (view : Dict α → ArgsView α) (attrs : Dict α)
    (hin : ∀ d, c.toDict attrs = .ok d → c.args.asArgs (mkDict d) = .ok (view d))
    (hc : ∀ d, c.toDict attrs = .ok d → (d.map Prod.fst).Nodup → c.args.Call (view d) [] d)
    (st : VState α)
    (hb : st.validateByAliasOr c.args.byAlias = true ∨ st.validateByNameOr c.args.byName = true)
    (hf : c.fields = c.args.fields.map DcField.name) (hs : c.slots = none) (hp : c.postInit = none)
    (hi : ∀ f ∈ c.args.fields, f.init = true ∧ f.initOnly = false)
    (hv : ∀ f ∈ c.args.fields, ∃ v, c.getAttr attrs f.name = some v ∧
      ∀ st, (f.run v st).1 = .ok v) :
    ∃ attrs', (c.revalidateAttrs mkDict attrs st).1 = .ok (.fresh attrs') ∧
      ∀ k, attrs'.get k = if k ∈ c.fields then c.getAttr attrs k else none := by
  obtain ⟨d, hd⟩ : ∃ d, c.toDict attrs = .ok d := by
    refine readFields_ok c attrs c.fields [] fun n hn => ?_
    rw [hf] at hn
    obtain ⟨f, hfm, rfl⟩ := List.mem_map.1 hn
    obtain ⟨v, hv1, -⟩ := hv f hfm
    rw [hv1]
    rfl
  obtain ⟨-, hget, hnd⟩ := readFields_spec c attrs c.fields [] d hd
  have hnd := hnd List.nodup_nil
  have hcall := hc d hd hnd
  have hgetf : ∀ f ∈ c.args.fields, d.get f.name = c.getAttr attrs f.name := by
    intro f hfm
    rw [hget, if_pos]
    rw [hf]
    exact List.mem_map.2 ⟨f, hfm, rfl⟩
  have harg : ∀ f ∈ c.args.fields, argument c.args.sig [] d f.name = c.getAttr attrs f.name := by
    intro f hfm
    obtain ⟨i, hfi⟩ := List.getElem?_of_mem hfm
    rw [(placed ho [] d hfi).argument]
    have h1 : posArg ([] : List α) f i = none := by
      unfold posArg
      split <;> simp
    have h2 : kwArg d f = d.get f.name := by
      unfold kwArg
      rw [if_pos (hi f hfm).1]
    rw [h1, h2, hgetf f hfm]
    rfl
  have hsur : c.args.sig.surplusKw d = [] := by
    unfold Sig.surplusKw
    rw [List.filter_eq_nil_iff]
    intro kv hkv
    have : kv.1 ∈ c.args.sig.keyword := by
      have h1 : d.get kv.1 ≠ none := by
        rw [Ne, Dict.get_eq_none]
        exact fun h => h (List.mem_map.2 ⟨kv, hkv, rfl⟩)
      rw [hget] at h1
      by_cases hk : kv.1 ∈ c.fields
      · rw [hf] at hk
        obtain ⟨f, hfm, hfn⟩ := List.mem_map.1 hk
        rw [mem_sig_keyword]
        exact ⟨f, hfm, (hi f hfm).1, hfn⟩
      · rw [if_neg hk] at h1
        exact absurd rfl h1
    simpa using this
  have hbind : c.args.sig.Binds (fun _ => False) [] d := by
    refine ⟨fun _ => List.drop_nil, fun _ => hsur, ?_, ?_⟩
    · rintro i n v ⟨-, -, -, h, -⟩
      exact absurd h (Nat.not_lt_zero _)
    · intro i hlt hbn
      have hmem : c.args.sig.params[i] ∈ c.args.sig.keyword := List.getElem_mem hlt
      rw [mem_sig_keyword] at hmem
      obtain ⟨f, hfm, -, hfn⟩ := hmem
      have h1 := harg f hfm
      obtain ⟨v, hv1, -⟩ := hv f hfm
      unfold argument at h1
      rw [idxOf_of_getElem (params_nodup ho) (by rw [List.getElem?_eq_getElem hlt, hfn])] at h1
      have h2 : c.args.sig.bound [] d i = some v := h1.trans hv1
      rw [hbn] at h2
      cases h2
  have hall : c.args.AllValid [] d := by
    refine ⟨?_, ?_, ?_⟩
    · intro f hfm x hx st
      obtain ⟨v, hv1, hv2⟩ := hv f hfm
      rw [harg f hfm, hv1] at hx
      cases hx
      exact ⟨_, hv2 st⟩
    · intro f hfm hx
      obtain ⟨v, hv1, -⟩ := hv f hfm
      rw [harg f hfm, hv1] at hx
      cases hx
    · intro v _ _ k x hm
      rw [hsur] at hm
      cases hm
  obtain ⟨out, hout⟩ := dataclass_args_complete_partial c.args ho (mkDict d) (view d) [] d st (hin d hd)
    hcall hb _ hbind hall
  obtain ⟨-, rows, xs, hr1, hr2, hr3, hr4, -⟩ := dataclass_args_sound_partial c.args ho he (mkDict d)
    (view d) [] d st _ (hin d hd) hcall hb out (Prod.ext hout rfl)
  have hxs : xs = [] := by
    rw [hsur] at hr3
    unfold DcArgs.ExtraValues at hr3
    cases hex : c.args.extra with
    | forbid => rw [hex] at hr3; exact hr3.2
    | ignore => rw [hex] at hr3; exact hr3
    | allow =>
      rw [hex] at hr3
      dsimp only at hr3
      cases hxv : c.args.extrasV with
      | none => rw [hxv] at hr3; exact hr3
      | some v =>
        rw [hxv] at hr3
        cases hr3
        rfl
  have hrow : ∀ r ∈ rows, r.2 = c.getAttr attrs r.1.name ∧ r.1.initOnly = false ∧ r.2.isSome := by
    intro r hr
    obtain ⟨i, hri⟩ := List.getElem?_of_mem hr
    have hfm : r.1 ∈ c.args.fields := by
      rw [← hr1]
      exact List.mem_map.2 ⟨r, hr, rfl⟩
    have h1 := hr2 i r hri
    obtain ⟨v, hv1, hv2⟩ := hv r.1 hfm
    rw [harg _ hfm, hv1] at h1
    obtain ⟨st1, w, -, -, h2, h3⟩ := h1
    rw [hv2] at h2
    cases h2
    exact ⟨h3.trans hv1.symm, (hi _ hfm).2, by rw [h3]; rfl⟩
  have hattr : ∀ (l : List (DcField α × Option α)), (∀ r ∈ l, r ∈ rows) → ∀ k,
      Dict.get k (attributes l) = if k ∈ l.map (fun r => r.1.name) then c.getAttr attrs k else none := by
    intro l
    induction l with
    | nil => intro _ k; rfl
    | cons r l ih =>
      intro hl k
      obtain ⟨f, o⟩ := r
      obtain ⟨g1, g2, g3⟩ := hrow (f, o) (hl _ (List.mem_cons_self ..))
      have ih := ih (fun r hr => hl r (List.mem_cons_of_mem _ hr)) k
      dsimp only at g1 g2 g3
      rw [attributes_cons]
      unfold put
      cases o with
      | none => cases g3
      | some v =>
        dsimp only
        rw [g2, if_neg (by simp)]
        show (if f.name = k then some v else Dict.get k (attributes l)) = _
        by_cases hk : f.name = k
        · subst hk
          rw [if_pos rfl, if_pos (by simp), g1]
        · rw [if_neg hk, ih]
          simp only [List.map_cons, List.mem_cons, Ne.symm hk, false_or]
  refine ⟨out.dict, ?_, ?_⟩
  · unfold Dc.revalidateAttrs
    rw [hd]
    dsimp only
    rw [hout]
    dsimp only
    unfold Dc.make Dc.setDictCall
    rw [hs, hp]
  · intro k
    rw [hr4, hxs]
    show Dict.get k (attributes rows) = _
    rw [hattr rows (fun _ h => h) k]
    have : rows.map (fun r => r.1.name) = c.fields := by
      rw [hf, ← hr1, List.map_map]
      rfl
    rw [this]

/-! ### Cases -/

/-- A class over the fields, with the call given by `args` and `kw`, without `__slots__` and
`__post_init__`. -/
def cls (fields : List (DcField String)) (extra : ExtraBehavior) (kw : Dict String) : Dc String where
  args := dataclass fields extra [] kw
  fields := (fields.filter fun f => !f.initOnly).map DcField.name
  strict := false
  revalidate := .always
  frozen := false
  slots := none
  classAttr := fun _ => none
  postInit := none
  exactType := .noSuchAttribute "Demo"

/-- `class Two: a: str; b: str` -/
def two : Dc String :=
  cls [field "a" true true false (okV "!") noDflt, field "b" true true false (okV "") noDflt] .allow
    [("a", "1"), ("b", "2")]

/-- `self.a = '3'` where `self.a == '1'` and `self.b == '2'`. -/
example : (two.validateAssignment [("a", "1"), ("b", "2")] "a" "3" st0).1 = .ok () ∧
    (two.validateAssignment [("a", "1"), ("b", "2")] "a" "3" st0).2.1 = [("a", "3!"), ("b", "2")] :=
  ⟨by rfl, by rfl⟩

/-- `dataclass_assign_accepted_partial` applies to it. -/
example : ∀ k, k ≠ "a" →
    two.getAttr (two.validateAssignment [("a", "1"), ("b", "2")] "a" "3" st0).2.1 k =
      two.getAttr [("a", "1"), ("b", "2")] k :=
  (dataclass_assign_accepted_partial two [("a", "1"), ("b", "2")] "a" "3" st0 (fun _ => by decide)
    (by rfl)).2.choose_spec.2.1

/-- `dataclass_assign_valid_partial` applies to it. -/
example : (two.validateAssignment [("a", "1"), ("b", "2")] "b" "3" st0).1 = .ok () :=
  dataclass_assign_valid_partial two [("a", "1"), ("b", "2")] "b" "3" st0 (by decide) rfl (by decide)
    (fun _ h => (by cases h)) (field "b" true true false (okV "") noDflt) (by simp [two, cls, dataclass])
    rfl rfl (fun _ => ⟨_, rfl⟩)

/-- `dataclass_assign_rejected_keeps` applies: `self.a = '3'` where the validator rejects. -/
example : ((cls [field "a" true true false rejV noDflt] .allow []).validateAssignment
    [("a", "1")] "a" "3" st0).2.1 = [("a", "1")] :=
  dataclass_assign_rejected_keeps _ _ _ _ _ _ rfl

/-- `dataclass_assign_frozen` applies: a frozen field. -/
example : ∃ e, ((cls [{ field "a" true true false (okV "") noDflt with frozen := true }] .allow
    []).validateAssignment [("a", "1")] "a" "3" st0).1 = .error e :=
  dataclass_assign_frozen _ _ _ _ _ (by decide) (Or.inr ⟨_, List.mem_singleton.2 rfl, rfl, rfl⟩)

/-- `dataclass_instance_kept` applies. -/
example : ({ two with revalidate := .subclassInstances } : Dc String).validate (fun _ => "") true
    (.exact [("a", "1")]) "in" st0 = (.ok .same, st0) :=
  (dataclass_instance_kept _ _ _ _ _ _).1 (by decide)

/-- `dataclass_strict` applies. -/
example : ({ two with strict := true } : Dc String).validate (fun _ => "") true .other "in" st0 =
    (.error (.new (.noSuchAttribute "Demo") "in"), st0) :=
  dataclass_strict _ _ _ _ rfl

/-- A class with an init-only field and slots, whose `__post_init__` sets `b` to the value of it. -/
def withPost : Dc String :=
  { cls [field "a" true true false (okV "!") noDflt, field "b" true false false (okV "") noDflt,
      field "c" true true true (okV "?") noDflt] .ignore [("a", "1"), ("c", "2")] with
    slots := some ["a", "b"]
    postInit := some fun vs attrs => (.ok (), attrs.set "b" ((vs.getD []).headD "-")) }

theorem withPost_init : withPost.validateInit [] "in" st0 =
    (.ok (), [("a", "1!"), ("b", "2?")], (withPost.validateInit [] "in" st0).2.2) := by rfl

/-- `dataclass_init` applies to it. -/
example : ∃ out before, (withPost.args.validate "in" st0).1 = .ok out ∧
    withPost.Replaced [] out.dict before ∧
    withPost.PostInit out.initOnly before [("a", "1!"), ("b", "2?")] :=
  dataclass_init withPost [] _ "in" st0 _ withPost_init

/-- `dataclass_new` applies to it. -/
example : ∃ out before after, (withPost.args.validate "in" st0).1 = .ok out ∧
    Made.fresh [("a", "1!"), ("b", "2?")] = .fresh after ∧ withPost.Replaced [] out.dict before ∧
    withPost.PostInit out.initOnly before after :=
  dataclass_new withPost (fun _ => "") true "in" st0 (withPost.validate (fun _ => "") true .other "in" st0).2
    (.fresh [("a", "1!"), ("b", "2?")]) (Prod.ext (by rfl) rfl)

/-- `dataclass_init_rejected_keeps` and `dataclass_init_failed_keeps_partial` apply to a class whose
validator rejects. -/
example : ((cls [field "a" true true false rejV noDflt] .allow [("a", "2")]).validateInit
    [("a", "1")] "in" st0).2.1 = [("a", "1")] :=
  dataclass_init_failed_keeps_partial _ _ _ _ rfl rfl _ rfl
example : ((cls [field "a" true true false rejV noDflt] .allow [("a", "2")]).validateInit
    [("a", "1")] "in" st0).1 = .error (.lineErrors [⟨.other "bad", .list [.s "a"], "2"⟩]) :=
  congrArg Prod.fst (dataclass_init_rejected_keeps _ _ _ _ _ rfl)

/-- `class One: b: str`, given `{'b': '2'}`. -/
def one : Dc String := cls [field "b" true true false (okV "") noDflt] .forbid [("b", "2")]

/-- `dataclass_revalidate_partial` applies to an instance of it. -/
example : ∃ attrs', (one.revalidateAttrs (fun _ => "") [("b", "2")] st0).1 = .ok (.fresh attrs') ∧
    ∀ k, Dict.get k attrs' = if k ∈ one.fields then one.getAttr [("b", "2")] k else none := by
  have hm : ∀ f ∈ one.args.fields, f = field "b" true true false (okV "") noDflt :=
    fun f hf => List.mem_singleton.1 hf
  refine dataclass_revalidate_partial one ⟨⟨[], _, rfl, fun _ h => (by cases h), ?_⟩, (by decide), ?_⟩
    ⟨?_, ?_, ?_⟩ _ (fun _ => pyArgsView strOps id (some []) (some [("b", "2")])) _ ?_ ?_ st0
    (Or.inl rfl) rfl rfl rfl ?_ ?_
  · intro f hf
    rw [hm f hf]
    rfl
  · intro f hf
    rw [hm f hf]
    rfl
  · intro f hf x st h
    rw [hm f hf] at h
    cases h
  · intro f hf x st h
    rw [hm f hf] at h
    cases h
  · intro v hv
    cases hv
  · intro d hd
    rfl
  · intro d hd _
    cases hd
    exact dcCall _ rfl _ _ (by decide)
  · intro f hf
    rw [hm f hf]
    exact ⟨rfl, rfl⟩
  · intro f hf
    rw [hm f hf]
    exact ⟨"2", rfl, fun _ => rfl⟩

/-! ### Where it goes wrong -/

/-- An extra attribute of the instance is lost with any assignment: the attributes are built anew
from the fields (and so the last line of C71 fails). -/
theorem assign_loses_extra :
    (two.validateAssignment [("a", "1"), ("b", "2"), ("x", "9")] "a" "3" st0).1 = .ok () ∧
    (two.validateAssignment [("a", "1"), ("b", "2"), ("x", "9")] "a" "3" st0).2.1 =
      [("a", "3!"), ("b", "2")] := ⟨by rfl, by rfl⟩

/-- Nothing can be assigned while another field is not set (for instance a field with `init=False`
and no default, in `__post_init__`): an `AttributeError` about that field. -/
theorem assign_needs_all_fields :
    (two.validateAssignment [("b", "2")] "b" "3" st0).1 = .error (.internal ⟨"AttributeError"⟩) := by rfl

/-- An extra attribute that is assigned is not validated by `extras_schema`. -/
theorem assign_extra_not_validated :
    let c : Dc String := { two with args := { two.args with extrasV := some rejV } }
    (c.validateAssignment [("a", "1"), ("b", "2")] "x" "9" st0).2.1 =
      [("a", "1"), ("b", "2"), ("x", "9")] := by rfl

/-- With slots and `extra='allow'`, an extra argument makes `__init__` fail when the attributes
before it are set already. -/
theorem init_half_done :
    let c : Dc String := { cls [field "a" true true false (okV "!") noDflt] .allow
      [("a", "2"), ("x", "9")] with slots := some ["a"] }
    (c.validateInit [("a", "1")] "in" st0).1 = .error (.internal ⟨"AttributeError"⟩) ∧
    (c.validateInit [("a", "1")] "in" st0).2.1 = [("a", "2!")] := ⟨by rfl, by rfl⟩

/-- An instance of a class with an init-only field that has no default cannot be revalidated: the
value was not kept. -/
theorem revalidate_init_only (attrs : Dict String) :
    ((cls [field "a" true true true (okV "!") noDflt] .ignore []).revalidateAttrs (fun _ => "in")
      attrs st0).1 = .error (.lineErrors [⟨.missing, .list [.s "a"], "in"⟩]) := by rfl

/-- With `extra='forbid'`, an instance of a class with an `init=False` field cannot be revalidated:
the field itself is an unexpected argument. -/
theorem revalidate_init_false :
    ((cls [field "a" true false false (okV "!") (someDflt "d")] .forbid [("a", "1")]).revalidateAttrs
      (fun _ => "in") [("a", "1")] st0).1 =
    .error (.lineErrors [⟨.unexpectedKeywordArgument, .list [.s "a"], "1"⟩]) := by rfl

/-- With `extra='ignore'`, such a field goes back to its default. -/
theorem revalidate_resets :
    ((cls [field "a" true false false (okV "!") (someDflt "d")] .ignore [("a", "1")]).revalidateAttrs
      (fun _ => "in") [("a", "1")] st0).1 = .ok (.fresh [("a", "d")]) := by rfl

/-- With `extra='allow'`, the extra attributes of an instance are lost when it is revalidated. -/
theorem revalidate_loses_extra :
    (two.revalidateAttrs (fun _ => "in") [("a", "1"), ("b", "2"), ("x", "9")] st0).1 =
    .ok (.fresh [("a", "1!"), ("b", "2")]) := by rfl

end PC.Dc
