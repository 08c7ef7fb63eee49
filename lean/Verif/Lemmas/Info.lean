import Verif.Spec.Info
import Verif.Lemmas.Fields

/-
Lemmas for C96.
-/

namespace PC.Info
open PC.Fields PC.Dc PC.Comb PC.Lookup
variable {α : Type}

/-- The names of the dict are among those of the fields already visited. -/
def Within (names : List String) (d : Dict α) : Prop := ∀ kv ∈ d, kv.1 ∈ names

theorem Within.set {names : List String} {d : Dict α} (h : Within names d) (k : String) (v : α) :
    Within (names ++ [k]) (d.set k v) := by
  intro kv hkv
  have hx : kv.1 ∈ (d.set k v).map Prod.fst := List.mem_map.2 ⟨kv, hkv, rfl⟩
  rcases (Dict.keys_set k v d kv.1).1 hx with h1 | h1
  · exact List.mem_append.2 (.inr (by simp [h1]))
  · obtain ⟨kv', h2, h3⟩ := List.mem_map.1 h1
    exact List.mem_append.2 (.inl (h3 ▸ h kv' h2))

theorem Within.mono {names : List String} {d : Dict α} (h : Within names d) (k : String) :
    Within (names ++ [k]) d := fun kv hkv => List.mem_append.2 (.inl (h kv hkv))

theorem model_step_congr (m m' : ModelFields α) (hm : m'.locByAlias = m.locByAlias) (view : DictView α) (input : α) (a b : Bool)
    {names : List String} {f g : Field α} (hs : SameField names f g) (acc : FAcc α) (hw : Within names acc.dict) :
    m'.fieldStep view input a b g acc = m.fieldStep view input a b f acc ∧
    Within (names ++ [f.name]) (m.fieldStep view input a b f acc).2.dict := by
  have hrun : ∀ value, rebindExtra (fun x => { x with data := some acc.dict, fieldName := some f.name }) (g.run value) acc.st =
      rebindExtra (fun x => { x with data := some acc.dict, fieldName := some f.name }) (f.run value) acc.st := by
    intro value
    simp only [rebindExtra]
    rw [hs.run _ _ ⟨rfl, acc.dict, rfl, hw⟩]
  have hdflt : rebindExtra (fun x => { x with data := some acc.dict }) (g.dflt (some (.s f.name))) acc.st =
      rebindExtra (fun x => { x with data := some acc.dict }) (f.dflt (some (.s f.name))) acc.st := by
    simp only [rebindExtra]
    rw [hs.dflt _ _ ⟨acc.dict, rfl, hw⟩]
  have hn : g.name = f.name := by rw [hs.eq]
  have hk : g.keys = f.keys := by rw [hs.eq]
  unfold ModelFields.fieldStep
  rw [hn, hk, hm]
  cases f.keys.select a b with
  | error e => exact ⟨rfl, hw.mono _⟩
  | ok key =>
    dsimp only
    cases view.get key with
    | error e => cases e <;> exact ⟨rfl, hw.mono _⟩
    | ok o =>
      cases o with
      | some pv =>
        obtain ⟨path, value⟩ := pv
        dsimp only
        rw [hrun]
        generalize rebindExtra _ _ _ = r
        obtain ⟨r, st⟩ := r
        cases r with
        | ok v => exact ⟨rfl, hw.set _ _⟩
        | error e => cases e <;> exact ⟨rfl, hw.mono _⟩
      | none =>
        dsimp only
        rw [hdflt]
        generalize rebindExtra _ _ _ = r
        obtain ⟨r, st⟩ := r
        cases r with
        | ok v =>
          cases v with
          | some v => exact ⟨rfl, hw.set _ _⟩
          | none => exact ⟨rfl, hw.mono _⟩
        | error e => cases e <;> exact ⟨rfl, hw.mono _⟩

theorem model_loop_congr (m m' : ModelFields α) (hm : m'.locByAlias = m.locByAlias) (view : DictView α) (input : α) (a b : Bool)
    {names : List String} {fs gs : List (Field α)} (hs : SameFields names fs gs) :
    ∀ (acc : FAcc α), Within names acc.dict →
      m'.fieldLoop view input a b gs acc = m.fieldLoop view input a b fs acc := by
  induction hs with
  | nil names => intro acc _; rfl
  | cons h1 h2 ih =>
    intro acc hw
    unfold ModelFields.fieldLoop
    obtain ⟨e1, e2⟩ := model_step_congr m m' hm view input a b h1 acc hw
    dsimp only
    rw [e1]
    split
    · exact ih _ e2
    · rfl

theorem dict_step_congr (t t' : TypedDict α) (ht : t'.locByAlias = t.locByAlias) (view : DictView α) (input : α) (a b : Bool)
    (lastKey : Option LocItem) (saved : PartialMode)
    {names : List String} {f g : Field α} (hs : SameField names f g) (acc : FAcc α) (hw : Within names acc.dict) :
    t'.fieldStep view input a b lastKey saved g acc = t.fieldStep view input a b lastKey saved f acc ∧
    Within (names ++ [f.name]) (t.fieldStep view input a b lastKey saved f acc).2.dict := by
  have hrun : ∀ value st, rebindExtra (fun x => { x with data := some acc.dict, fieldName := some f.name }) (g.run value) st =
      rebindExtra (fun x => { x with data := some acc.dict, fieldName := some f.name }) (f.run value) st := by
    intro value st
    simp only [rebindExtra]
    rw [hs.run _ _ ⟨rfl, acc.dict, rfl, hw⟩]
  have hdflt : rebindExtra (fun x => { x with data := some acc.dict }) (g.dflt (some (.s f.name))) acc.st =
      rebindExtra (fun x => { x with data := some acc.dict }) (f.dflt (some (.s f.name))) acc.st := by
    simp only [rebindExtra]
    rw [hs.dflt _ _ ⟨acc.dict, rfl, hw⟩]
  have hn : g.name = f.name := by rw [hs.eq]
  have hk : g.keys = f.keys := by rw [hs.eq]
  have hr : g.required = f.required := by rw [hs.eq]
  unfold TypedDict.fieldStep
  rw [hn, hk, ht, hr]
  cases f.keys.select a b with
  | error e => exact ⟨rfl, hw.mono _⟩
  | ok key =>
    dsimp only
    cases view.get key with
    | error e =>
      cases e with
      | lineErrors ls =>
        dsimp only
        split <;> exact ⟨rfl, hw.mono _⟩
      | _ => exact ⟨rfl, hw.mono _⟩
    | ok o =>
      cases o with
      | some pv =>
        obtain ⟨path, value⟩ := pv
        dsimp only
        rw [hrun]
        generalize rebindExtra _ _ _ = r
        obtain ⟨r, st⟩ := r
        cases r with
        | ok v => exact ⟨rfl, hw.set _ _⟩
        | error e =>
          cases e with
          | lineErrors ls =>
            dsimp only
            refine ⟨rfl, ?_⟩
            split <;> exact hw.mono _
          | _ => exact ⟨rfl, hw.mono _⟩
      | none =>
        dsimp only
        rw [hdflt]
        generalize rebindExtra _ _ _ = r
        obtain ⟨r, st⟩ := r
        cases r with
        | ok v =>
          cases v with
          | some v => exact ⟨rfl, hw.set _ _⟩
          | none =>
            refine ⟨rfl, ?_⟩
            dsimp only
            split <;> exact hw.mono _
        | error e => cases e <;> exact ⟨rfl, hw.mono _⟩

theorem dict_loop_congr (t t' : TypedDict α) (ht : t'.locByAlias = t.locByAlias) (view : DictView α) (input : α) (a b : Bool)
    (lastKey : Option LocItem) (saved : PartialMode)
    {names : List String} {fs gs : List (Field α)} (hs : SameFields names fs gs) :
    ∀ (acc : FAcc α), Within names acc.dict →
      t'.fieldLoop view input a b lastKey saved gs acc = t.fieldLoop view input a b lastKey saved fs acc := by
  induction hs with
  | nil names => intro acc _; rfl
  | cons h1 h2 ih =>
    intro acc hw
    unfold TypedDict.fieldLoop
    obtain ⟨e1, e2⟩ := dict_step_congr t t' ht view input a b lastKey saved h1 acc hw
    dsimp only
    rw [e1]
    split
    · exact ih _ e2
    · rfl

/-! ### Dataclasses -/

theorem within_setItem {names : List String} {acc : DAcc α} (h : Within names acc.dict) (f : DcField α) (v : α) :
    Within (names ++ told f) (acc.setItem f v).dict := by
  unfold DAcc.setItem told
  by_cases hi : f.initOnly = true
  · rw [if_pos hi, if_pos hi, List.append_nil]; exact h
  · rw [if_neg hi, if_neg hi]; exact h.set _ _

theorem Within.more {names : List String} {d : Dict α} (h : Within names d) (more : List String) :
    Within (names ++ more) d := fun kv hkv => List.mem_append.2 (.inl (h kv hkv))

theorem dc_step_congr (d d' : DcArgs α) (hd : d'.locByAlias = d.locByAlias) (view : Args.ArgsView α) (input : α) (a b : Bool)
    (i : Nat) {names : List String} {f g : DcField α} (hs : SameDcField names f g) (acc : DAcc α) (hw : Within names acc.dict) :
    d'.step view input a b i g acc = d.step view input a b i f acc ∧
    Within (names ++ told f) (d.step view input a b i f acc).2.dict := by
  have hrun : ∀ value st, rebindExtra (fun x => { x with data := some acc.dict, fieldName := some f.name }) (g.run value) st =
      rebindExtra (fun x => { x with data := some acc.dict, fieldName := some f.name }) (f.run value) st := by
    intro value st
    simp only [rebindExtra]
    rw [hs.run _ _ ⟨rfl, acc.dict, rfl, hw⟩]
  have hdflt : ∀ st, rebindExtra (fun x => { x with data := some acc.dict, fieldName := some f.name })
        (g.dflt (some (.s f.name))) st =
      rebindExtra (fun x => { x with data := some acc.dict, fieldName := some f.name }) (f.dflt (some (.s f.name))) st := by
    intro st
    simp only [rebindExtra]
    rw [hs.dflt _ _ ⟨acc.dict, rfl, hw⟩]
  have hdflt' : rebindExtra (fun x => { x with data := some acc.dict }) (g.dflt (some (.s f.name))) acc.st =
      rebindExtra (fun x => { x with data := some acc.dict }) (f.dflt (some (.s f.name))) acc.st := by
    simp only [rebindExtra]
    rw [hs.dflt _ _ ⟨acc.dict, rfl, hw⟩]
  have hset : ∀ (c : DAcc α) v, c.setItem g v = c.setItem f v := by
    intro c v; unfold DAcc.setItem; rw [hs.eq]
  have hlook : Dc.lookup view g a b = Dc.lookup view f a b := by unfold Dc.lookup; rw [hs.eq]
  have hpos : posValue view g i = posValue view f i := by unfold posValue; rw [hs.eq]
  have hn : g.name = f.name := by rw [hs.eq]
  have hi : g.init = f.init := by rw [hs.eq]
  unfold DcArgs.step
  rw [hi]
  by_cases hf : f.init = true
  · rw [if_pos hf, if_pos hf]
    unfold DcArgs.initStep
    rw [hlook, hpos, hn, hd]
    cases Dc.lookup view f a b with
    | error e => exact ⟨rfl, hw.more _⟩
    | ok kv =>
      obtain ⟨key, kw⟩ := kv
      dsimp only
      cases posValue view f i with
      | some x =>
        cases kw with
        | some pv => exact ⟨rfl, hw.more _⟩
        | none =>
          dsimp only
          rw [hrun]
          generalize rebindExtra _ _ _ = r
          obtain ⟨r, st⟩ := r
          cases r with
          | ok v =>
            dsimp only
            rw [hset]
            exact ⟨rfl, within_setItem (acc := { acc with st := st }) hw f v⟩
          | error e => cases e <;> exact ⟨rfl, hw.more _⟩
      | none =>
        cases kw with
        | some pv =>
          obtain ⟨path, x⟩ := pv
          dsimp only
          rw [hrun]
          generalize rebindExtra _ _ _ = r
          obtain ⟨r, st⟩ := r
          cases r with
          | ok v =>
            dsimp only
            rw [hset]
            refine ⟨rfl, ?_⟩
            exact within_setItem (acc := { acc with used := Args.insertNew path.first acc.used, st := st }) hw f v
          | error e => cases e <;> exact ⟨rfl, hw.more _⟩
        | none =>
          dsimp only
          rw [hdflt]
          generalize rebindExtra _ _ _ = r
          obtain ⟨r, st⟩ := r
          cases r with
          | ok v =>
            cases v with
            | some v =>
              dsimp only
              rw [hset]
              exact ⟨rfl, within_setItem (acc := { acc with st := st }) hw f v⟩
            | none => exact ⟨rfl, hw.more _⟩
          | error e => cases e <;> exact ⟨rfl, hw.more _⟩
  · rw [if_neg hf, if_neg hf]
    unfold noInitStep
    rw [hn, hdflt']
    generalize rebindExtra _ _ _ = r
    obtain ⟨r, st⟩ := r
    cases r with
    | ok v =>
      cases v with
      | some v =>
        dsimp only
        rw [hset]
        exact ⟨rfl, within_setItem (acc := { acc with st := st }) hw f v⟩
      | none => exact ⟨rfl, hw.more _⟩
    | error e => cases e <;> exact ⟨rfl, hw.more _⟩

theorem dc_loop_congr (d d' : DcArgs α) (hd : d'.locByAlias = d.locByAlias) (view : Args.ArgsView α) (input : α) (a b : Bool)
    {names : List String} {fs gs : List (DcField α)} (hs : SameDcFields names fs gs) :
    ∀ (i : Nat) (acc : DAcc α), Within names acc.dict →
      d'.loop view input a b i gs acc = d.loop view input a b i fs acc := by
  induction hs with
  | nil names => intro i acc _; rfl
  | cons h1 h2 ih =>
    intro i acc hw
    unfold DcArgs.loop
    obtain ⟨e1, e2⟩ := dc_step_congr d d' hd view input a b i h1 acc hw
    dsimp only
    rw [e1]
    split
    · exact ih _ _ e2
    · rfl

theorem dc_posFields {names : List String} {fs gs : List (DcField α)} (hs : SameDcFields names fs gs) :
    posFields gs = posFields fs := by
  induction hs with
  | nil names => rfl
  | cons h1 h2 ih =>
    unfold posFields
    rw [ih, h1.eq]

/-! ### The rest does not depend on the fields -/

theorem model_extra_fields (m : ModelFields α) (gs : List (Field α)) (used : List String) :
    ∀ (es : List (ValResult α (α × α))) (acc : XAcc α),
      ({ m with fields := gs } : ModelFields α).extraLoop used es acc = m.extraLoop used es acc
  | [], _ => rfl
  | .error e :: _, _ => rfl
  | .ok (k, v) :: rest, acc => by
    unfold ModelFields.extraLoop
    have h : ({ m with fields := gs } : ModelFields α).extraStep used k v acc = m.extraStep used k v acc := rfl
    rw [h]
    dsimp only
    split
    · exact model_extra_fields m gs used rest _
    · rfl

theorem model_after_fields (m : ModelFields α) (gs : List (Field α)) (view : DictView α) (r : ValResult α Unit × FAcc α) :
    ({ m with fields := gs } : ModelFields α).afterFields view r = m.afterFields view r := by
  unfold ModelFields.afterFields
  simp only [model_extra_fields]
  rfl

theorem dict_extra_fields (t : TypedDict α) (gs : List (Field α)) (used : List String) (lastKey : Option LocItem)
    (saved : PartialMode) : ∀ (es : List (ValResult α (α × α))) (acc : TAcc α),
      ({ t with fields := gs } : TypedDict α).extraLoop used lastKey saved es acc = t.extraLoop used lastKey saved es acc
  | [], _ => rfl
  | .error e :: _, _ => rfl
  | .ok (k, v) :: rest, acc => by
    unfold TypedDict.extraLoop
    have h : ({ t with fields := gs } : TypedDict α).extraStep used lastKey saved k v acc =
      t.extraStep used lastKey saved k v acc := rfl
    rw [h]
    dsimp only
    split
    · exact dict_extra_fields t gs used lastKey saved rest _
    · rfl

theorem dict_after_fields (t : TypedDict α) (gs : List (Field α)) (view : DictView α) (lastKey : Option LocItem)
    (saved : PartialMode) (r : ValResult α Unit × FAcc α) :
    ({ t with fields := gs } : TypedDict α).afterFields view lastKey saved r = t.afterFields view lastKey saved r := by
  unfold TypedDict.afterFields
  simp only [dict_extra_fields]
  rfl

theorem dc_kw_fields (d : DcArgs α) (gs : List (DcField α)) : ∀ (es : List (ValResult α (α × α))) (acc : DAcc α),
      ({ d with fields := gs } : DcArgs α).kwLoop es acc = d.kwLoop es acc
  | [], _ => rfl
  | .error e :: _, _ => rfl
  | .ok (k, v) :: rest, acc => by
    unfold DcArgs.kwLoop
    have h : ({ d with fields := gs } : DcArgs α).kwStep k v acc = d.kwStep k v acc := rfl
    rw [h]
    dsimp only
    split
    · exact dc_kw_fields d gs rest _
    · rfl

theorem dc_kwPart_fields (d : DcArgs α) (gs : List (DcField α)) (view : Args.ArgsView α) (acc : DAcc α) :
    ({ d with fields := gs } : DcArgs α).kwPart view acc = d.kwPart view acc := by
  unfold DcArgs.kwPart
  simp only [dc_kw_fields]

/-! ### The visits of the fields -/

/-- The visit of a field: told what the fields before it gave. -/
theorem visits_split (get : LookupKey → ValResult α (Option (LookupPath × α))) (a b : Bool)
    (prep : LookupPath → VState α → VState α) (f : Field α) (post : List (Field α)) :
    ∀ (pre : List (Field α)) (data : Dict α) (st : VState α), ∃ xs ys st',
      (fieldVisits get a b prep (pre ++ f :: post) data st).1 =
        xs ++ (fieldVisit get a b prep f (data ++ xs.flatMap FieldVisit.output) st').1 :: ys ∧
      xs.map FieldVisit.field = pre ∧ ys.map FieldVisit.field = post ∧ st'.extra = st.extra
  | [], data, st => by
    refine ⟨[], (fieldVisits get a b prep post (data ++ (fieldVisit get a b prep f data st).1.output)
      (fieldVisit get a b prep f data st).2).1, st, ?_, rfl, fieldVisits_fields _ _ _ _ _ _ _, rfl⟩
    · simp only [List.nil_append, fieldVisits, List.flatMap_nil, List.append_nil]
  | p :: pre, data, st => by
    obtain ⟨xs, ys, st', h1, h2, h3, h4⟩ := visits_split get a b prep f post pre
      (data ++ (fieldVisit get a b prep p data st).1.output) (fieldVisit get a b prep p data st).2
    refine ⟨(fieldVisit get a b prep p data st).1 :: xs, ys, st', ?_, ?_, h3, ?_⟩
    · simp only [List.cons_append, fieldVisits, h1, List.flatMap_cons, List.append_assoc]
    · rw [List.map_cons, h2, fieldVisit_field]
    · rw [h4]
      unfold fieldVisit
      split
      · rfl
      · split <;> rfl

theorem only_outputs {xs ys : List (FieldVisit α)} (h : ((xs ++ ys).map (·.field.name)).Nodup) :
    Dict.only (xs.map (·.field.name)) ((xs ++ ys).flatMap FieldVisit.output) = xs.flatMap FieldVisit.output := by
  rw [List.flatMap_append]
  unfold Dict.only
  rw [List.filter_append]
  have h1 : (xs.flatMap FieldVisit.output).filter (fun kv => decide (kv.1 ∈ xs.map (·.field.name))) = xs.flatMap FieldVisit.output := by
    rw [List.filter_eq_self]
    intro kv hkv
    obtain ⟨x, hx, hkv⟩ := List.mem_flatMap.1 hkv
    simp only [decide_eq_true_eq]
    exact List.mem_map.2 ⟨x, hx, (output_name x kv hkv).symm⟩
  have h2 : (ys.flatMap FieldVisit.output).filter (fun kv => decide (kv.1 ∈ xs.map (·.field.name))) = [] := by
    rw [List.filter_eq_nil_iff]
    intro kv hkv hm
    obtain ⟨y, hy, hkv⟩ := List.mem_flatMap.1 hkv
    simp only [decide_eq_true_eq] at hm
    rw [List.map_append, List.nodup_append] at h
    exact h.2.2 _ hm _ (List.mem_map.2 ⟨y, hy, rfl⟩) (output_name y kv hkv)
  rw [h1, h2, List.append_nil]

/-- What a field's entry holds. -/
theorem visit_told (get : LookupKey → ValResult α (Option (LookupPath × α))) (a b : Bool)
    (prep : LookupPath → VState α → VState α) (hprep : ∀ path st, (prep path st).extra = st.extra) (fs : List (Field α))
    (hd : DistinctNames fs) (st : VState α) {pre post : List (Field α)} {f : Field α} (hf : fs = pre ++ f :: post)
    {key : LookupKey} (hk : f.keys.select a b = .ok key) :
    (∀ path value, get key = .ok (some (path, value)) → ∃ st0, st0.extra = st.extra ∧
      Dict.get f.name ((fieldVisits get a b prep fs [] st).1.flatMap FieldVisit.output) = valueOf (f.run value (tell f.name
        (Dict.only (pre.map Field.name) ((fieldVisits get a b prep fs [] st).1.flatMap FieldVisit.output)) st0)).1) ∧
    (get key = .ok none → ∃ st0, st0.extra = st.extra ∧
      Dict.get f.name ((fieldVisits get a b prep fs [] st).1.flatMap FieldVisit.output) =
        (valueOf (f.dflt (some (.s f.name)) (tellData
          (Dict.only (pre.map Field.name) ((fieldVisits get a b prep fs [] st).1.flatMap FieldVisit.output)) st0)).1).join) := by
  obtain ⟨xs, ys, st0, h1, h2, h3, h4⟩ := visits_split get a b prep f post pre [] st
  rw [← hf] at h1
  rw [List.nil_append] at h1
  have hnames : (fieldVisits get a b prep fs [] st).1.map (·.field.name) = fs.map Field.name := by
    have e : (fieldVisits get a b prep fs [] st).1.map (·.field.name) =
        ((fieldVisits get a b prep fs [] st).1.map FieldVisit.field).map Field.name := by rw [List.map_map]; rfl
    rw [e, fieldVisits_fields]
  have hnd : ((fieldVisits get a b prep fs [] st).1.map (·.field.name)).Nodup := by rw [hnames]; exact hd
  have hpre : xs.map (·.field.name) = pre.map Field.name := by rw [← h2, List.map_map]; rfl
  have honly : Dict.only (pre.map Field.name) ((fieldVisits get a b prep fs [] st).1.flatMap FieldVisit.output) =
      xs.flatMap FieldVisit.output := by
    rw [h1, ← hpre]
    exact only_outputs (by rw [← h1]; exact hnd)
  have hget := get_outputs _ hnd (fieldVisit get a b prep f (xs.flatMap FieldVisit.output) st0).1 (by rw [h1]; simp)
  rw [fieldVisit_field, ← honly] at hget
  refine ⟨fun path value hg => ⟨prep path st0, (hprep path st0).trans h4, ?_⟩, fun hg => ⟨st0, h4, ?_⟩⟩
  · rw [hget]
    unfold fieldVisit
    rw [hk]
    dsimp only
    rw [hg]
    dsimp only [FieldVisit.output, tell]
    rw [hprep]
    cases (f.run value _).1 <;> rfl
  · rw [hget]
    unfold fieldVisit
    rw [hk]
    dsimp only
    rw [hg]
    dsimp only [FieldVisit.output, tellData]
    cases (f.dflt _ _).1 with
    | ok v => cases v <;> rfl
    | error e => rfl

end PC.Info
