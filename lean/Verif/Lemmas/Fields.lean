import Verif.Spec.Fields

namespace PC.Fields
open PC.Lookup
variable {α : Type}

/-! ### Dicts -/

theorem Dict.set_new (k : String) (v : α) : ∀ (d : Dict α), k ∉ d.map Prod.fst →
    d.set k v = d ++ [(k, v)]
  | [], _ => rfl
  | (k', v') :: rest, h => by
    simp only [List.map_cons, List.mem_cons, not_or] at h
    rw [Dict.set, if_neg (Ne.symm h.1), Dict.set_new k v rest h.2]
    rfl

theorem Dict.get_set (k k' : String) (v : α) : ∀ (d : Dict α),
    (d.set k' v).get k = if k' = k then some v else d.get k
  | [] => by simp only [Dict.set, Dict.get]
  | (k0, v0) :: rest => by
    simp only [Dict.set]
    by_cases h0 : k0 = k'
    · subst h0
      simp only [if_true, Dict.get]
      by_cases h : k0 = k <;> simp [h]
    · simp only [if_neg h0, Dict.get, Dict.get_set k k' v rest]
      by_cases h : k0 = k
      · subst h; simp [Ne.symm h0]
      · simp [h]

theorem Dict.get_eq_none (k : String) : ∀ (d : Dict α), d.get k = none ↔ k ∉ d.map Prod.fst
  | [] => by simp [Dict.get]
  | (k0, v0) :: rest => by
    simp only [Dict.get, List.map_cons, List.mem_cons, not_or]
    by_cases h : k0 = k
    · simp [h]
    · simp [h, Ne.symm h, Dict.get_eq_none k rest]

theorem Dict.get_del (k k' : String) : ∀ (d : Dict α),
    (d.del k').get k = if k' = k then none else d.get k
  | [] => by simp [Dict.del, Dict.get]
  | (k0, v0) :: rest => by
    have ih := Dict.get_del k k' rest
    unfold Dict.del at ih ⊢
    by_cases h0 : k0 = k'
    · subst h0
      rw [List.filter_cons_of_neg (by simp), ih]
      by_cases h : k0 = k <;> simp [h, Dict.get]
    · rw [List.filter_cons_of_pos (by simpa using h0)]
      simp only [Dict.get, ih]
      by_cases h : k0 = k
      · subst h; simp [Ne.symm h0]
      · simp [h]

theorem Dict.keys_set (k : String) (v : α) : ∀ (d : Dict α) (x : String),
    x ∈ (d.set k v).map Prod.fst ↔ x = k ∨ x ∈ d.map Prod.fst
  | [], x => by simp [Dict.set]
  | (k0, v0) :: rest, x => by
    simp only [Dict.set]
    by_cases h0 : k0 = k
    · subst h0; simp
    · rw [if_neg h0]
      have := Dict.keys_set k v rest x
      simp only [List.map_cons, List.mem_cons]
      rw [this]
      constructor
      · rintro (h | h | h)
        · exact .inr (.inl h)
        · exact .inl h
        · exact .inr (.inr h)
      · rintro (h | h | h)
        · exact .inr (.inl h)
        · exact .inl h
        · exact .inr (.inr h)

theorem Dict.get_foldl_set (k : String) : ∀ (l d : Dict α),
    (l.foldl (fun d kv => Dict.set kv.1 kv.2 d) d).get k =
      ((l.foldl (fun d kv => Dict.set kv.1 kv.2 d) ([] : Dict α)).get k).or (d.get k)
  | [], d => by simp [Dict.get]
  | kv :: l, d => by
    simp only [List.foldl_cons]
    rw [Dict.get_foldl_set k l (Dict.set kv.1 kv.2 d),
      Dict.get_foldl_set k l (Dict.set kv.1 kv.2 []), Dict.get_set, Dict.get_set]
    by_cases hk : kv.1 = k <;>
      cases (l.foldl (fun d kv => Dict.set kv.1 kv.2 d) ([] : Dict α)).get k <;>
      simp [hk, Dict.get]

theorem dictOf_nodup {ps : Dict α} (h : (ps.map Prod.fst).Nodup) : dictOf ps = ps := by
  unfold dictOf
  suffices hs : ∀ d : Dict α, ((d ++ ps).map Prod.fst).Nodup →
      ps.foldl (fun d kv => Dict.set kv.1 kv.2 d) d = d ++ ps by
    simpa using hs [] (by simpa using h)
  induction ps with
  | nil => intro d _; simp
  | cons kv ps ih =>
    intro d hd
    simp only [List.foldl_cons]
    have hnew : kv.1 ∉ d.map Prod.fst := by
      rw [List.map_append, List.nodup_append] at hd
      intro hmem
      exact hd.2.2 kv.1 hmem kv.1 (by simp) rfl
    rw [Dict.set_new _ _ _ hnew, ih]
    · simp
    · simp only [List.map_cons, List.nodup_cons] at h; exact h.2
    · simpa using hd

/-! ### The loops over fields -/

/-- The names of the entries come from the visited fields. -/
theorem output_name (x : FieldVisit α) : ∀ kv ∈ x.output, kv.1 = x.field.name := by
  intro kv hkv
  unfold FieldVisit.output at hkv
  split at hkv
  · simp at hkv; rw [hkv]
  · simp at hkv; rw [hkv]
  · cases hkv

theorem fieldVisit_field (get : LookupKey → ValResult α (Option (LookupPath × α)))
    (byAlias byName : Bool) (prep : LookupPath → VState α → VState α) (f : Field α) (data : Dict α)
    (st : VState α) : (fieldVisit get byAlias byName prep f data st).1.field = f := by
  unfold fieldVisit
  split
  · rfl
  · split <;> rfl

theorem fieldVisits_fields (get : LookupKey → ValResult α (Option (LookupPath × α)))
    (byAlias byName : Bool) (prep : LookupPath → VState α → VState α) :
    ∀ (fs : List (Field α)) (data : Dict α) (st : VState α),
      (fieldVisits get byAlias byName prep fs data st).1.map FieldVisit.field = fs
  | [], _, _ => rfl
  | f :: fs, data, st => by
    simp only [fieldVisits, List.map_cons, fieldVisit_field]
    rw [fieldVisits_fields]

/-- The accumulator after some fields were visited. -/
def FAcc.after (acc : FAcc α) (xs : List (FieldVisit α)) (err : FieldVisit α → List (LineError α))
    (sup : FieldVisit α → List String) (st : VState α) : FAcc α :=
  ⟨acc.dict ++ xs.flatMap FieldVisit.output, acc.errs ++ xs.flatMap err,
    acc.fieldsSet ++ xs.flatMap sup, acc.count + (xs.flatMap FieldVisit.supplied).length,
    acc.used ++ xs.flatMap FieldVisit.used, st⟩

/-- The error that ends the loop at a field that is not plain. -/
def FieldVisit.raises (x : FieldVisit α) (e : ValError α) : Prop :=
  x.outcome = .raised e ∨ (∃ p v, x.outcome = .validated p v (.error e)) ∨
    ∃ k, x.outcome = .defaulted k (.error e)

theorem model_fieldStep (m : ModelFields α) (view : DictView α) (input : α)
    (byAlias byName : Bool) (f : Field α) (acc : FAcc α) (hnew : f.name ∉ acc.dict.map Prod.fst) :
    let x := fieldVisit view.get byAlias byName (fun _ st => st) f acc.dict acc.st
    (x.1.Plain → m.fieldStep view input byAlias byName f acc =
      (.ok (), acc.after [x.1] (FieldVisit.errors input m.locByAlias) FieldVisit.supplied x.2)) ∧
    (¬ x.1.Plain → ∃ e, x.1.raises e ∧ (m.fieldStep view input byAlias byName f acc).1 = .error e) := by
  have hset : ∀ v, acc.dict.set f.name v = acc.dict ++ [(f.name, v)] :=
    fun v => Dict.set_new _ _ _ hnew
  simp only [fieldVisit, ModelFields.fieldStep]
  cases hk : f.keys.select byAlias byName with
  | error e =>
    simp only [FieldVisit.Plain]
    exact ⟨fun h => h.elim, fun _ => ⟨_, .inl rfl, rfl⟩⟩
  | ok key =>
    dsimp only
    cases hg : view.get key with
    | error e =>
      cases e with
      | lineErrors ls =>
        simp only [FieldVisit.Plain]
        refine ⟨fun _ => ?_, fun h => absurd trivial h⟩
        simp [FAcc.after, FieldVisit.output, FieldVisit.supplied, FieldVisit.used, FieldVisit.errors]
      | internal e =>
        simp only [FieldVisit.Plain]
        exact ⟨fun h => h.elim, fun _ => ⟨_, .inl rfl, rfl⟩⟩
      | omitted =>
        simp only [FieldVisit.Plain]
        exact ⟨fun h => h.elim, fun _ => ⟨_, .inl rfl, rfl⟩⟩
      | useDefault =>
        simp only [FieldVisit.Plain]
        exact ⟨fun h => h.elim, fun _ => ⟨_, .inl rfl, rfl⟩⟩
    | ok o =>
      cases o with
      | some pv =>
        obtain ⟨path, value⟩ := pv
        simp only [FieldVisit.Plain, rebindExtra]
        generalize f.run value _ = r
        obtain ⟨res, st'⟩ := r
        cases res with
        | ok v =>
          refine ⟨fun _ => ?_, fun h => absurd (by intro e he; cases he) h⟩
          simp [FAcc.after, FieldVisit.output, FieldVisit.supplied, FieldVisit.used,
            FieldVisit.errors, hset]
        | error e =>
          cases e with
          | lineErrors ls =>
            refine ⟨fun _ => ?_, fun h => absurd (by intro e he; cases he; exact .inl ⟨_, rfl⟩) h⟩
            simp [FAcc.after, FieldVisit.output, FieldVisit.supplied, FieldVisit.used,
              FieldVisit.errors]
          | omitted =>
            refine ⟨fun _ => ?_, fun h => absurd (by intro e he; cases he; exact .inr rfl) h⟩
            simp [FAcc.after, FieldVisit.output, FieldVisit.supplied, FieldVisit.used,
              FieldVisit.errors]
          | internal e =>
            refine ⟨fun h => ?_, fun _ => ⟨_, .inr (.inl ⟨_, _, rfl⟩), rfl⟩⟩
            rcases h _ rfl with ⟨ls, hls⟩ | hls <;> cases hls
          | useDefault =>
            refine ⟨fun h => ?_, fun _ => ⟨_, .inr (.inl ⟨_, _, rfl⟩), rfl⟩⟩
            rcases h _ rfl with ⟨ls, hls⟩ | hls <;> cases hls
      | none =>
        simp only [FieldVisit.Plain, rebindExtra]
        generalize f.dflt _ _ = r
        obtain ⟨res, st'⟩ := r
        cases res with
        | ok o =>
          refine ⟨fun _ => ?_, fun h => absurd (by intro e he; cases he) h⟩
          cases o with
          | some v =>
            simp [FAcc.after, FieldVisit.output, FieldVisit.supplied, FieldVisit.used,
              FieldVisit.errors, hset]
          | none =>
            simp [FAcc.after, FieldVisit.output, FieldVisit.supplied, FieldVisit.used,
              FieldVisit.errors]
        | error e =>
          cases e with
          | lineErrors ls =>
            refine ⟨fun _ => ?_, fun h => absurd (by intro e he; cases he; exact .inl ⟨_, rfl⟩) h⟩
            simp [FAcc.after, FieldVisit.output, FieldVisit.supplied, FieldVisit.used,
              FieldVisit.errors]
          | omitted =>
            refine ⟨fun _ => ?_, fun h => absurd (by intro e he; cases he; exact .inr rfl) h⟩
            simp [FAcc.after, FieldVisit.output, FieldVisit.supplied, FieldVisit.used,
              FieldVisit.errors]
          | internal e =>
            refine ⟨fun h => ?_, fun _ => ⟨_, .inr (.inr ⟨_, rfl⟩), rfl⟩⟩
            rcases h _ rfl with ⟨ls, hls⟩ | hls <;> cases hls
          | useDefault =>
            refine ⟨fun h => ?_, fun _ => ⟨_, .inr (.inr ⟨_, rfl⟩), rfl⟩⟩
            rcases h _ rfl with ⟨ls, hls⟩ | hls <;> cases hls

theorem dict_fieldStep (t : TypedDict α) (view : DictView α) (input : α)
    (byAlias byName : Bool) (lastKey : Option LocItem) (saved : PartialMode) (f : Field α)
    (acc : FAcc α) (hnew : f.name ∉ acc.dict.map Prod.fst) :
    let x := fieldVisit view.get byAlias byName
      (fun path => lastOnly lastKey saved (.s path.first)) f acc.dict acc.st
    (x.1.Plain → t.fieldStep view input byAlias byName lastKey saved f acc =
      (.ok (), acc.after [x.1] (FieldVisit.dictErrors input t.locByAlias lastKey) (fun _ => []) x.2)) ∧
    (¬ x.1.Plain → ∃ e, x.1.raises e ∧
      (t.fieldStep view input byAlias byName lastKey saved f acc).1 = .error e) := by
  have hset : ∀ v, acc.dict.set f.name v = acc.dict ++ [(f.name, v)] :=
    fun v => Dict.set_new _ _ _ hnew
  obtain ⟨ad, ae, af, ac, au, ast⟩ := acc
  dsimp only at hset
  simp only [fieldVisit, TypedDict.fieldStep]
  cases hk : f.keys.select byAlias byName with
  | error e =>
    simp only [FieldVisit.Plain]
    exact ⟨fun h => h.elim, fun _ => ⟨_, .inl rfl, rfl⟩⟩
  | ok key =>
    dsimp only
    cases hg : view.get key with
    | error e =>
      cases e with
      | lineErrors ls =>
        simp only [FieldVisit.Plain]
        refine ⟨fun _ => ?_, fun h => absurd trivial h⟩
        by_cases hl : lastKey = some (.s f.name) <;>
          simp [FAcc.after, FieldVisit.output, FieldVisit.supplied, FieldVisit.used,
            FieldVisit.dictErrors, hl]
      | internal e =>
        simp only [FieldVisit.Plain]
        exact ⟨fun h => h.elim, fun _ => ⟨_, .inl rfl, rfl⟩⟩
      | omitted =>
        simp only [FieldVisit.Plain]
        exact ⟨fun h => h.elim, fun _ => ⟨_, .inl rfl, rfl⟩⟩
      | useDefault =>
        simp only [FieldVisit.Plain]
        exact ⟨fun h => h.elim, fun _ => ⟨_, .inl rfl, rfl⟩⟩
    | ok o =>
      cases o with
      | some pv =>
        obtain ⟨path, value⟩ := pv
        simp only [FieldVisit.Plain, rebindExtra, lastOnly, decide_eq_true_eq]
        generalize f.run value _ = r
        obtain ⟨res, st'⟩ := r
        cases res with
        | ok v =>
          refine ⟨fun _ => ?_, fun h => absurd (by intro e he; cases he) h⟩
          simp [FAcc.after, FieldVisit.output, FieldVisit.supplied, FieldVisit.used,
            FieldVisit.dictErrors, hset]
        | error e =>
          cases e with
          | lineErrors ls =>
            refine ⟨fun _ => ?_, fun h => absurd (by intro e he; cases he; exact .inl ⟨_, rfl⟩) h⟩
            by_cases hl : lastKey = some (.s path.first) <;> cases hreq : f.required <;>
              simp [FAcc.after, FieldVisit.output, FieldVisit.supplied, FieldVisit.used,
                FieldVisit.dictErrors, hl, hreq]
          | omitted =>
            refine ⟨fun _ => ?_, fun h => absurd (by intro e he; cases he; exact .inr rfl) h⟩
            simp [FAcc.after, FieldVisit.output, FieldVisit.supplied, FieldVisit.used,
              FieldVisit.dictErrors]
          | internal e =>
            refine ⟨fun h => ?_, fun _ => ⟨_, .inr (.inl ⟨_, _, rfl⟩), rfl⟩⟩
            rcases h _ rfl with ⟨ls, hls⟩ | hls <;> cases hls
          | useDefault =>
            refine ⟨fun h => ?_, fun _ => ⟨_, .inr (.inl ⟨_, _, rfl⟩), rfl⟩⟩
            rcases h _ rfl with ⟨ls, hls⟩ | hls <;> cases hls
      | none =>
        simp only [FieldVisit.Plain, rebindExtra]
        generalize f.dflt _ _ = r
        obtain ⟨res, st'⟩ := r
        cases res with
        | ok o =>
          refine ⟨fun _ => ?_, fun h => absurd (by intro e he; cases he) h⟩
          cases o with
          | some v =>
            simp [FAcc.after, FieldVisit.output, FieldVisit.supplied, FieldVisit.used,
              FieldVisit.dictErrors, hset]
          | none =>
            cases hreq : f.required <;>
            simp [FAcc.after, FieldVisit.output, FieldVisit.supplied, FieldVisit.used,
              FieldVisit.dictErrors, hreq]
        | error e =>
          cases e with
          | lineErrors ls =>
            refine ⟨fun _ => ?_, fun h => absurd (by intro e he; cases he; exact .inl ⟨_, rfl⟩) h⟩
            simp [FAcc.after, FieldVisit.output, FieldVisit.supplied, FieldVisit.used,
              FieldVisit.dictErrors]
          | omitted =>
            refine ⟨fun _ => ?_, fun h => absurd (by intro e he; cases he; exact .inr rfl) h⟩
            simp [FAcc.after, FieldVisit.output, FieldVisit.supplied, FieldVisit.used,
              FieldVisit.dictErrors]
          | internal e =>
            refine ⟨fun h => ?_, fun _ => ⟨_, .inr (.inr ⟨_, rfl⟩), rfl⟩⟩
            rcases h _ rfl with ⟨ls, hls⟩ | hls <;> cases hls
          | useDefault =>
            refine ⟨fun h => ?_, fun _ => ⟨_, .inr (.inr ⟨_, rfl⟩), rfl⟩⟩
            rcases h _ rfl with ⟨ls, hls⟩ | hls <;> cases hls

/-- The loop shared by models and typed dicts. -/
theorem loop_spec (get : LookupKey → ValResult α (Option (LookupPath × α)))
    (byAlias byName : Bool) (prep : LookupPath → VState α → VState α)
    (err : FieldVisit α → List (LineError α)) (sup : FieldVisit α → List String)
    (step : Field α → FAcc α → ValResult α Unit × FAcc α)
    (loop : List (Field α) → FAcc α → ValResult α Unit × FAcc α)
    (hnil : ∀ acc, loop [] acc = (.ok (), acc))
    (hcons : ∀ f fs acc, loop (f :: fs) acc = match (step f acc).1 with
      | .ok () => loop fs (step f acc).2
      | .error e => (.error e, (step f acc).2))
    (hstep : ∀ f acc, f.name ∉ acc.dict.map Prod.fst →
      ((fieldVisit get byAlias byName prep f acc.dict acc.st).1.Plain → step f acc = (.ok (),
        acc.after [(fieldVisit get byAlias byName prep f acc.dict acc.st).1] err sup
          (fieldVisit get byAlias byName prep f acc.dict acc.st).2)) ∧
      (¬ (fieldVisit get byAlias byName prep f acc.dict acc.st).1.Plain →
        ∃ e, (fieldVisit get byAlias byName prep f acc.dict acc.st).1.raises e ∧
          (step f acc).1 = .error e)) :
    ∀ (fs : List (Field α)) (acc : FAcc α),
      (acc.dict.map Prod.fst ++ fs.map Field.name).Nodup →
      ((∀ x ∈ (fieldVisits get byAlias byName prep fs acc.dict acc.st).1, x.Plain) →
        loop fs acc = (.ok (), acc.after (fieldVisits get byAlias byName prep fs acc.dict acc.st).1
          err sup (fieldVisits get byAlias byName prep fs acc.dict acc.st).2)) ∧
      (∀ pre x post, (fieldVisits get byAlias byName prep fs acc.dict acc.st).1 = pre ++ x :: post →
        (∀ y ∈ pre, y.Plain) → ¬ x.Plain → ∃ e, x.raises e ∧ (loop fs acc).1 = .error e)
  | [], acc, _ => by
    refine ⟨fun _ => ?_, fun pre x post h => ?_⟩
    · rw [hnil]; simp [FAcc.after, fieldVisits]
    · simp [fieldVisits] at h
  | f :: fs, acc, hd => by
    have hnew : f.name ∉ acc.dict.map Prod.fst := by
      intro hm
      rw [List.nodup_append] at hd
      exact hd.2.2 _ hm _ (by simp) rfl
    obtain ⟨hp, hr⟩ := hstep f acc hnew
    have hfield := fieldVisit_field get byAlias byName prep f acc.dict acc.st
    simp only [fieldVisits]
    rw [hcons]
    revert hp hr hfield
    generalize fieldVisit get byAlias byName prep f acc.dict acc.st = x0
    obtain ⟨x0, st0⟩ := x0
    dsimp only
    intro hp hr hfield
    have hd' : ((acc.dict ++ x0.output).map Prod.fst ++ fs.map Field.name).Nodup := by
      have hout : x0.output.map Prod.fst = [] ∨ x0.output.map Prod.fst = [f.name] := by
        rw [← hfield]
        unfold FieldVisit.output
        split <;> simp
      simp only [List.map_cons] at hd
      rw [List.map_append]
      rcases hout with ho | ho
      · rw [ho]
        rw [List.nodup_append] at hd ⊢
        refine ⟨by simpa using hd.1, (List.nodup_cons.1 hd.2.1).2, ?_⟩
        intro a ha b hb
        exact hd.2.2 a (by simpa using ha) b (List.mem_cons_of_mem _ hb)
      · rw [ho]; simpa using hd
    have ih := loop_spec get byAlias byName prep err sup step loop hnil hcons hstep fs
      (acc.after [x0] err sup st0) (by simpa [FAcc.after] using hd')
    have hdict : (acc.after [x0] err sup st0).dict = acc.dict ++ x0.output := by simp [FAcc.after]
    have hst : (acc.after [x0] err sup st0).st = st0 := rfl
    rw [hdict, hst] at ih
    refine ⟨fun h => ?_, fun pre x post h hpre hx => ?_⟩
    · have h0 : x0.Plain := h _ (by simp)
      rw [hp h0]
      dsimp only
      rw [ih.1 (fun y hy => h y (List.mem_cons_of_mem _ hy))]
      simp [FAcc.after, List.append_assoc, Nat.add_assoc]
    · cases pre with
      | nil =>
        simp only [List.nil_append, List.cons.injEq] at h
        rw [h.1] at hr
        obtain ⟨e, he, hse⟩ := hr hx
        exact ⟨e, he, by simp [hse]⟩
      | cons y pre =>
        simp only [List.cons_append, List.cons.injEq] at h
        have h0 : x0.Plain := by rw [h.1]; exact hpre y (by simp)
        rw [hp h0]
        dsimp only
        exact ih.2 pre x post h.2 (fun y hy => hpre y (List.mem_cons_of_mem _ hy)) hx

/-- The first element of a list that fails a predicate. -/
theorem first_bad {β : Type} (P : β → Prop) : ∀ (l : List β), (∀ x ∈ l, P x) ∨
    ∃ pre x post, l = pre ++ x :: post ∧ (∀ y ∈ pre, P y) ∧ ¬ P x
  | [] => .inl (by simp)
  | a :: l => by
    by_cases ha : P a
    · rcases first_bad P l with h | ⟨pre, x, post, hl, hpre, hx⟩
      · exact .inl (by intro x hx; rcases List.mem_cons.1 hx with rfl | hx; exact ha; exact h _ hx)
      · refine .inr ⟨a :: pre, x, post, by simp [hl], ?_, hx⟩
        intro y hy
        rcases List.mem_cons.1 hy with rfl | hy
        · exact ha
        · exact hpre _ hy
    · exact .inr ⟨[], a, l, rfl, by simp, ha⟩

theorem model_fieldLoop (m : ModelFields α) (view : DictView α) (input : α) (st : VState α)
    (hd : DistinctNames m.fields) :
    ((∀ x ∈ (m.visits view st).1, x.Plain) →
      m.fieldLoop view input (st.validateByAliasOr m.byAlias) (st.validateByNameOr m.byName) m.fields
        ⟨[], [], [], 0, [], modelState st⟩ = (.ok (), ⟨(m.visits view st).1.flatMap FieldVisit.output,
          (m.visits view st).1.flatMap (FieldVisit.errors input m.locByAlias),
          (m.visits view st).1.flatMap FieldVisit.supplied,
          ((m.visits view st).1.flatMap FieldVisit.supplied).length,
          (m.visits view st).1.flatMap FieldVisit.used, (m.visits view st).2⟩)) ∧
    (∀ pre x post, (m.visits view st).1 = pre ++ x :: post → (∀ y ∈ pre, y.Plain) → ¬ x.Plain →
      ∃ e, x.raises e ∧ (m.fieldLoop view input (st.validateByAliasOr m.byAlias)
        (st.validateByNameOr m.byName) m.fields ⟨[], [], [], 0, [], modelState st⟩).1 = .error e) := by
  have h := loop_spec view.get (st.validateByAliasOr m.byAlias) (st.validateByNameOr m.byName)
    (fun _ st => st) (FieldVisit.errors input m.locByAlias) FieldVisit.supplied
    (m.fieldStep view input (st.validateByAliasOr m.byAlias) (st.validateByNameOr m.byName))
    (m.fieldLoop view input (st.validateByAliasOr m.byAlias) (st.validateByNameOr m.byName))
    (fun _ => rfl) (fun f fs acc => rfl)
    (fun f acc hn => model_fieldStep m view input _ _ f acc hn) m.fields
    ⟨[], [], [], 0, [], modelState st⟩ (by simpa using (show (List.map Field.name _).Nodup from hd))
  simpa [FAcc.after, ModelFields.visits] using h

theorem dict_fieldLoop (t : TypedDict α) (view : DictView α) (input : α) (st : VState α)
    (hd : DistinctNames t.fields) :
    ((∀ x ∈ (t.visits view st).1, x.Plain) →
      t.fieldLoop view input (st.validateByAliasOr t.byAlias) (st.validateByNameOr t.byName)
        (t.lastKey view st) st.allowPartial t.fields
        ⟨[], [], [], 0, [], st⟩ = (.ok (), ⟨(t.visits view st).1.flatMap FieldVisit.output,
          (t.visits view st).1.flatMap (FieldVisit.dictErrors input t.locByAlias (t.lastKey view st)),
          [], ((t.visits view st).1.flatMap FieldVisit.supplied).length,
          (t.visits view st).1.flatMap FieldVisit.used, (t.visits view st).2⟩)) ∧
    (∀ pre x post, (t.visits view st).1 = pre ++ x :: post → (∀ y ∈ pre, y.Plain) → ¬ x.Plain →
      ∃ e, x.raises e ∧ (t.fieldLoop view input (st.validateByAliasOr t.byAlias)
        (st.validateByNameOr t.byName) (t.lastKey view st) st.allowPartial t.fields
        ⟨[], [], [], 0, [], st⟩).1 = .error e) := by
  have h := loop_spec view.get (st.validateByAliasOr t.byAlias) (st.validateByNameOr t.byName)
    (fun path => lastOnly (t.lastKey view st) st.allowPartial (.s path.first))
    (FieldVisit.dictErrors input t.locByAlias (t.lastKey view st)) (fun _ => [])
    (t.fieldStep view input (st.validateByAliasOr t.byAlias) (st.validateByNameOr t.byName)
      (t.lastKey view st) st.allowPartial)
    (t.fieldLoop view input (st.validateByAliasOr t.byAlias) (st.validateByNameOr t.byName)
      (t.lastKey view st) st.allowPartial)
    (fun _ => rfl) (fun f fs acc => rfl)
    (fun f acc hn => dict_fieldStep t view input _ _ _ _ f acc hn) t.fields
    ⟨[], [], [], 0, [], st⟩ (by simpa using (show (List.map Field.name _).Nodup from hd))
  have hz : ∀ l : List (FieldVisit α), (l.flatMap fun _ => ([] : List String)) = [] := by
    intro l; induction l <;> simp_all
  simpa [FAcc.after, TypedDict.visits, hz] using h

/-! ### The loops over the other items -/

/-- The error that ends the loop at an item that is not plain. -/
def ExtraVisit.raises (x : ExtraVisit α) (e : ValError α) : Prop :=
  x.outcome = .badKey e ∨ ∃ k, x.outcome = .entry k (.error e)

theorem model_extraStep (m : ModelFields α) (used : List String) (k v : α) (acc : XAcc α)
    (ha : m.extra = .allow) :
    let x := extraVisit m.keyOps m.extrasKeysV m.extrasV (fun _ st => st) used k v acc.st
    ((∀ y ∈ x.1, y.Plain) → m.extraStep used k v acc = (.ok (),
      ⟨(x.1.toList.flatMap ExtraVisit.output).foldl (fun d kv => Dict.set kv.1 kv.2 d) acc.extra,
        acc.errs ++ x.1.toList.flatMap (ExtraVisit.errors m.keyOps),
        acc.fieldsSet ++ (x.1.toList.flatMap ExtraVisit.output).map Prod.fst, x.2⟩)) ∧
    (∀ y, x.1 = some y → ¬ y.Plain → ∃ e, y.raises e ∧ (m.extraStep used k v acc).1 = .error e) := by
  obtain ⟨xe, er, fse, xst⟩ := acc
  simp only [extraVisit, ModelFields.extraStep, ModelFields.extraKey, ha]
  cases hk : m.keyOps.str k with
  | error e =>
    cases e with
    | lineErrors ls =>
      dsimp only
      refine ⟨fun _ => ?_, fun y hy hp => ?_⟩
      · simp [ExtraVisit.output, ExtraVisit.errors, LineError.withOuterLocation,
          Function.comp_def]
      · cases hy; exact absurd ⟨_, rfl⟩ hp
    | internal e =>
      dsimp only
      refine ⟨fun h => ?_, fun y hy hp => ⟨_, by cases hy; exact .inl rfl, rfl⟩⟩
      obtain ⟨ls, hls⟩ := h _ rfl; cases hls
    | omitted =>
      dsimp only
      refine ⟨fun h => ?_, fun y hy hp => ⟨_, by cases hy; exact .inl rfl, rfl⟩⟩
      obtain ⟨ls, hls⟩ := h _ rfl; cases hls
    | useDefault =>
      dsimp only
      refine ⟨fun h => ?_, fun y hy hp => ⟨_, by cases hy; exact .inl rfl, rfl⟩⟩
      obtain ⟨ls, hls⟩ := h _ rfl; cases hls
  | ok key =>
    dsimp only
    by_cases hu : key ∈ used
    · have hu' : used.contains key = true := by simpa using hu
      simp only [hu, hu', if_true]
      refine ⟨fun _ => by simp, fun y hy => by cases hy⟩
    · have hu' : used.contains key = false := by simpa using hu
      simp only [hu, hu', if_false, Bool.false_eq_true]
      have tail : ∀ (k' : String) (st' : VState α),
          let x : Option (ExtraVisit α) × VState α := match m.extrasV with
            | none => (some ⟨k, v, .entry k' (.ok v)⟩, st')
            | some vv => (some ⟨k, v, .entry k' (vv v st').1⟩, (vv v st').2)
          let s : ValResult α Unit × XAcc α := match m.extrasV with
            | some vv => match (vv v st').1 with
              | .ok w => (.ok (), ⟨xe.set k' w, er, fse ++ [k'], (vv v st').2⟩)
              | .error (.lineErrors ls) => (.ok (),
                  ⟨xe, er ++ ls.map (·.withOuterLocation (m.keyOps.loc k)), fse, (vv v st').2⟩)
              | .error e => (.error e, ⟨xe, er, fse, (vv v st').2⟩)
            | none => (.ok (), ⟨xe.set k' v, er, fse ++ [k'], st'⟩)
          ((∀ y ∈ x.1, y.Plain) → s = (.ok (),
            ⟨(x.1.toList.flatMap ExtraVisit.output).foldl (fun d kv => Dict.set kv.1 kv.2 d) xe,
              er ++ x.1.toList.flatMap (ExtraVisit.errors m.keyOps),
              fse ++ (x.1.toList.flatMap ExtraVisit.output).map Prod.fst, x.2⟩)) ∧
          (∀ y, x.1 = some y → ¬ y.Plain → ∃ e, y.raises e ∧ s.1 = .error e) := by
        intro k' st'
        cases hv : m.extrasV with
        | none =>
          dsimp only
          refine ⟨fun _ => by simp [ExtraVisit.output, ExtraVisit.errors], fun y hy hp => ?_⟩
          cases hy; exact absurd (by intro e he; cases he) hp
        | some vv =>
          dsimp only
          generalize vv v st' = r
          obtain ⟨r, st2⟩ := r
          cases r with
          | ok w =>
            refine ⟨fun _ => by simp [ExtraVisit.output, ExtraVisit.errors], fun y hy hp => ?_⟩
            cases hy; exact absurd (by intro e he; cases he) hp
          | error e =>
            cases e with
            | lineErrors ls =>
              refine ⟨fun _ => by simp [ExtraVisit.output, ExtraVisit.errors], fun y hy hp => ?_⟩
              cases hy; exact absurd (by intro e he; cases he; exact ⟨_, rfl⟩) hp
            | internal e =>
              refine ⟨fun h => ?_, fun y hy hp => ⟨_, by cases hy; exact .inr ⟨_, rfl⟩, rfl⟩⟩
              obtain ⟨ls, hls⟩ := h _ rfl _ rfl; cases hls
            | omitted =>
              refine ⟨fun h => ?_, fun y hy hp => ⟨_, by cases hy; exact .inr ⟨_, rfl⟩, rfl⟩⟩
              obtain ⟨ls, hls⟩ := h _ rfl _ rfl; cases hls
            | useDefault =>
              refine ⟨fun h => ?_, fun y hy hp => ⟨_, by cases hy; exact .inr ⟨_, rfl⟩, rfl⟩⟩
              obtain ⟨ls, hls⟩ := h _ rfl _ rfl; cases hls
      cases hkv : m.extrasKeysV with
      | none =>
        dsimp only
        have := tail key xst
        cases hv : m.extrasV <;> rw [hv] at this <;> exact this
      | some kv =>
        dsimp only
        generalize kv k xst = r
        obtain ⟨r, st1⟩ := r
        cases r with
        | ok w =>
          dsimp only
          cases hdc : m.keyOps.downcast w with
          | none =>
            dsimp only
            refine ⟨fun h => ?_, fun y hy hp => ⟨_, by cases hy; exact .inl rfl, rfl⟩⟩
            obtain ⟨ls, hls⟩ := h _ rfl; cases hls
          | some k' =>
            dsimp only
            have := tail k' st1
            cases hv : m.extrasV <;> rw [hv] at this <;> exact this
        | error e =>
          cases e with
          | lineErrors ls =>
            refine ⟨fun _ => by simp [ExtraVisit.output, ExtraVisit.errors], fun y hy hp => ?_⟩
            cases hy; exact absurd ⟨_, rfl⟩ hp
          | internal e =>
            refine ⟨fun h => ?_, fun y hy hp => ⟨_, by cases hy; exact .inl rfl, rfl⟩⟩
            obtain ⟨ls, hls⟩ := h _ rfl; cases hls
          | omitted =>
            refine ⟨fun h => ?_, fun y hy hp => ⟨_, by cases hy; exact .inl rfl, rfl⟩⟩
            obtain ⟨ls, hls⟩ := h _ rfl; cases hls
          | useDefault =>
            refine ⟨fun h => ?_, fun y hy hp => ⟨_, by cases hy; exact .inl rfl, rfl⟩⟩
            obtain ⟨ls, hls⟩ := h _ rfl; cases hls

theorem dict_extraStep (t : TypedDict α) (used : List String) (lastKey : Option LocItem)
    (saved : PartialMode) (k v : α) (acc : TAcc α) (ha : t.extra = .allow) :
    let x := extraVisit t.keyOps none t.extrasV
      (fun k => lastOnly lastKey saved (t.keyOps.loc k)) used k v acc.st
    ((∀ y ∈ x.1, y.Plain) → t.extraStep used lastKey saved k v acc = (.ok (),
      ⟨(x.1.toList.flatMap ExtraVisit.output).foldl (fun d kv => Dict.set kv.1 kv.2 d) acc.dict,
        acc.errs ++ x.1.toList.flatMap (ExtraVisit.dictErrors t.keyOps lastKey), x.2⟩)) ∧
    (∀ y, x.1 = some y → ¬ y.Plain →
      ∃ e, y.raises e ∧ (t.extraStep used lastKey saved k v acc).1 = .error e) := by
  obtain ⟨xe, er, xst⟩ := acc
  simp only [extraVisit, TypedDict.extraStep, ha]
  cases hk : t.keyOps.str k with
  | error e =>
    cases e with
    | lineErrors ls =>
      dsimp only
      refine ⟨fun _ => ?_, fun y hy hp => ?_⟩
      · simp [ExtraVisit.output, ExtraVisit.dictErrors, ExtraVisit.errors,
          LineError.withOuterLocation, Function.comp_def]
      · cases hy; exact absurd ⟨_, rfl⟩ hp
    | internal e =>
      dsimp only
      refine ⟨fun h => ?_, fun y hy hp => ⟨_, by cases hy; exact .inl rfl, rfl⟩⟩
      obtain ⟨ls, hls⟩ := h _ rfl; cases hls
    | omitted =>
      dsimp only
      refine ⟨fun h => ?_, fun y hy hp => ⟨_, by cases hy; exact .inl rfl, rfl⟩⟩
      obtain ⟨ls, hls⟩ := h _ rfl; cases hls
    | useDefault =>
      dsimp only
      refine ⟨fun h => ?_, fun y hy hp => ⟨_, by cases hy; exact .inl rfl, rfl⟩⟩
      obtain ⟨ls, hls⟩ := h _ rfl; cases hls
  | ok key =>
    dsimp only
    by_cases hu : key ∈ used
    · have hu' : used.contains key = true := by simpa using hu
      simp only [hu, hu', if_true]
      refine ⟨fun _ => by simp, fun y hy => by cases hy⟩
    · have hu' : used.contains key = false := by simpa using hu
      simp only [hu, hu', if_false, Bool.false_eq_true, decide_eq_true_eq]
      cases hv : t.extrasV with
      | none =>
        dsimp only
        refine ⟨fun _ => by simp [ExtraVisit.output, ExtraVisit.dictErrors, ExtraVisit.errors],
          fun y hy hp => ?_⟩
        cases hy; exact absurd (by intro e he; cases he) hp
      | some vv =>
        dsimp only [lastOnly]
        generalize vv v _ = r
        obtain ⟨r, st2⟩ := r
        cases r with
        | ok w =>
          refine ⟨fun _ => by simp [ExtraVisit.output, ExtraVisit.dictErrors, ExtraVisit.errors],
            fun y hy hp => ?_⟩
          cases hy; exact absurd (by intro e he; cases he) hp
        | error e =>
          cases e with
          | lineErrors ls =>
            refine ⟨fun _ => ?_, fun y hy hp => ?_⟩
            · by_cases hl : lastKey = some (t.keyOps.loc k) <;>
                simp [ExtraVisit.output, ExtraVisit.dictErrors, ExtraVisit.errors, hl]
            · cases hy; exact absurd (by intro e he; cases he; exact ⟨_, rfl⟩) hp
          | internal e =>
            refine ⟨fun h => ?_, fun y hy hp => ⟨_, by cases hy; exact .inr ⟨_, rfl⟩, rfl⟩⟩
            obtain ⟨ls, hls⟩ := h _ rfl _ rfl; cases hls
          | omitted =>
            refine ⟨fun h => ?_, fun y hy hp => ⟨_, by cases hy; exact .inr ⟨_, rfl⟩, rfl⟩⟩
            obtain ⟨ls, hls⟩ := h _ rfl _ rfl; cases hls
          | useDefault =>
            refine ⟨fun h => ?_, fun y hy hp => ⟨_, by cases hy; exact .inr ⟨_, rfl⟩, rfl⟩⟩
            obtain ⟨ls, hls⟩ := h _ rfl _ rfl; cases hls

theorem model_extraLoop (m : ModelFields α) (used : List String) (ha : m.extra = .allow) :
    ∀ (entries : List (α × α)) (acc : XAcc α),
      ((∀ y ∈ (extraVisits m.keyOps m.extrasKeysV m.extrasV (fun _ st => st) used entries acc.st).1,
          y.Plain) →
        m.extraLoop used (entries.map .ok) acc = (.ok (),
          ⟨((extraVisits m.keyOps m.extrasKeysV m.extrasV (fun _ st => st) used entries
              acc.st).1.flatMap ExtraVisit.output).foldl (fun d kv => Dict.set kv.1 kv.2 d) acc.extra,
            acc.errs ++ (extraVisits m.keyOps m.extrasKeysV m.extrasV (fun _ st => st) used entries
              acc.st).1.flatMap (ExtraVisit.errors m.keyOps),
            acc.fieldsSet ++ ((extraVisits m.keyOps m.extrasKeysV m.extrasV (fun _ st => st) used
              entries acc.st).1.flatMap ExtraVisit.output).map Prod.fst,
            (extraVisits m.keyOps m.extrasKeysV m.extrasV (fun _ st => st) used entries acc.st).2⟩)) ∧
      (∀ pre x post, (extraVisits m.keyOps m.extrasKeysV m.extrasV (fun _ st => st) used entries
          acc.st).1 = pre ++ x :: post → (∀ y ∈ pre, y.Plain) → ¬ x.Plain →
        ∃ e, x.raises e ∧ (m.extraLoop used (entries.map .ok) acc).1 = .error e)
  | [], acc => by
    refine ⟨fun _ => by simp [ModelFields.extraLoop, extraVisits], fun pre x post h => ?_⟩
    simp [extraVisits] at h
  | (k, v) :: entries, acc => by
    obtain ⟨hp, hr⟩ := model_extraStep m used k v acc ha
    simp only [extraVisits, List.map_cons, ModelFields.extraLoop]
    revert hp hr
    generalize extraVisit m.keyOps m.extrasKeysV m.extrasV (fun _ st => st) used k v acc.st = x0
    obtain ⟨x0, st0⟩ := x0
    dsimp only
    intro hp hr
    refine ⟨fun h => ?_, fun pre x post h hpre hx => ?_⟩
    · rw [hp (fun y hy => h y (List.mem_append_left _ (by simpa using hy)))]
      dsimp only
      have ih := (model_extraLoop m used ha entries
        ⟨(x0.toList.flatMap ExtraVisit.output).foldl (fun d kv => Dict.set kv.1 kv.2 d) acc.extra,
        acc.errs ++ x0.toList.flatMap (ExtraVisit.errors m.keyOps),
        acc.fieldsSet ++ (x0.toList.flatMap ExtraVisit.output).map Prod.fst, st0⟩).1
      rw [ih (fun y hy => h y (List.mem_append_right _ hy))]
      simp [List.flatMap_append, List.foldl_append]
    · cases x0 with
      | none =>
        rw [hp (by simp)]
        dsimp only
        exact (model_extraLoop m used ha entries _).2 pre x post (by simpa using h) hpre hx
      | some y0 =>
        cases pre with
        | nil =>
          simp only [Option.toList_some, List.cons_append, List.nil_append, List.cons.injEq] at h
          obtain ⟨e, he, hs⟩ := hr y0 rfl (by rw [h.1]; exact hx)
          exact ⟨e, h.1 ▸ he, by simp [hs]⟩
        | cons y pre =>
          simp only [Option.toList_some, List.cons_append, List.nil_append, List.cons.injEq] at h
          rw [hp (fun z hz => by cases hz; rw [h.1]; exact hpre _ (by simp))]
          dsimp only
          exact (model_extraLoop m used ha entries _).2 pre x post h.2
            (fun z hz => hpre z (List.mem_cons_of_mem _ hz)) hx

theorem model_extraLoop_forbid (m : ModelFields α) (used : List String) (ha : m.extra = .forbid) :
    ∀ (entries : List (α × α)), PlainKeys m.keyOps entries → ∀ (acc : XAcc α),
      m.extraLoop used (entries.map .ok) acc =
        (.ok (), ⟨acc.extra, acc.errs ++ forbidErrors m.keyOps used entries, acc.fieldsSet, acc.st⟩)
  | [], _, acc => by simp [ModelFields.extraLoop, forbidErrors]
  | (k, v) :: entries, hk, acc => by
    have ih := model_extraLoop_forbid m used ha entries
      (fun kv h => hk kv (List.mem_cons_of_mem _ h))
    simp only [List.map_cons, ModelFields.extraLoop, ModelFields.extraStep, ha]
    cases hs : m.keyOps.str k with
    | error e =>
      obtain ⟨ls, rfl⟩ := hk (k, v) (by simp) e hs
      dsimp only
      rw [ih]
      simp [forbidErrors, hs]
    | ok key =>
      dsimp only
      by_cases hu : key ∈ used
      · have hu' : used.contains key = true := by simpa using hu
        simp only [hu', if_true]
        rw [ih]
        simp [forbidErrors, hs, hu]
      · have hu' : used.contains key = false := by simpa using hu
        simp only [hu', Bool.false_eq_true, if_false]
        rw [ih]
        simp [forbidErrors, hs, hu, LineError.newWithLoc, Location.newSome]

theorem dict_extraLoop (t : TypedDict α) (used : List String) (lastKey : Option LocItem)
    (saved : PartialMode) (ha : t.extra = .allow) :
    ∀ (entries : List (α × α)) (acc : TAcc α),
      ((∀ y ∈ (extraVisits t.keyOps none t.extrasV
          (fun k => lastOnly lastKey saved (t.keyOps.loc k)) used entries acc.st).1, y.Plain) →
        t.extraLoop used lastKey saved (entries.map .ok) acc = (.ok (),
          ⟨((extraVisits t.keyOps none t.extrasV (fun k => lastOnly lastKey saved (t.keyOps.loc k))
              used entries acc.st).1.flatMap ExtraVisit.output).foldl
                (fun d kv => Dict.set kv.1 kv.2 d) acc.dict,
            acc.errs ++ (extraVisits t.keyOps none t.extrasV
              (fun k => lastOnly lastKey saved (t.keyOps.loc k)) used entries
              acc.st).1.flatMap (ExtraVisit.dictErrors t.keyOps lastKey),
            (extraVisits t.keyOps none t.extrasV (fun k => lastOnly lastKey saved (t.keyOps.loc k))
              used entries acc.st).2⟩)) ∧
      (∀ pre x post, (extraVisits t.keyOps none t.extrasV
          (fun k => lastOnly lastKey saved (t.keyOps.loc k)) used entries acc.st).1 =
            pre ++ x :: post → (∀ y ∈ pre, y.Plain) → ¬ x.Plain →
        ∃ e, x.raises e ∧ (t.extraLoop used lastKey saved (entries.map .ok) acc).1 = .error e)
  | [], acc => by
    refine ⟨fun _ => by simp [TypedDict.extraLoop, extraVisits], fun pre x post h => ?_⟩
    simp [extraVisits] at h
  | (k, v) :: entries, acc => by
    obtain ⟨hp, hr⟩ := dict_extraStep t used lastKey saved k v acc ha
    simp only [extraVisits, List.map_cons, TypedDict.extraLoop]
    revert hp hr
    generalize extraVisit t.keyOps none t.extrasV
      (fun k => lastOnly lastKey saved (t.keyOps.loc k)) used k v acc.st = x0
    obtain ⟨x0, st0⟩ := x0
    dsimp only
    intro hp hr
    refine ⟨fun h => ?_, fun pre x post h hpre hx => ?_⟩
    · rw [hp (fun y hy => h y (List.mem_append_left _ (by simpa using hy)))]
      dsimp only
      have ih := (dict_extraLoop t used lastKey saved ha entries
        ⟨(x0.toList.flatMap ExtraVisit.output).foldl (fun d kv => Dict.set kv.1 kv.2 d) acc.dict,
        acc.errs ++ x0.toList.flatMap (ExtraVisit.dictErrors t.keyOps lastKey), st0⟩).1
      rw [ih (fun y hy => h y (List.mem_append_right _ hy))]
      simp [List.flatMap_append, List.foldl_append]
    · cases x0 with
      | none =>
        rw [hp (by simp)]
        dsimp only
        exact (dict_extraLoop t used lastKey saved ha entries _).2 pre x post (by simpa using h)
          hpre hx
      | some y0 =>
        cases pre with
        | nil =>
          simp only [Option.toList_some, List.cons_append, List.nil_append, List.cons.injEq] at h
          obtain ⟨e, he, hs⟩ := hr y0 rfl (by rw [h.1]; exact hx)
          exact ⟨e, h.1 ▸ he, by simp [hs]⟩
        | cons y pre =>
          simp only [Option.toList_some, List.cons_append, List.nil_append, List.cons.injEq] at h
          rw [hp (fun z hz => by cases hz; rw [h.1]; exact hpre _ (by simp))]
          dsimp only
          exact (dict_extraLoop t used lastKey saved ha entries _).2 pre x post h.2
            (fun z hz => hpre z (List.mem_cons_of_mem _ hz)) hx

theorem dict_extraLoop_forbid (t : TypedDict α) (used : List String) (lastKey : Option LocItem)
    (saved : PartialMode) (ha : t.extra = .forbid) :
    ∀ (entries : List (α × α)), PlainKeys t.keyOps entries → ∀ (acc : TAcc α),
      t.extraLoop used lastKey saved (entries.map .ok) acc =
        (.ok (), ⟨acc.dict, acc.errs ++ forbidErrors t.keyOps used entries, acc.st⟩)
  | [], _, acc => by simp [TypedDict.extraLoop, forbidErrors]
  | (k, v) :: entries, hk, acc => by
    have ih := dict_extraLoop_forbid t used lastKey saved ha entries
      (fun kv h => hk kv (List.mem_cons_of_mem _ h))
    simp only [List.map_cons, TypedDict.extraLoop, TypedDict.extraStep, ha]
    cases hs : t.keyOps.str k with
    | error e =>
      obtain ⟨ls, rfl⟩ := hk (k, v) (by simp) e hs
      dsimp only
      rw [ih]
      simp [forbidErrors, hs]
    | ok key =>
      dsimp only
      by_cases hu : key ∈ used
      · have hu' : used.contains key = true := by simpa using hu
        simp only [hu', if_true]
        rw [ih]
        simp [forbidErrors, hs, hu]
      · have hu' : used.contains key = false := by simpa using hu
        simp only [hu', Bool.false_eq_true, if_false]
        rw [ih]
        simp [forbidErrors, hs, hu, LineError.newWithLoc, Location.newSome]

/-! ### `validate` as a whole -/

theorem finish_eq (m : ModelFields α) (dict : Dict α) (extra : Option (Dict α))
    (errs : List (LineError α)) (fieldsSet : List String) (count : Nat) (st : VState α) :
    m.finish dict extra errs fieldsSet count st =
      (outcomeOf errs ⟨dict, if m.extra = .allow ∧ extra.isNone then some [] else extra, fieldsSet⟩,
        if errs = [] then st.addFieldsSet count else st) := by
  unfold ModelFields.finish outcomeOf
  cases errs <;> simp

theorem dict_finish_eq (t : TypedDict α) (dict : Dict α) (errs : List (LineError α))
    (st : VState α) : t.finish dict errs st = (outcomeOf errs (t.build dict), st) := by
  unfold TypedDict.finish outcomeOf
  cases errs <;> simp

theorem model_validate_eq (m : ModelFields α) (input : α) (st : VState α) (view : DictView α)
    (hv : m.Reads input st view) :
    m.validate input st = m.afterFields view (m.fieldLoop view input (st.validateByAliasOr m.byAlias)
      (st.validateByNameOr m.byName) m.fields ⟨[], [], [], 0, [], modelState st⟩) := by
  have hv' : m.asFields ((modelState st).strictOr m.strict)
      ((modelState st).extra.fromAttributes.getD m.fromAttributes) input = .ok view := hv
  change (match m.asFields ((modelState st).strictOr m.strict)
      ((modelState st).extra.fromAttributes.getD m.fromAttributes) input with
    | .error e => (Except.error (toModelType e), modelState st)
    | .ok view => m.afterFields view (m.fieldLoop view input (st.validateByAliasOr m.byAlias)
      (st.validateByNameOr m.byName) m.fields ⟨[], [], [], 0, [], modelState st⟩)) = _
  rw [hv']

theorem dict_validate_eq (t : TypedDict α) (input : α) (st : VState α) (view : DictView α)
    (hv : t.Reads input st view) :
    t.validate input st = t.afterFields view (t.lastKey view st) st.allowPartial
      (t.fieldLoop view input (st.validateByAliasOr t.byAlias)
      (st.validateByNameOr t.byName) (t.lastKey view st) st.allowPartial t.fields
      ⟨[], [], [], 0, [], st⟩) := by
  unfold TypedDict.Reads at hv
  unfold TypedDict.validate
  rw [hv]
  rfl

theorem model_validate_ignore (m : ModelFields α) (input : α) (st : VState α) (view : DictView α)
    (hv : m.Reads input st view) (hd : DistinctNames m.fields)
    (hi : m.extra = .ignore ∨ view.isPyGetAttr = true)
    (hp : ∀ x ∈ (m.visits view st).1, x.Plain) :
    m.validate input st =
      (outcomeOf ((m.visits view st).1.flatMap (FieldVisit.errors input m.locByAlias))
        ⟨(m.visits view st).1.flatMap FieldVisit.output, if m.extra = .allow then some [] else none,
          (m.visits view st).1.flatMap FieldVisit.supplied⟩,
        if (m.visits view st).1.flatMap (FieldVisit.errors input m.locByAlias) = [] then
          (m.visits view st).2.addFieldsSet
            ((m.visits view st).1.flatMap FieldVisit.supplied).length
        else (m.visits view st).2) := by
  have hl := (model_fieldLoop m view input st hd).1 hp
  rw [model_validate_eq m input st view hv, hl]
  unfold ModelFields.afterFields
  dsimp only
  rw [if_pos hi, finish_eq]
  simp only [Option.isNone_none, and_true]

theorem model_validate_forbid (m : ModelFields α) (input : α) (st : VState α) (view : DictView α)
    (entries : List (α × α)) (hv : m.Reads input st view) (hd : DistinctNames m.fields)
    (hi : m.extra = .forbid) (ha : view.isPyGetAttr = false)
    (he : view.entries = .ok (entries.map .ok)) (hk : PlainKeys m.keyOps entries)
    (hp : ∀ x ∈ (m.visits view st).1, x.Plain) :
    m.validate input st =
      (outcomeOf ((m.visits view st).1.flatMap (FieldVisit.errors input m.locByAlias) ++
          forbidErrors m.keyOps ((m.visits view st).1.flatMap FieldVisit.used) entries)
        ⟨(m.visits view st).1.flatMap FieldVisit.output, none,
          (m.visits view st).1.flatMap FieldVisit.supplied⟩,
        if (m.visits view st).1.flatMap (FieldVisit.errors input m.locByAlias) ++
            forbidErrors m.keyOps ((m.visits view st).1.flatMap FieldVisit.used) entries = [] then
          (m.visits view st).2.addFieldsSet
            ((m.visits view st).1.flatMap FieldVisit.supplied).length
        else (m.visits view st).2) := by
  have hl := (model_fieldLoop m view input st hd).1 hp
  rw [model_validate_eq m input st view hv, hl]
  unfold ModelFields.afterFields
  dsimp only
  rw [if_neg (by simp [hi, ha]), he]
  dsimp only
  rw [model_extraLoop_forbid m _ hi entries hk]
  dsimp only
  rw [finish_eq]
  simp only [hi, reduceCtorEq, false_and, if_false]

theorem model_validate_allow (m : ModelFields α) (input : α) (st : VState α) (view : DictView α)
    (entries : List (α × α)) (hv : m.Reads input st view) (hd : DistinctNames m.fields)
    (hi : m.extra = .allow) (ha : view.isPyGetAttr = false)
    (he : view.entries = .ok (entries.map .ok))
    (hp : ∀ x ∈ (m.visits view st).1, x.Plain)
    (hx : ∀ x ∈ (m.extras view entries st).1, x.Plain) :
    m.validate input st =
      (outcomeOf ((m.visits view st).1.flatMap (FieldVisit.errors input m.locByAlias) ++
          (m.extras view entries st).1.flatMap (ExtraVisit.errors m.keyOps))
        ⟨(m.visits view st).1.flatMap FieldVisit.output,
          some (dictOf ((m.extras view entries st).1.flatMap ExtraVisit.output)),
          (m.visits view st).1.flatMap FieldVisit.supplied ++
            ((m.extras view entries st).1.flatMap ExtraVisit.output).map Prod.fst⟩,
        if (m.visits view st).1.flatMap (FieldVisit.errors input m.locByAlias) ++
            (m.extras view entries st).1.flatMap (ExtraVisit.errors m.keyOps) = [] then
          (m.extras view entries st).2.addFieldsSet
            ((m.visits view st).1.flatMap FieldVisit.supplied).length
        else (m.extras view entries st).2) := by
  have hl := (model_fieldLoop m view input st hd).1 hp
  rw [model_validate_eq m input st view hv, hl]
  unfold ModelFields.afterFields
  dsimp only
  rw [if_neg (by simp [hi, ha]), he]
  dsimp only
  have hx' := (model_extraLoop m ((m.visits view st).1.flatMap FieldVisit.used) hi entries
    ⟨[], (m.visits view st).1.flatMap (FieldVisit.errors input m.locByAlias),
      (m.visits view st).1.flatMap FieldVisit.supplied, (m.visits view st).2⟩).1 hx
  rw [hx']
  dsimp only
  rw [finish_eq]
  simp only [hi, if_true, Option.isNone_some, Bool.false_eq_true, and_false, if_false]
  rfl

/-- A field that raises ends the validation with what it raised. -/
theorem model_validate_raises (m : ModelFields α) (input : α) (st : VState α) (view : DictView α)
    (hv : m.Reads input st view) (hd : DistinctNames m.fields)
    (pre : List (FieldVisit α)) (x : FieldVisit α) (post : List (FieldVisit α))
    (hs : (m.visits view st).1 = pre ++ x :: post) (hpre : ∀ y ∈ pre, y.Plain) (hx : ¬ x.Plain) :
    ∃ e, x.raises e ∧ (m.validate input st).1 = .error e := by
  obtain ⟨e, he, hl⟩ := (model_fieldLoop m view input st hd).2 pre x post hs hpre hx
  refine ⟨e, he, ?_⟩
  rw [model_validate_eq m input st view hv]
  unfold ModelFields.afterFields
  rw [hl]

/-- An extra item that raises ends the validation with what it raised. -/
theorem model_validate_extra_raises (m : ModelFields α) (input : α) (st : VState α)
    (view : DictView α) (entries : List (α × α)) (hv : m.Reads input st view)
    (hd : DistinctNames m.fields) (hi : m.extra = .allow) (ha : view.isPyGetAttr = false)
    (he : view.entries = .ok (entries.map .ok)) (hp : ∀ x ∈ (m.visits view st).1, x.Plain)
    (pre : List (ExtraVisit α)) (x : ExtraVisit α) (post : List (ExtraVisit α))
    (hs : (m.extras view entries st).1 = pre ++ x :: post) (hpre : ∀ y ∈ pre, y.Plain)
    (hx : ¬ x.Plain) :
    ∃ e, x.raises e ∧ (m.validate input st).1 = .error e := by
  have hl := (model_fieldLoop m view input st hd).1 hp
  obtain ⟨e, hr, hx'⟩ := (model_extraLoop m ((m.visits view st).1.flatMap FieldVisit.used) hi entries
    ⟨[], (m.visits view st).1.flatMap (FieldVisit.errors input m.locByAlias),
      (m.visits view st).1.flatMap FieldVisit.supplied, (m.visits view st).2⟩).2 pre x post hs hpre hx
  refine ⟨e, hr, ?_⟩
  rw [model_validate_eq m input st view hv, hl]
  unfold ModelFields.afterFields
  dsimp only
  rw [if_neg (by simp [hi, ha]), he]
  dsimp only
  rw [hx']

theorem dict_validate_ignore (t : TypedDict α) (input : α) (st : VState α) (view : DictView α)
    (hv : t.Reads input st view) (hd : DistinctNames t.fields)
    (hi : t.extra = .ignore ∨ view.isPyGetAttr = true)
    (hp : ∀ x ∈ (t.visits view st).1, x.Plain) :
    t.validate input st =
      (outcomeOf ((t.visits view st).1.flatMap
          (FieldVisit.dictErrors input t.locByAlias (t.lastKey view st)))
        (t.build ((t.visits view st).1.flatMap FieldVisit.output)),
        (t.visits view st).2.addFieldsSet
          ((t.visits view st).1.flatMap FieldVisit.supplied).length) := by
  have hl := (dict_fieldLoop t view input st hd).1 hp
  rw [dict_validate_eq t input st view hv, hl]
  unfold TypedDict.afterFields
  dsimp only
  rw [if_pos hi, dict_finish_eq]

theorem dict_validate_forbid (t : TypedDict α) (input : α) (st : VState α) (view : DictView α)
    (entries : List (α × α)) (hv : t.Reads input st view) (hd : DistinctNames t.fields)
    (hi : t.extra = .forbid) (ha : view.isPyGetAttr = false)
    (he : view.entries = .ok (entries.map .ok)) (hk : PlainKeys t.keyOps entries)
    (hp : ∀ x ∈ (t.visits view st).1, x.Plain) :
    t.validate input st =
      (outcomeOf ((t.visits view st).1.flatMap
          (FieldVisit.dictErrors input t.locByAlias (t.lastKey view st)) ++
          forbidErrors t.keyOps ((t.visits view st).1.flatMap FieldVisit.used) entries)
        (t.build ((t.visits view st).1.flatMap FieldVisit.output)),
        (t.visits view st).2.addFieldsSet
          ((t.visits view st).1.flatMap FieldVisit.supplied).length) := by
  have hl := (dict_fieldLoop t view input st hd).1 hp
  rw [dict_validate_eq t input st view hv, hl]
  unfold TypedDict.afterFields
  dsimp only
  rw [if_neg (by simp [hi, ha]), he]
  dsimp only
  rw [dict_extraLoop_forbid t _ _ _ hi entries hk]
  dsimp only
  rw [dict_finish_eq]

theorem dict_validate_allow (t : TypedDict α) (input : α) (st : VState α) (view : DictView α)
    (entries : List (α × α)) (hv : t.Reads input st view) (hd : DistinctNames t.fields)
    (hi : t.extra = .allow) (ha : view.isPyGetAttr = false)
    (he : view.entries = .ok (entries.map .ok))
    (hp : ∀ x ∈ (t.visits view st).1, x.Plain)
    (hx : ∀ x ∈ (t.extras view entries st).1, x.Plain) :
    t.validate input st =
      (outcomeOf ((t.visits view st).1.flatMap
          (FieldVisit.dictErrors input t.locByAlias (t.lastKey view st)) ++
          (t.extras view entries st).1.flatMap
            (ExtraVisit.dictErrors t.keyOps (t.lastKey view st)))
        (t.build (Dict.update ((t.visits view st).1.flatMap FieldVisit.output)
          ((t.extras view entries st).1.flatMap ExtraVisit.output))),
        (t.extras view entries st).2) := by
  have hl := (dict_fieldLoop t view input st hd).1 hp
  rw [dict_validate_eq t input st view hv, hl]
  unfold TypedDict.afterFields
  dsimp only
  rw [if_neg (by simp [hi, ha]), he]
  dsimp only
  have hx' := (dict_extraLoop t ((t.visits view st).1.flatMap FieldVisit.used) (t.lastKey view st)
    st.allowPartial hi entries ⟨(t.visits view st).1.flatMap FieldVisit.output,
      (t.visits view st).1.flatMap
        (FieldVisit.dictErrors input t.locByAlias (t.lastKey view st)),
      (t.visits view st).2.addFieldsSet
        ((t.visits view st).1.flatMap FieldVisit.supplied).length⟩).1 hx
  rw [hx']
  dsimp only
  rw [dict_finish_eq]
  rfl

theorem dict_validate_raises (t : TypedDict α) (input : α) (st : VState α) (view : DictView α)
    (hv : t.Reads input st view) (hd : DistinctNames t.fields)
    (pre : List (FieldVisit α)) (x : FieldVisit α) (post : List (FieldVisit α))
    (hs : (t.visits view st).1 = pre ++ x :: post) (hpre : ∀ y ∈ pre, y.Plain) (hx : ¬ x.Plain) :
    ∃ e, x.raises e ∧ (t.validate input st).1 = .error e := by
  obtain ⟨e, he, hl⟩ := (dict_fieldLoop t view input st hd).2 pre x post hs hpre hx
  refine ⟨e, he, ?_⟩
  rw [dict_validate_eq t input st view hv]
  unfold TypedDict.afterFields
  rw [hl]

theorem model_extraLoop_ok (m : ModelFields α) (used : List String) :
    ∀ (es : List (ValResult α (α × α))) (acc : XAcc α), (m.extraLoop used es acc).1 = .ok () →
      ∃ entries : List (α × α), es = entries.map .ok ∧ PlainKeys m.keyOps entries
  | [], _, _ => ⟨[], rfl, by simp [PlainKeys]⟩
  | .error e :: _, acc, h => by cases h
  | .ok (k, v) :: es, acc, h => by
    simp only [ModelFields.extraLoop] at h
    cases hs : (m.extraStep used k v acc).1 with
    | error e => rw [hs] at h; cases h
    | ok u =>
      rw [hs] at h
      obtain ⟨entries, he, hk⟩ := model_extraLoop_ok m used es _ h
      refine ⟨(k, v) :: entries, by simp [he], ?_⟩
      intro kv hkv e hke
      rcases List.mem_cons.1 hkv with rfl | hkv
      · cases e with
        | lineErrors ls => exact ⟨ls, rfl⟩
        | _ => simp [ModelFields.extraStep, hke] at hs
      · exact hk kv hkv e hke

/-- Everything that is known when a model validation accepts. -/
theorem model_ok (m : ModelFields α) (input : α) (st : VState α) (view : DictView α)
    (hv : m.Reads input st view) (hd : DistinctNames m.fields) (out : ModelOut α)
    (hok : (m.validate input st).1 = .ok out) :
    (∀ x ∈ (m.visits view st).1, x.Plain) ∧
    (m.visits view st).1.flatMap (FieldVisit.errors input m.locByAlias) = [] ∧
    out.dict = (m.visits view st).1.flatMap FieldVisit.output ∧
    ((m.extra = .ignore ∨ view.isPyGetAttr = true) ∧
        out.fieldsSet = (m.visits view st).1.flatMap FieldVisit.supplied ∧
        out.extra = (if m.extra = .allow then some [] else none) ∨
      view.isPyGetAttr = false ∧ ∃ entries, view.entries = .ok (entries.map .ok) ∧
        (m.extra = .forbid ∧
          forbidErrors m.keyOps ((m.visits view st).1.flatMap FieldVisit.used) entries = [] ∧
          PlainKeys m.keyOps entries ∧
          out.fieldsSet = (m.visits view st).1.flatMap FieldVisit.supplied ∧ out.extra = none ∨
        m.extra = .allow ∧ (∀ x ∈ (m.extras view entries st).1, x.Plain) ∧
          (m.extras view entries st).1.flatMap (ExtraVisit.errors m.keyOps) = [] ∧
          out.extra = some (dictOf ((m.extras view entries st).1.flatMap ExtraVisit.output)) ∧
          out.fieldsSet = (m.visits view st).1.flatMap FieldVisit.supplied ++
            ((m.extras view entries st).1.flatMap ExtraVisit.output).map Prod.fst)) := by
  have hp : ∀ x ∈ (m.visits view st).1, x.Plain := by
    rcases first_bad FieldVisit.Plain (m.visits view st).1 with h | ⟨pre, x, post, hs, hpre, hx⟩
    · exact h
    · obtain ⟨e, -, he⟩ := model_validate_raises m input st view hv hd pre x post hs hpre hx
      rw [he] at hok; cases hok
  have split : ∀ (errs : List (LineError α)) (o : ModelOut α), outcomeOf errs o = .ok out →
      errs = [] ∧ o = out := by
    intro errs o h
    unfold outcomeOf at h
    split at h
    · cases h; exact ⟨by assumption, rfl⟩
    · cases h
  by_cases hi : m.extra = .ignore ∨ view.isPyGetAttr = true
  · rw [model_validate_ignore m input st view hv hd hi hp] at hok
    obtain ⟨h1, rfl⟩ := split _ _ hok
    exact ⟨hp, h1, rfl, .inl ⟨hi, rfl, rfl⟩⟩
  · have hl := (model_fieldLoop m view input st hd).1 hp
    have hentries : ∃ entries : List (α × α), view.entries = .ok (entries.map .ok) ∧
        PlainKeys m.keyOps entries := by
      rw [model_validate_eq m input st view hv, hl] at hok
      unfold ModelFields.afterFields at hok
      dsimp only at hok
      rw [if_neg hi] at hok
      cases hve : view.entries with
      | error e => rw [hve] at hok; cases hok
      | ok es =>
        rw [hve] at hok
        dsimp only at hok
        generalize hacc : (⟨[], _, _, _⟩ : XAcc α) = acc at hok
        cases hx : (m.extraLoop ((m.visits view st).1.flatMap FieldVisit.used) es acc).1 with
        | error e => rw [hx] at hok; cases hok
        | ok u =>
          obtain ⟨entries, he, hk⟩ := model_extraLoop_ok m _ es acc hx
          exact ⟨entries, by rw [he], hk⟩
    obtain ⟨entries, he, hk⟩ := hentries
    have ha : view.isPyGetAttr = false := by
      cases h : view.isPyGetAttr with
      | false => rfl
      | true => exact absurd (.inr h) hi
    cases hb : m.extra with
    | ignore => exact absurd (.inl hb) hi
    | forbid =>
      rw [model_validate_forbid m input st view entries hv hd hb ha he hk hp] at hok
      obtain ⟨h1, rfl⟩ := split _ _ hok
      rw [List.append_eq_nil_iff] at h1
      exact ⟨hp, h1.1, rfl, .inr ⟨ha, entries, he, .inl ⟨rfl, h1.2, hk, rfl, rfl⟩⟩⟩
    | allow =>
      rcases first_bad ExtraVisit.Plain (m.extras view entries st).1 with
        hx | ⟨pre, x, post, hs, hpre, hx⟩
      · rw [model_validate_allow m input st view entries hv hd hb ha he hp hx] at hok
        obtain ⟨h1, rfl⟩ := split _ _ hok
        rw [List.append_eq_nil_iff] at h1
        exact ⟨hp, h1.1, rfl, .inr ⟨ha, entries, he, .inr ⟨rfl, hx, h1.2, rfl, rfl⟩⟩⟩
      · obtain ⟨e, -, her⟩ := model_validate_extra_raises m input st view entries hv hd hb ha he hp
          pre x post hs hpre hx
        rw [her] at hok; cases hok

/-- Where a field's visit takes place: after the visits of the fields before it. -/
theorem fieldVisits_mem (get : LookupKey → ValResult α (Option (LookupPath × α)))
    (byAlias byName : Bool) (prep : LookupPath → VState α → VState α) :
    ∀ (fs : List (Field α)) (data : Dict α) (st : VState α) (f : Field α), f ∈ fs →
      ∃ pre x post st0, (fieldVisits get byAlias byName prep fs data st).1 = pre ++ x :: post ∧
        x = (fieldVisit get byAlias byName prep f (data ++ pre.flatMap FieldVisit.output) st0).1 ∧
        st0.extra = st.extra
  | [], _, _, _, h => by cases h
  | g :: fs, data, st, f, h => by
    simp only [fieldVisits]
    rcases List.mem_cons.1 h with rfl | h
    · exact ⟨[], _, _, st, rfl, by simp, rfl⟩
    · obtain ⟨pre, x, post, st0, h1, h2, h3⟩ := fieldVisits_mem get byAlias byName prep fs
        (data ++ (fieldVisit get byAlias byName prep g data st).1.output)
        (fieldVisit get byAlias byName prep g data st).2 f h
      refine ⟨_ :: pre, x, post, st0, by rw [h1]; rfl, by simpa using h2, ?_⟩
      rw [h3]
      unfold fieldVisit
      split
      · rfl
      · split <;> rfl

/-- Looking up a visited field's name among the outputs finds that field's output. -/
theorem get_outputs : ∀ (xs : List (FieldVisit α)), (xs.map (·.field.name)).Nodup →
    ∀ x ∈ xs, Dict.get x.field.name (xs.flatMap FieldVisit.output) = x.output.head?.map Prod.snd := by
  have app : ∀ (a b : Dict α) (k : String), (a ++ b).get k = (a.get k).or (b.get k) := by
    intro a b k
    induction a with
    | nil => simp [Dict.get]
    | cons kv a ih =>
      obtain ⟨k', v⟩ := kv
      simp only [List.cons_append, Dict.get]
      by_cases h : k' = k <;> simp [h, ih]
  intro xs
  induction xs with
  | nil => intro _ x hx; cases hx
  | cons y xs ih =>
    intro hd x hx
    simp only [List.map_cons, List.nodup_cons] at hd
    simp only [List.flatMap_cons, app]
    rcases List.mem_cons.1 hx with rfl | hx
    · have hnone : Dict.get x.field.name (xs.flatMap FieldVisit.output) = none := by
        rw [Dict.get_eq_none]
        intro hm
        obtain ⟨kv, hkv, hk⟩ := List.mem_map.1 hm
        obtain ⟨z, hz, hkv⟩ := List.mem_flatMap.1 hkv
        exact hd.1 (List.mem_map.2 ⟨z, hz, by rw [← output_name z kv hkv, hk]⟩)
      rw [hnone]
      unfold FieldVisit.output
      split <;> simp [Dict.get]
    · have hne : y.field.name ≠ x.field.name := by
        intro h
        exact hd.1 (h ▸ List.mem_map.2 ⟨x, hx, rfl⟩)
      have hnone : y.output.get x.field.name = none := by
        rw [Dict.get_eq_none]
        intro hm
        obtain ⟨kv, hkv, hk⟩ := List.mem_map.1 hm
        exact hne (by rw [← output_name y kv hkv, hk])
      rw [hnone, ih hd.2 x hx]
      simp

/-- The outputs' names are the visited fields' names, in order, some left out. -/
theorem outputs_sublist : ∀ (xs : List (FieldVisit α)),
    List.Sublist ((xs.flatMap FieldVisit.output).map Prod.fst) (xs.map (·.field.name))
  | [] => List.Sublist.slnil
  | x :: xs => by
    simp only [List.flatMap_cons, List.map_append, List.map_cons]
    have h : x.output.map Prod.fst = [] ∨ x.output.map Prod.fst = [x.field.name] := by
      unfold FieldVisit.output
      split <;> simp
    rcases h with h | h
    · rw [h]; exact (outputs_sublist xs).cons _
    · rw [h]; exact (outputs_sublist xs).cons_cons _

theorem mem_supplied (xs : List (FieldVisit α)) (hd : (xs.map (·.field.name)).Nodup)
    (x : FieldVisit α) (hx : x ∈ xs) :
    x.field.name ∈ xs.flatMap FieldVisit.supplied ↔ x.supplied ≠ [] := by
  have hs : ∀ y : FieldVisit α, ∀ n ∈ y.supplied, n = y.field.name := by
    intro y n hn
    unfold FieldVisit.supplied at hn
    split at hn
    · simpa using hn
    · cases hn
  constructor
  · intro h
    obtain ⟨y, hy, hn⟩ := List.mem_flatMap.1 h
    have hname := hs y _ hn
    have : y = x := by
      clear h hn
      induction xs with
      | nil => cases hx
      | cons z xs ih =>
        simp only [List.map_cons, List.nodup_cons] at hd
        rcases List.mem_cons.1 hx with hx' | hx' <;> rcases List.mem_cons.1 hy with hy' | hy'
        · rw [hx', hy']
        · exact absurd (List.mem_map.2 ⟨y, hy', by rw [← hname, hx']⟩) hd.1
        · exact absurd (List.mem_map.2 ⟨x, hx', by rw [hname, hy']⟩) hd.1
        · exact ih hd.2 hx' hy'
    rw [this] at hn
    exact List.ne_nil_of_mem hn
  · intro h
    obtain ⟨n, l, hl⟩ := List.exists_cons_of_ne_nil h
    have hn : n ∈ x.supplied := by rw [hl]; simp
    rw [← hs x n hn]
    exact List.mem_flatMap.2 ⟨x, hx, hn⟩

theorem visits_names (m : ModelFields α) (view : DictView α) (st : VState α) :
    (m.visits view st).1.map (·.field.name) = m.fields.map Field.name := by
  have hf := fieldVisits_fields view.get (st.validateByAliasOr m.byAlias)
      (st.validateByNameOr m.byName) (fun _ st => st) m.fields [] (modelState st)
  unfold ModelFields.visits
  conv => rhs; rw [← hf]
  rw [List.map_map]; rfl

/-- The names of the fields whose value was supplied and accepted. -/
theorem mem_supplied_iff (m : ModelFields α) (view : DictView α) (st : VState α)
    (hd : DistinctNames m.fields) (dict : Dict α)
    (ho : dict = (m.visits view st).1.flatMap FieldVisit.output) (name : String) :
    name ∈ (m.visits view st).1.flatMap FieldVisit.supplied ↔
      ∃ f ∈ m.fields, f.name = name ∧ (Dict.get name dict).isSome ∧
      ∃ key path value,
        f.keys.select (st.validateByAliasOr m.byAlias) (st.validateByNameOr m.byName) = .ok key ∧
        view.get key = .ok (some (path, value)) := by
  have hnd : ((m.visits view st).1.map (·.field.name)).Nodup := by rw [visits_names]; exact hd
  have hmem : ∀ f ∈ m.fields, ∃ x ∈ (m.visits view st).1, ∃ data st0,
      x = (fieldVisit view.get (st.validateByAliasOr m.byAlias) (st.validateByNameOr m.byName)
        (fun _ st => st) f data st0).1 := by
    intro f hf
    obtain ⟨pre, x, post, st0, h1, h2, -⟩ := fieldVisits_mem view.get
      (st.validateByAliasOr m.byAlias) (st.validateByNameOr m.byName) (fun _ st => st) m.fields []
      (modelState st) f hf
    exact ⟨x, by unfold ModelFields.visits; rw [h1]; simp, _, st0, h2⟩
  have hkey : ∀ f data st0, (x : FieldVisit α) →
      x = (fieldVisit view.get (st.validateByAliasOr m.byAlias) (st.validateByNameOr m.byName)
        (fun _ st => st) f data st0).1 →
      (x.supplied ≠ [] ↔ (x.output.head?.map Prod.snd).isSome ∧ ∃ key path value,
        f.keys.select (st.validateByAliasOr m.byAlias) (st.validateByNameOr m.byName) = .ok key ∧
        view.get key = .ok (some (path, value))) := by
    intro f data st0 x hx
    unfold fieldVisit at hx
    cases hk : f.keys.select (st.validateByAliasOr m.byAlias) (st.validateByNameOr m.byName) with
    | error e => rw [hk] at hx; subst hx; simp [FieldVisit.supplied, FieldVisit.output]
    | ok key =>
      rw [hk] at hx
      dsimp only at hx
      cases hg : view.get key with
      | error e =>
        rw [hg] at hx
        cases e <;> subst hx <;> simp [FieldVisit.supplied, FieldVisit.output]
      | ok o =>
        rw [hg] at hx
        cases o with
        | some pv =>
          obtain ⟨path, value⟩ := pv
          dsimp only at hx
          subst hx
          simp only [FieldVisit.supplied, FieldVisit.output]
          generalize (f.run value _).1 = r
          cases r with
          | ok v => simp [hg]
          | error e => simp
        | none =>
          dsimp only at hx
          subst hx
          simp [FieldVisit.supplied, hg]
  constructor
  · intro h
    obtain ⟨y, hy, hn⟩ := List.mem_flatMap.1 h
    have hyn : name = y.field.name := by
      unfold FieldVisit.supplied at hn
      split at hn
      · simpa using hn
      · cases hn
    have hyf : y.field ∈ m.fields := by
      have hf := fieldVisits_fields view.get (st.validateByAliasOr m.byAlias)
        (st.validateByNameOr m.byName) (fun _ st => st) m.fields [] (modelState st)
      rw [← hf]
      exact List.mem_map.2 ⟨y, hy, rfl⟩
    obtain ⟨x, hx, data, st0, hxe⟩ := hmem _ hyf
    have hxf : x.field = y.field := by rw [hxe]; exact fieldVisit_field _ _ _ _ _ _ _
    rw [hyn, ← hxf, mem_supplied _ hnd x hx] at h
    obtain ⟨h1, h2⟩ := (hkey _ data st0 x hxe).1 h
    refine ⟨y.field, hyf, hyn.symm, ?_, h2⟩
    rw [ho, hyn, ← hxf, get_outputs _ hnd x hx]
    exact h1
  · rintro ⟨f, hf, rfl, h1, h2⟩
    obtain ⟨x, hx, data, st0, hxe⟩ := hmem f hf
    have hxf : x.field = f := by rw [hxe]; exact fieldVisit_field _ _ _ _ _ _ _
    rw [← hxf, mem_supplied _ hnd x hx]
    apply (hkey _ data st0 x hxe).2
    rw [ho, ← hxf, get_outputs _ hnd x hx] at h1
    exact ⟨h1, h2⟩

theorem keys_dictOf (ps : Dict α) (k : String) :
    k ∈ (dictOf ps).map Prod.fst ↔ k ∈ ps.map Prod.fst := by
  unfold dictOf
  suffices h : ∀ d : Dict α, k ∈ (ps.foldl (fun d kv => Dict.set kv.1 kv.2 d) d).map Prod.fst ↔
      k ∈ ps.map Prod.fst ∨ k ∈ d.map Prod.fst by simpa using h []
  induction ps with
  | nil => intro d; simp
  | cons kv ps ih =>
    intro d
    simp only [List.foldl_cons, ih, Dict.keys_set, List.map_cons, List.mem_cons]
    constructor
    · rintro (h | h | h)
      · exact .inl (.inr h)
      · exact .inl (.inl h)
      · exact .inr h
    · rintro ((h | h) | h)
      · exact .inr (.inl h)
      · exact .inl h
      · exact .inr (.inr h)

theorem dict_extraLoop_ok (t : TypedDict α) (used : List String) (lastKey : Option LocItem)
    (saved : PartialMode) :
    ∀ (es : List (ValResult α (α × α))) (acc : TAcc α),
      (t.extraLoop used lastKey saved es acc).1 = .ok () →
      ∃ entries : List (α × α), es = entries.map .ok ∧ PlainKeys t.keyOps entries
  | [], _, _ => ⟨[], rfl, by simp [PlainKeys]⟩
  | .error e :: _, acc, h => by cases h
  | .ok (k, v) :: es, acc, h => by
    simp only [TypedDict.extraLoop] at h
    cases hs : (t.extraStep used lastKey saved k v acc).1 with
    | error e => rw [hs] at h; cases h
    | ok u =>
      rw [hs] at h
      obtain ⟨entries, he, hk⟩ := dict_extraLoop_ok t used lastKey saved es _ h
      refine ⟨(k, v) :: entries, by simp [he], ?_⟩
      intro kv hkv e hke
      rcases List.mem_cons.1 hkv with rfl | hkv
      · cases e with
        | lineErrors ls => exact ⟨ls, rfl⟩
        | _ => simp [TypedDict.extraStep, hke] at hs
      · exact hk kv hkv e hke

/-- An extra item that raises ends the validation with what it raised. -/
theorem dict_validate_extra_raises (t : TypedDict α) (input : α) (st : VState α)
    (view : DictView α) (entries : List (α × α)) (hv : t.Reads input st view)
    (hd : DistinctNames t.fields) (hi : t.extra = .allow) (ha : view.isPyGetAttr = false)
    (he : view.entries = .ok (entries.map .ok)) (hp : ∀ x ∈ (t.visits view st).1, x.Plain)
    (pre : List (ExtraVisit α)) (x : ExtraVisit α) (post : List (ExtraVisit α))
    (hs : (t.extras view entries st).1 = pre ++ x :: post) (hpre : ∀ y ∈ pre, y.Plain)
    (hx : ¬ x.Plain) :
    ∃ e, x.raises e ∧ (t.validate input st).1 = .error e := by
  have hl := (dict_fieldLoop t view input st hd).1 hp
  obtain ⟨e, hr, hx'⟩ := (dict_extraLoop t ((t.visits view st).1.flatMap FieldVisit.used)
    (t.lastKey view st) st.allowPartial hi entries ⟨(t.visits view st).1.flatMap FieldVisit.output,
      (t.visits view st).1.flatMap
        (FieldVisit.dictErrors input t.locByAlias (t.lastKey view st)),
      (t.visits view st).2.addFieldsSet
        ((t.visits view st).1.flatMap FieldVisit.supplied).length⟩).2 pre x post hs hpre hx
  refine ⟨e, hr, ?_⟩
  rw [dict_validate_eq t input st view hv, hl]
  unfold TypedDict.afterFields
  dsimp only
  rw [if_neg (by simp [hi, ha]), he]
  dsimp only
  rw [hx']

/-- Everything that is known when a typed-dict validation accepts. -/
theorem dict_ok (t : TypedDict α) (input : α) (st : VState α) (view : DictView α)
    (hv : t.Reads input st view) (hd : DistinctNames t.fields) (out : α)
    (hok : (t.validate input st).1 = .ok out) :
    (∀ x ∈ (t.visits view st).1, x.Plain) ∧
    (t.visits view st).1.flatMap
      (FieldVisit.dictErrors input t.locByAlias (t.lastKey view st)) = [] ∧
    ((t.extra ≠ .allow ∨ view.isPyGetAttr = true) ∧
        out = t.build ((t.visits view st).1.flatMap FieldVisit.output) ∨
      view.isPyGetAttr = false ∧ t.extra = .allow ∧ ∃ entries, view.entries = .ok (entries.map .ok) ∧
        (∀ x ∈ (t.extras view entries st).1, x.Plain) ∧
        (t.extras view entries st).1.flatMap
          (ExtraVisit.dictErrors t.keyOps (t.lastKey view st)) = [] ∧
        out = t.build (Dict.update ((t.visits view st).1.flatMap FieldVisit.output)
          ((t.extras view entries st).1.flatMap ExtraVisit.output))) := by
  have hp : ∀ x ∈ (t.visits view st).1, x.Plain := by
    rcases first_bad FieldVisit.Plain (t.visits view st).1 with h | ⟨pre, x, post, hs, hpre, hx⟩
    · exact h
    · obtain ⟨e, -, he⟩ := dict_validate_raises t input st view hv hd pre x post hs hpre hx
      rw [he] at hok; cases hok
  have split : ∀ (errs : List (LineError α)) (o : α), outcomeOf errs o = .ok out →
      errs = [] ∧ o = out := by
    intro errs o h
    unfold outcomeOf at h
    split at h
    · cases h; exact ⟨by assumption, rfl⟩
    · cases h
  by_cases hi : t.extra = .ignore ∨ view.isPyGetAttr = true
  · rw [dict_validate_ignore t input st view hv hd hi hp] at hok
    obtain ⟨h1, rfl⟩ := split _ _ hok
    refine ⟨hp, h1, .inl ⟨?_, rfl⟩⟩
    rcases hi with hi | hi
    · exact .inl (by rw [hi]; decide)
    · exact .inr hi
  · have hl := (dict_fieldLoop t view input st hd).1 hp
    have hentries : ∃ entries : List (α × α), view.entries = .ok (entries.map .ok) ∧
        PlainKeys t.keyOps entries := by
      rw [dict_validate_eq t input st view hv, hl] at hok
      unfold TypedDict.afterFields at hok
      dsimp only at hok
      rw [if_neg hi] at hok
      cases hve : view.entries with
      | error e => rw [hve] at hok; cases hok
      | ok es =>
        rw [hve] at hok
        dsimp only at hok
        generalize hacc : (⟨_, _, _⟩ : TAcc α) = acc at hok
        cases hx : (t.extraLoop ((t.visits view st).1.flatMap FieldVisit.used) (t.lastKey view st)
            st.allowPartial es acc).1 with
        | error e => rw [hx] at hok; cases hok
        | ok u =>
          obtain ⟨entries, he, hk⟩ := dict_extraLoop_ok t _ _ _ es acc hx
          exact ⟨entries, by rw [he], hk⟩
    obtain ⟨entries, he, hk⟩ := hentries
    have ha : view.isPyGetAttr = false := by
      cases h : view.isPyGetAttr with
      | false => rfl
      | true => exact absurd (.inr h) hi
    cases hb : t.extra with
    | ignore => exact absurd (.inl hb) hi
    | forbid =>
      rw [dict_validate_forbid t input st view entries hv hd hb ha he hk hp] at hok
      obtain ⟨h1, rfl⟩ := split _ _ hok
      rw [List.append_eq_nil_iff] at h1
      exact ⟨hp, h1.1, .inl ⟨.inl (by decide), rfl⟩⟩
    | allow =>
      rcases first_bad ExtraVisit.Plain (t.extras view entries st).1 with
        hx | ⟨pre, x, post, hs, hpre, hx⟩
      · rw [dict_validate_allow t input st view entries hv hd hb ha he hp hx] at hok
        obtain ⟨h1, rfl⟩ := split _ _ hok
        rw [List.append_eq_nil_iff] at h1
        exact ⟨hp, h1.1, .inr ⟨ha, rfl, entries, he, hx, h1.2, rfl⟩⟩
      · obtain ⟨e, -, her⟩ := dict_validate_extra_raises t input st view entries hv hd hb ha he hp
          pre x post hs hpre hx
        rw [her] at hok; cases hok

theorem dict_visits_names (t : TypedDict α) (view : DictView α) (st : VState α) :
    (t.visits view st).1.map (·.field.name) = t.fields.map Field.name := by
  have hf := fieldVisits_fields view.get (st.validateByAliasOr t.byAlias)
      (st.validateByNameOr t.byName)
      (fun path => lastOnly (t.lastKey view st) st.allowPartial (.s path.first)) t.fields [] st
  unfold TypedDict.visits
  conv => rhs; rw [← hf]
  rw [List.map_map]; rfl

/-- With no validators for extras, the unknown items are the extras. -/
theorem extraVisits_plain (ops : KeyOps α) (prep : α → VState α → VState α) (used : List String) :
    ∀ (entries : List (α × α)) (st : VState α),
      (extraVisits ops none none prep used entries st).1.flatMap ExtraVisit.output =
        entries.filterMap fun kv => match ops.str kv.1 with
          | .ok key => if key ∈ used then none else some (key, kv.2)
          | .error _ => none
  | [], st => rfl
  | (k, v) :: entries, st => by
    simp only [extraVisits, List.flatMap_append]
    rw [extraVisits_plain ops prep used entries]
    cases hs : ops.str k with
    | error e => cases e <;> simp [extraVisit, hs, ExtraVisit.output]
    | ok key => by_cases hu : key ∈ used <;> simp [extraVisit, hs, ExtraVisit.output, hu]

end PC.Fields
