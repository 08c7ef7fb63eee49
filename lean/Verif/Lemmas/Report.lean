import Verif.Spec.Report
import Mathlib.Data.List.Nodup

/-
Lemmas on the reports of a `ValidationError`.
-/

namespace PC.Report
open PC.Infer (Text)
open PC.JsonText (Doc)

/-! ### Dicts -/

theorem setItem_new {d : Dict} {k : Obj} (h : k ∉ d.map Prod.fst) (v : Obj) : setItem d k v = d ++ [(k, v)] := by
  rw [setItem, if_neg]
  simpa using fun x hx => h (List.mem_map.2 ⟨(k, x), hx, rfl⟩)

theorem setItem_old {a b : Dict} {k w : Obj} (ha : k ∉ a.map Prod.fst) (hb : k ∉ b.map Prod.fst) (v : Obj) :
    setItem (a ++ (k, w) :: b) k v = a ++ (k, v) :: b := by
  rw [setItem, if_pos (by simp)]
  have e : ∀ d : Dict, k ∉ d.map Prod.fst → d.map (fun p => if p.1 = k then (k, v) else p) = d := by
    intro d hd
    conv => rhs; rw [← List.map_id d]
    refine List.map_congr_left fun p hp => ?_
    rw [if_neg fun e => hd (List.mem_map.2 ⟨p, hp, e⟩)]; rfl
  rw [List.map_append, List.map_cons, e _ ha, e _ hb]; simp

theorem setItem_keys (d : Dict) (k v : Obj) :
    (setItem d k v).map Prod.fst = if k ∈ d.map Prod.fst then d.map Prod.fst else d.map Prod.fst ++ [k] := by
  by_cases h : k ∈ d.map Prod.fst
  · rw [if_pos h, setItem, if_pos, List.map_map]
    · refine List.map_congr_left fun p _ => ?_
      by_cases e : p.1 = k <;> simp [e]
    · obtain ⟨p, hp, e⟩ := List.mem_map.1 h
      simp only [List.any_eq_true]
      exact ⟨p, hp, by simpa using e⟩
  · rw [if_neg h, setItem_new h]; simp

theorem setItem_nodup {d : Dict} (h : (d.map Prod.fst).Nodup) (k v : Obj) : ((setItem d k v).map Prod.fst).Nodup := by
  rw [setItem_keys]
  split
  · exact h
  · rename_i hk
    exact List.nodup_append.2 ⟨h, by simp, fun a ha b hb => by simp at hb; subst hb; exact fun e => hk (e ▸ ha)⟩

theorem update_nodup (e : Dict) : ∀ {d : Dict}, (d.map Prod.fst).Nodup → ((update d e).map Prod.fst).Nodup := by
  induction e with
  | nil => exact fun h => h
  | cons p e ih => intro d h; exact ih (setItem_nodup h _ _)

/-- Updating keeps the keys that were there, in front. -/
theorem update_prefix (e : Dict) : ∀ d : Dict, ∃ r, (update d e).map Prod.fst = d.map Prod.fst ++ r := by
  induction e with
  | nil => exact fun d => ⟨[], by simp [update]⟩
  | cons p e ih =>
    intro d
    obtain ⟨r, hr⟩ := ih (setItem d p.1 p.2)
    rw [setItem_keys] at hr
    split at hr
    · exact ⟨r, hr⟩
    · exact ⟨p.1 :: r, by rw [show update d (p :: e) = update (setItem d p.1 p.2) e from rfl, hr]; simp⟩

theorem update_new {a : Dict} : ∀ (b : Dict), ((a ++ b).map Prod.fst).Nodup → update a b = a ++ b := by
  intro b
  induction b generalizing a with
  | nil => intro _; simp [update]
  | cons p b ih =>
    intro h
    have hp : p.1 ∉ a.map Prod.fst := by
      rw [List.map_append, List.nodup_append] at h
      exact fun hm => h.2.2 _ hm p.1 (by simp) rfl
    show update (setItem a p.1 p.2) b = _
    rw [setItem_new hp, ih (by simpa using h)]; simp

/-- Updating with a dict that begins with the same keys gives that dict. -/
theorem update_same : ∀ (b pre a r : Dict), b.map Prod.fst = pre.map Prod.fst → ((a ++ pre ++ r).map Prod.fst).Nodup →
    update (a ++ b) (pre ++ r) = a ++ pre ++ r := by
  intro b
  induction b with
  | nil =>
    intro pre a r h hn
    have : pre = [] := by simpa using h.symm
    subst this
    simp only [List.append_nil, List.nil_append] at hn ⊢
    exact update_new r hn
  | cons p b ih =>
    intro pre a r h hn
    cases pre with
    | nil => simp at h
    | cons q pre =>
      obtain ⟨h1, h2⟩ : p.1 = q.1 ∧ b.map Prod.fst = pre.map Prod.fst := by simpa using h
      have hn' := hn
      rw [List.append_assoc, List.map_append, List.nodup_append] at hn
      obtain ⟨_, hq, hd⟩ := hn
      have ha : q.1 ∉ a.map Prod.fst := fun hm => hd _ hm q.1 (by simp) rfl
      have hb : q.1 ∉ b.map Prod.fst := by
        rw [h2]
        simp only [List.cons_append, List.map_cons, List.nodup_cons, List.map_append, List.mem_append, not_or] at hq
        exact hq.1.1
      show update (setItem (a ++ p :: b) q.1 q.2) (pre ++ r) = _
      obtain ⟨pk, pv⟩ := p
      obtain rfl : pk = q.1 := h1
      rw [setItem_old ha hb, show a ++ (q.1, q.2) :: b = (a ++ [q]) ++ b by simp, ih pre (a ++ [q]) r h2 (by simpa using hn')]
      simp

theorem update_idem {b : Dict} (hb : (b.map Prod.fst).Nodup) (c : Dict) : update b (update b c) = update b c := by
  obtain ⟨r, hr⟩ := update_prefix c b
  have hn := update_nodup c hb
  have hl := congrArg List.length hr
  simp only [List.length_map, List.length_append] at hl
  have hs := List.take_append_drop b.length (update b c)
  have hp : b.map Prod.fst = ((update b c).take b.length).map Prod.fst := by
    rw [List.map_take, hr, List.take_left' (by simp)]
  have := update_same b ((update b c).take b.length) [] ((update b c).drop b.length) hp
    (by simpa only [List.nil_append, hs] using hn)
  simpa only [List.nil_append, hs] using this

theorem getItem_setItem (d : Dict) (k v k' : Obj) : getItem (setItem d k v) k' = if k' = k then some v else getItem d k' := by
  by_cases hk : k ∈ d.map Prod.fst
  · rw [setItem, if_pos (by
      obtain ⟨p, hp, e⟩ := List.mem_map.1 hk
      simp only [List.any_eq_true]
      exact ⟨p, hp, by simpa using e⟩)]
    induction d with
    | nil => simp at hk
    | cons p d ih =>
      simp only [getItem, List.map_cons, List.find?_cons] at ih ⊢
      by_cases h1 : p.1 = k
      · simp only [h1, if_true]
        by_cases h2 : k' = k
        · simp [h2]
        · rw [if_neg h2]
          simp only [show (decide (k = k')) = false by simpa using Ne.symm h2]
          clear ih hk
          induction d with
          | nil => rfl
          | cons q d ih =>
            simp only [List.map_cons, List.find?_cons]
            by_cases h3 : q.1 = k
            · simp only [h3, if_true, show (decide (k = k')) = false by simpa using Ne.symm h2]
              exact ih
            · simp only [h3, if_false]
              split <;> [rfl; exact ih]
      · simp only [h1, if_false]
        have hk : k ∈ d.map Prod.fst := by
          simp only [List.map_cons, List.mem_cons] at hk
          exact hk.resolve_left fun e => h1 e.symm
        by_cases h2 : p.1 = k'
        · have : k' ≠ k := fun e => h1 (h2.trans e)
          simp [h2, this]
        · simp only [h2, decide_false]
          exact ih hk
  · rw [setItem_new hk]
    simp only [getItem, List.find?_append]
    by_cases h2 : k' = k
    · subst h2
      have : d.find? (fun p => decide (p.1 = k')) = none := by
        rw [List.find?_eq_none]
        exact fun p hp => by simpa using fun e => hk (List.mem_map.2 ⟨p, hp, e⟩)
      simp [this]
    · rw [if_neg h2]
      simp [Ne.symm h2]

/-- Looking up in an updated dict: the later one first. -/
theorem getItem_update : ∀ (e d : Dict), (e.map Prod.fst).Nodup → ∀ k,
    getItem (update d e) k = (getItem e k).or (getItem d k) := by
  intro e
  induction e with
  | nil => intro d _ k; simp [update, getItem]
  | cons p e ih =>
    intro d hn k
    simp only [List.map_cons, List.nodup_cons] at hn
    show getItem (update (setItem d p.1 p.2) e) k = _
    rw [ih _ hn.2, getItem_setItem]
    simp only [getItem, List.find?_cons]
    by_cases hk : p.1 = k
    · subst hk
      have : e.find? (fun q => decide (q.1 = p.1)) = none := by
        rw [List.find?_eq_none]
        exact fun q hq => by simpa using fun h => hn.1 (List.mem_map.2 ⟨q, hq, h⟩)
      simp [this]
    · simp [hk, Ne.symm hk]

/-! ### The fields and the context -/

/-- The dict of the fields. -/
def base (fields : List (Text × Obj)) : Dict := fields.map fun p => (Obj.str p.1, p.2)

theorem foldl_fields (fields : List (Text × Obj)) : ∀ d : Dict,
    fields.foldl (fun d p => setItem d (.str p.1) p.2) d = update d (base fields) := by
  induction fields with
  | nil => exact fun d => rfl
  | cons p fields ih => intro d; exact ih _

theorem base_nodup {fields : List (Text × Obj)} (h : (fields.map Prod.fst).Nodup) : ((base fields).map Prod.fst).Nodup := by
  rw [base, List.map_map]
  have := List.Nodup.map (f := Obj.str) (fun a b h => by injection h) h
  simpa [List.map_map, Function.comp_def] using this

theorem contextDict_eq {fields : List (Text × Obj)} (h : (fields.map Prod.fst).Nodup) (ctx : Option Dict) :
    contextDict fields ctx = match ctx with
      | none => (base fields, false)
      | some c => (update (base fields) c, true) := by
  have e : fields.foldl (fun d p => setItem d (.str p.1) p.2) [] = base fields := by
    rw [foldl_fields, update_new (a := []) (base fields) (by simpa using base_nodup h)]; rfl
  cases ctx <;> simp only [contextDict, e]

/-! ### The table -/

/-- Every variant: its fields have different names, and values of their types make a message. -/
structure Kind.Sound (k : Kind) : Prop where
  nodup : (k.fields.map Prod.fst).Nodup
  makes : ∀ fs, Fit fs k.fields → (k.make (fs.map Prod.snd)).isSome = true

theorem fit_nil {fs} (h : Fit fs []) : fs = [] := by
  cases fs with
  | nil => rfl
  | cons p fs => obtain ⟨a, b⟩ := p; exact h.elim

theorem fit_cons {fs k ty tys} (h : Fit fs ((k, ty) :: tys)) : ∃ v vs, fs = (k, v) :: vs ∧ HasType v ty ∧ Fit vs tys := by
  cases fs with
  | nil => exact h.elim
  | cons p fs => obtain ⟨a, b⟩ := p; obtain ⟨rfl, h1, h2⟩ := h; exact ⟨b, fs, rfl, h1, h2⟩

theorem typed_text {v} (h : HasType v .text) : ∃ t, v = .text t := by cases v <;> simp_all [HasType]
theorem typed_nat {v} (h : HasType v .nat) : ∃ t, v = .nat t := by cases v <;> simp_all [HasType]
theorem typed_optNat {v} (h : HasType v .optNat) : ∃ t, v = .optNat t := by cases v <;> simp_all [HasType]
theorem typed_int32 {v} (h : HasType v .int32) : ∃ t, v = .int32 t := by cases v <;> simp_all [HasType]
theorem typed_number {v} (h : HasType v .number) : ∃ t, v = .number t := by
  cases v <;> first | exact ⟨_, rfl⟩ | exact h.elim
theorem typed_object {v} (h : HasType v .object) : ∃ t, v = .object t := by cases v <;> simp_all [HasType]

theorem typed_shape {v ty} (h : HasType v ty) : match ty with
    | .text => ∃ t, v = .text t
    | .nat => ∃ t, v = .nat t
    | .optNat => ∃ t, v = .optNat t
    | .int32 => ∃ t, v = .int32 t
    | .number => ∃ t, v = .number t
    | .object => ∃ t, v = .object t := by
  cases ty
  · exact typed_text h
  · exact typed_nat h
  · exact typed_optNat h
  · exact typed_int32 h
  · exact typed_number h
  · exact typed_object h

theorem sound0 {n m} (h : (m []).isSome = true) : (⟨n, [], m⟩ : Kind).Sound :=
  ⟨by simp, fun fs hf => by rw [fit_nil hf]; exact h⟩

theorem sound1 {n a ta m} (h : ∀ v, HasType v ta → (m [v]).isSome = true) : (⟨n, [(a, ta)], m⟩ : Kind).Sound :=
  ⟨by simp, fun fs hf => by
    obtain ⟨v, vs, rfl, h1, h2⟩ := fit_cons hf
    rw [fit_nil h2]; exact h v h1⟩

theorem sound2 {n a ta b tb m} (hn : a ≠ b) (h : ∀ v w, HasType v ta → HasType w tb → (m [v, w]).isSome = true) :
    (⟨n, [(a, ta), (b, tb)], m⟩ : Kind).Sound :=
  ⟨by simpa using hn, fun fs hf => by
    obtain ⟨v, vs, rfl, h1, h2⟩ := fit_cons hf
    obtain ⟨w, ws, rfl, h3, h4⟩ := fit_cons h2
    rw [fit_nil h4]; exact h v w h1 h3⟩

theorem sound3 {n a ta b tb c tc m} (hn : a ≠ b ∧ a ≠ c ∧ b ≠ c)
    (h : ∀ v w x, HasType v ta → HasType w tb → HasType x tc → (m [v, w, x]).isSome = true) :
    (⟨n, [(a, ta), (b, tb), (c, tc)], m⟩ : Kind).Sound :=
  ⟨by simpa [and_assoc] using hn, fun fs hf => by
    obtain ⟨v, vs, rfl, h1, h2⟩ := fit_cons hf
    obtain ⟨w, ws, rfl, h3, h4⟩ := fit_cons h2
    obtain ⟨x, xs, rfl, h5, h6⟩ := fit_cons h4
    rw [fit_nil h6]; exact h v w x h1 h3 h5⟩

theorem kinds_sound (nt st) : ∀ k ∈ kinds nt st, k.Sound := by
  unfold kinds
  simp only [List.forall_mem_cons]
  repeat' apply And.intro
  all_goals first
    | exact fun _ h => absurd h List.not_mem_nil
    | exact sound0 rfl
    | (refine sound1 fun v h => ?_
       obtain ⟨_, rfl⟩ := typed_shape h
       rfl)
    | (refine sound2 (by decide) fun v w h h' => ?_
       obtain ⟨_, rfl⟩ := typed_shape h
       obtain ⟨_, rfl⟩ := typed_shape h'
       rfl)
    | (refine sound3 (by decide) fun v w x h h' h'' => ?_
       obtain ⟨_, rfl⟩ := typed_shape h
       obtain ⟨_, rfl⟩ := typed_shape h'
       obtain ⟨_, rfl⟩ := typed_shape h''
       rfl)

theorem lookup_sound {E : Env} {name k} (h : lookup E name = some k) : k.Sound :=
  kinds_sound _ _ k (List.mem_of_find?_eq_some h)

theorem fit_names {fs tys} (h : Fit fs tys) : fs.map Prod.fst = tys.map Prod.fst := by
  induction fs generalizing tys with
  | nil => cases tys with
    | nil => rfl
    | cons q tys => exact h.elim
  | cons p fs ih => cases tys with
    | nil => obtain ⟨a, b⟩ := p; exact h.elim
    | cons q tys =>
      obtain ⟨a, b⟩ := p; obtain ⟨c, e⟩ := q
      obtain ⟨h1, _, h2⟩ := h
      simp only [List.map_cons, h1, ih h2]

/-! ### Extraction -/

theorem asInt_range {E r o i} (h : asInt E r o = some i) : r i = true := by
  cases o with
  | int j => simp only [asInt] at h; split at h <;> simp_all
  | other n =>
    simp only [asInt] at h
    exact ((Option.filter_eq_some_iff).1 h).2
  | _ => simp [asInt] at h

theorem asI64_range {E o i} (h : asI64 E o = some i) : isI64 i = true := by
  cases o with
  | int j => simp only [asI64] at h; split at h <;> simp_all
  | other n =>
    simp only [asI64] at h
    exact ((Option.filter_eq_some_iff).1 h).2
  | _ => simp [asI64] at h

/-- What is extracted is of the type. -/
theorem extract_typed {E : Env} {o ty v} (h : Ty.extract E o ty = some v) : HasType v ty := by
  have u64 : ∀ i, isU64 i = true → i.toNat < 2 ^ 64 := by
    intro i hi; simp only [isU64, Bool.and_eq_true, decide_eq_true_eq] at hi; omega
  cases ty <;> simp only [Ty.extract] at h
  · obtain ⟨_, _, rfl⟩ := Option.map_eq_some_iff.1 h; trivial
  · obtain ⟨_, hi, rfl⟩ := Option.map_eq_some_iff.1 h; exact u64 _ (asInt_range hi)
  · split at h
    · obtain rfl := Option.some.inj h; exact fun m hm => nomatch hm
    · obtain ⟨_, hi, rfl⟩ := Option.map_eq_some_iff.1 h
      intro m hm; obtain rfl := Option.some.inj hm; exact u64 _ (asInt_range hi)
  · obtain ⟨_, hi, rfl⟩ := Option.map_eq_some_iff.1 h; exact asInt_range hi
  · obtain ⟨n, hi, rfl⟩ := Option.map_eq_some_iff.1 h
    cases n with
    | int i =>
      simp only [Num.extract] at hi
      split at hi
      · rename_i hj; obtain h := Option.some.inj hi; injection h with h; subst h; exact asI64_range hj
      · split at hi
        · simp at hi
        · simp [Option.map_eq_some_iff] at hi
    | _ => trivial
  · obtain rfl := Option.some.inj h; trivial

/-- A value that survives is extracted from what Python has of it. -/
theorem extract_toPy {E : Env} {v ty} (h : HasType v ty) (hs : Survives v) : Ty.extract E v.toPy ty = some v := by
  have u64 : ∀ n : Nat, n < 2 ^ 64 → isU64 n = true := by
    intro n hn; simp only [isU64, Bool.and_eq_true, decide_eq_true_eq]; omega
  cases ty
  · obtain ⟨t, rfl⟩ := typed_text h; rfl
  · obtain ⟨t, rfl⟩ := typed_nat h
    simp [Ty.extract, Val.toPy, asInt, u64 t h]
  · obtain ⟨t, rfl⟩ := typed_optNat h
    cases t with
    | none => simp [Ty.extract, Val.toPy]
    | some n => simp [Ty.extract, Val.toPy, asInt, u64 n (h n rfl)]
  · obtain ⟨t, rfl⟩ := typed_int32 h
    have h : isI32 t = true := h
    simp [Ty.extract, Val.toPy, asInt, h]
  · obtain ⟨t, rfl⟩ := typed_number h
    cases t with
    | int i =>
      have h : isI64 i = true := h
      simp [Ty.extract, Val.toPy, Num.toPy, Num.extract, asI64, h]
    | bigInt i => exact hs.elim
    | float f => rfl
    | string t => rfl
  · obtain ⟨t, rfl⟩ := typed_object h
    cases t with
    | none => simp [Ty.extract, Val.toPy]
    | some o =>
      cases o with
      | none => exact hs.elim
      | _ => simp [Ty.extract, Val.toPy]

theorem fieldFromContext_ok {E ctx k ty v} :
    fieldFromContext E ctx k ty = .ok v ↔
      ∃ d o, ctx = some d ∧ getItem d (.str k) = some o ∧ Ty.extract E o ty = some v := by
  unfold fieldFromContext
  cases ctx with
  | none => simp
  | some d =>
    dsimp only
    cases hg : getItem d (.str k) with
    | none => simp [hg]
    | some o =>
      dsimp only
      cases he : Ty.extract E o ty with
      | none => simp [hg, he]
      | some w => simp [hg, he]

/-- The fields extracted, and that they can be extracted from any dict that gives the same under their names. -/
theorem fieldsFromContext_ok {E ctx} : ∀ {tys fs}, fieldsFromContext E ctx tys = .ok fs →
    Fit fs tys ∧ (∀ k ∈ tys.map Prod.fst, ∃ d o, ctx = some d ∧ getItem d (.str k) = some o) ∧
      ∀ ctx' : Option Dict, (∀ k ∈ tys.map Prod.fst,
        ctx'.bind (getItem · (.str k)) = ctx.bind (getItem · (.str k))) → fieldsFromContext E ctx' tys = .ok fs := by
  intro tys
  induction tys with
  | nil =>
    intro fs h
    simp only [fieldsFromContext] at h
    injection h with h; subst h
    exact ⟨trivial, by simp, fun _ _ => rfl⟩
  | cons p tys ih =>
    obtain ⟨k, ty⟩ := p
    intro fs h
    simp only [fieldsFromContext] at h
    cases h1 : fieldFromContext E ctx k ty with
    | error e => rw [h1] at h; simp at h
    | ok v =>
      cases h2 : fieldsFromContext E ctx tys with
      | error e => rw [h1, h2] at h; simp at h
      | ok vs =>
        rw [h1, h2] at h
        dsimp only at h
        injection h with h; subst h
        obtain ⟨i1, i2, i3⟩ := ih h2
        obtain ⟨d, o, hd, ho, he⟩ := fieldFromContext_ok.1 h1
        refine ⟨⟨rfl, extract_typed he, i1⟩, ?_, fun ctx' hc => ?_⟩
        · intro k' hk'
          rw [List.map_cons, List.mem_cons] at hk'
          rcases hk' with rfl | hk'
          · exact ⟨d, o, hd, ho⟩
          · exact i2 k' hk'
        · have hk := hc k (by simp)
          rw [hd, Option.bind_some, ho] at hk
          obtain ⟨d', hd', ho'⟩ := Option.bind_eq_some_iff.1 hk
          simp only [fieldsFromContext, fieldFromContext_ok.2 ⟨d', o, hd', ho', he⟩,
            i3 ctx' fun k' hk' => hc k' (by rw [List.map_cons]; exact List.mem_cons_of_mem _ hk')]

/-- Fields that survive are extracted from a dict that has them. -/
theorem fieldsFromContext_of {E : Env} {d : Dict} : ∀ {tys fs}, Fit fs tys → (∀ p ∈ fs, Survives p.2) →
    (∀ p ∈ fs, getItem d (.str p.1) = some p.2.toPy) → fieldsFromContext E (some d) tys = .ok fs := by
  intro tys
  induction tys with
  | nil => intro fs h _ _; rw [fit_nil h]; rfl
  | cons p tys ih =>
    obtain ⟨k, ty⟩ := p
    intro fs h hs hd
    obtain ⟨v, vs, rfl, h1, h2⟩ := fit_cons h
    simp only [List.forall_mem_cons] at hs hd
    simp only [fieldsFromContext, fieldFromContext_ok.2 ⟨d, _, rfl, hd.1, extract_toPy h1 hs.1⟩, ih h2 hs.2 hd.2]

theorem getItem_base {fields : List (Text × Obj)} (h : (fields.map Prod.fst).Nodup) {p} (hp : p ∈ fields) :
    getItem (base fields) (.str p.1) = some p.2 := by
  induction fields with
  | nil => simp at hp
  | cons q fields ih =>
    simp only [List.map_cons, List.nodup_cons] at h
    simp only [getItem, base, List.map_cons, List.find?_cons]
    rcases List.mem_cons.1 hp with rfl | hp
    · simp
    · have hne : q.1 ≠ p.1 := fun e => h.1 (e ▸ List.mem_map.2 ⟨p, hp, rfl⟩)
      simp only [Obj.str.injEq, hne, decide_false]
      exact ih h.2 hp

/-- The context shown, for fields with different names. -/
theorem pyDict_known {name fields} (h : (fields.map Prod.fst).Nodup) (ctx : Option Dict) :
    (Error.known name fields ctx).pyDict = match ctx with
      | none => if fields = [] then none else some (base (fields.map fun p => (p.1, p.2.toPy)))
      | some c => some (update (base (fields.map fun p => (p.1, p.2.toPy))) c) := by
  have hn : ((fields.map fun p => (p.1, p.2.toPy)).map Prod.fst).Nodup := by
    rw [List.map_map]; exact h
  simp only [Error.pyDict, contextDict_eq hn]
  cases ctx with
  | none => cases fields <;> simp [base]
  | some c => simp

/-- A known error made in one of the ways there are is made again from its name and the context shown. -/
theorem made_again {E : Env} {e : Error} (h : Made E e) :
    ∃ name fields ctx k, e = .known name fields ctx ∧ lookup E name = some k ∧ Fit fields k.fields ∧
      Error.new E name e.pyDict = .ok (.known name fields e.pyDict) ∧
      (Error.known name fields e.pyDict).pyDict = e.pyDict := by
  cases h with
  | @validator name k fields hk hf hs =>
    have hn : (fields.map Prod.fst).Nodup := fit_names hf ▸ (lookup_sound hk).nodup
    have hn' : ((fields.map fun p => (p.1, p.2.toPy)).map Prod.fst).Nodup := by
      rw [List.map_map]; exact hn
    refine ⟨name, fields, none, k, rfl, hk, hf, ?_⟩
    rw [pyDict_known hn]
    dsimp only
    by_cases he : fields = []
    · subst he
      rw [if_pos rfl]
      have : k.fields = [] := by simpa using (fit_names hf).symm
      simp [Error.new, hk, this, fieldsFromContext, pyDict_known]
    · rw [if_neg he]
      refine ⟨?_, ?_⟩
      · simp only [Error.new, hk]
        rw [fieldsFromContext_of hf hs]
        intro p hp
        exact getItem_base hn' (p := (p.1, p.2.toPy)) (List.mem_map.2 ⟨p, hp, rfl⟩)
      · rw [pyDict_known hn]
        exact congrArg some (update_idem (base_nodup hn') [])
  | @byName name ctx _ h hc =>
    simp only [Error.new] at h
    cases hk : lookup E name with
    | none => rw [hk] at h; simp at h
    | some k =>
      rw [hk] at h
      dsimp only at h
      cases hf : fieldsFromContext E ctx k.fields with
      | error x => rw [hf] at h; simp at h
      | ok fields =>
        rw [hf] at h
        dsimp only at h
        injection h with h
        subst h
        obtain ⟨h1, h2, h3⟩ := fieldsFromContext_ok hf
        have hn : (fields.map Prod.fst).Nodup := fit_names h1 ▸ (lookup_sound hk).nodup
        have hn' : ((fields.map fun p => (p.1, p.2.toPy)).map Prod.fst).Nodup := by
          rw [List.map_map]; exact hn
        refine ⟨name, fields, ctx, k, rfl, hk, h1, ?_⟩
        rw [pyDict_known hn]
        cases ctx with
        | none =>
          dsimp only
          have hk0 : k.fields = [] := by
            cases hkf : k.fields with
            | nil => rfl
            | cons p tys =>
              rw [hkf] at h2
              obtain ⟨d, o, hd, _⟩ := h2 p.1 (by simp)
              exact nomatch hd
          have hf0 : fields = [] := fit_nil (hk0 ▸ h1)
          subst hf0
          rw [if_pos rfl]
          exact ⟨by simp [Error.new, hk, hk0, fieldsFromContext], by simp [pyDict_known]⟩
        | some c =>
          dsimp only
          refine ⟨?_, ?_⟩
          · simp only [Error.new, hk]
            rw [h3]
            intro k' hk'
            obtain ⟨d, o, hd, ho⟩ := h2 k' hk'
            obtain rfl := Option.some.inj hd
            simp only [Option.bind_some]
            rw [getItem_update c _ hc, ho, Option.some_or]
          · rw [pyDict_known hn]
            exact congrArg some (update_idem (base_nodup hn') c)

/-! ### Messages -/

theorem message_known {E : Env} {name k fields} (h : lookup E name = some k) (hf : Fit fields k.fields) (ctx : Option Dict)
    (t : InputType) : ∃ m, (Error.known name fields ctx).message E t = .ok m := by
  have := (lookup_sound h).makes fields hf
  obtain ⟨e, he⟩ := Option.isSome_iff_exists.1 this
  exact ⟨Msg.renderMessage e t.msg, by simp only [Error.message, h, Option.bind_some, he]⟩

theorem formatMessage_ok (E : Env) : ∀ (d : Dict) (m : Text),
    (∃ r, formatMessage E d m = .ok r) ↔ ∀ p ∈ d, (asText E p.1).isSome = true := by
  intro d
  induction d with
  | nil => intro m; simp [formatMessage]
  | cons p d ih =>
    intro m
    obtain ⟨k, v⟩ := p
    simp only [formatMessage, List.forall_mem_cons]
    cases h : asText E k with
    | none => simp
    | some t => simp [ih]

theorem message_ok {E : Env} {e : Error} (h : e.Typed E) (t : InputType) : (∃ m, e.message E t = .ok m) ↔ e.StrKeys E := by
  cases e with
  | known name fields ctx =>
    obtain ⟨k, h1, h2⟩ := h
    exact ⟨fun _ => trivial, fun _ => message_known h1 h2 ctx t⟩
  | custom type template ctx => exact formatMessage_ok E _ _

/-! ### Lists -/

/-- `errors()` and the like: a result for every line, or the first exception. -/
theorem errors_go {E : Env} {u c i : Bool} {v : VErr} : ∀ {ls ds}, VErr.errors.go E u c i v ls = .ok ds ↔
    List.Forall₂ (fun l d => l.asDict E (urlPrefix E u) c v.inputType i = .ok d) ls ds := by
  intro ls
  induction ls with
  | nil => intro ds; simp [VErr.errors.go, eq_comm]
  | cons l ls ih =>
    intro ds
    simp only [VErr.errors.go]
    cases h : l.asDict E (urlPrefix E u) c v.inputType i with
    | error e => simp [List.forall₂_cons_left_iff, h]
    | ok d =>
      dsimp only
      cases h2 : VErr.errors.go E u c i v ls with
      | error e =>
        simp only [List.forall₂_cons_left_iff, ← ih, h2]
        simp
      | ok ds' =>
        simp only [List.forall₂_cons_left_iff, ← ih, h2, h]
        simp [eq_comm]

theorem doc_go {E : Env} {u c i : Bool} {v : VErr} : ∀ {ls ds}, VErr.doc.go E u c i v ls = .ok ds ↔
    List.Forall₂ (fun l d => l.doc E (urlPrefix E u) c v.inputType i = .ok d) ls ds := by
  intro ls
  induction ls with
  | nil => intro ds; simp [VErr.doc.go, eq_comm]
  | cons l ls ih =>
    intro ds
    simp only [VErr.doc.go]
    cases h : l.doc E (urlPrefix E u) c v.inputType i with
    | error e => simp [List.forall₂_cons_left_iff, h]
    | ok d =>
      dsimp only
      cases h2 : VErr.doc.go E u c i v ls with
      | error e =>
        simp only [List.forall₂_cons_left_iff, ← ih, h2]
        simp
      | ok ds' =>
        simp only [List.forall₂_cons_left_iff, ← ih, h2, h]
        simp [eq_comm]

theorem data_go {E : Env} : ∀ {ds ls}, fromExceptionData.go E ds = .ok ls ↔
    List.Forall₂ (fun d l => Line.ofDetails E d = .ok l) ds ls := by
  intro ds
  induction ds with
  | nil => intro ls; simp [fromExceptionData.go, eq_comm]
  | cons d ds ih =>
    intro ls
    simp only [fromExceptionData.go]
    cases h : Line.ofDetails E d with
    | error e => simp [List.forall₂_cons_left_iff, h]
    | ok l =>
      dsimp only
      cases h2 : fromExceptionData.go E ds with
      | error e =>
        simp only [List.forall₂_cons_left_iff, ← ih, h2]
        simp
      | ok ls' =>
        simp only [List.forall₂_cons_left_iff, ← ih, h2, h]
        simp [eq_comm]

end PC.Report
