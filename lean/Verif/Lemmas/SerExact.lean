import Verif.Spec.SerExact
import Verif.Lemmas.SerPlain

namespace PC.Infer
open PC.Float (F64)
open PC.Filter (FVal Filt indexFilter keyFilter)
open PC.Guard (Good)

variable {α : Type} {E : Env α} {o : Opts}

/-! ### A value has one document -/

theorem leafKeyText_unique {l : Leaf} : ∀ {a : α} {t t' : Text}, LeafKeyText E l a t → LeafKeyText E l a t' → t = t' := by
  induction l with
  | int =>
    intro a t t' h h'
    simpa using h.2.symm.trans h'.2
  | str =>
    intro a t t' h h'
    simpa using Eq.trans (Eq.symm h) h'
  | text k =>
    intro a t t' h h'
    simpa using Eq.trans (Eq.symm h) h'
  | timedelta m =>
    intro a t t' h h'
    cases m with
    | iso8601 =>
      obtain ⟨s, h⟩ := h
      obtain ⟨s', h'⟩ := h'
      have := h.symm.trans h'
      simp only [Option.some.injEq, Prod.mk.injEq, Except.ok.injEq] at this
      exact this.1
    | float => exact h.elim
  | enumOf cls sub ih =>
    intro a t t' h h'
    obtain ⟨_, v, hv, h⟩ := h
    obtain ⟨_, v', hv', h'⟩ := h'
    rw [hv] at hv'
    cases hv'
    exact ih h h'
  | _ => intro a t t' h; exact h.elim

theorem keyText_unique {k : Schema α} {a : α} {t t' : Text} (h : KeyText E k a t) (h' : KeyText E k a t') : t = t' := by
  cases k with
  | any =>
    simp only [KeyText] at h h'
    simpa using h.symm.trans h'
  | leaf l => exact leafKeyText_unique h h'
  | _ => simp only [KeyText] at h

theorem extras_unique : ∀ {extras : List (α × α)} {es es' : List (Text × Json)} {n n' : Nat},
    WritesExtras E o extras es n → WritesExtras E o extras es' n' → es = es' ∧ n = n'
  | [], _, _, _, _, h, h' => by
    cases h; cases h'; exact ⟨rfl, rfl⟩
  | (k, v) :: extras, _, _, _, _, h, h' => by
    cases h with
    | skipNone hx hv hs =>
      cases h' with
      | skipNone _ _ hs' => exact extras_unique hs hs'
      | extra hv' hk h hs' => rcases hv' with hv' | hv' <;> simp_all
    | extra hv hk h hs =>
      cases h' with
      | skipNone hx hv' hs' => rcases hv with hv | hv <;> simp_all
      | extra _ hk' h' hs' =>
        obtain ⟨h1, h2⟩ := extras_unique hs hs'
        have ht := hk.symm.trans hk'
        simp only [Shape.str.injEq, PyStr.utf8.injEq] at ht
        rw [isOf_unique _ _ _ _ h h', h1, h2, ht]
        exact ⟨rfl, rfl⟩

theorem each_length {ss : List (Schema α)} {xs : List α} {ds : List Json} {n : Nat} (h : WritesEach E o ss xs ds n) :
    ss.length = xs.length := by
  induction xs generalizing ss ds n with
  | nil => cases h; rfl
  | cons x xs ih =>
    cases h with
    | cons _ hs => simp [ih hs]

theorem split_unique {S : Type} {first first' last last' : List S} {s s' : S}
    (h : first ++ s :: last = first' ++ s' :: last') (hl : first.length = first'.length) :
    first = first' ∧ s = s' ∧ last = last' := by
  obtain ⟨h1, h2⟩ := List.append_inj h hl
  cases h2
  exact ⟨h1, rfl, rfl⟩

theorem WritesNan.notFinite {m : InfNanMode} {f : F64} {d : Json} (h : WritesNan m f d) : f.isFinite = false := by
  cases h with
  | null h => rcases h with rfl | rfl | rfl <;> rfl
  | constants h => rcases h with rfl | rfl | rfl <;> rfl
  | _ => rfl

theorem WritesNan.unique {m : InfNanMode} {f : F64} {d d' : Json} (h : WritesNan m f d) (h' : WritesNan m f d') :
    d = d' := by
  cases h <;> cases h' <;> rfl

theorem WritesNan.written {m : InfNanMode} {f : F64} {d : Json} (h : WritesNan m f d) : serializeF64 m f = d := by
  cases h with
  | null h => rcases h with rfl | rfl | rfl <;> rfl
  | constants h => rcases h with rfl | rfl | rfl <;> rfl
  | _ => rfl

mutual
theorem writes_unique : ∀ {s : Schema α} {a : α} {d d' : Json} {n n' : Nat},
    Writes E o s a d n → Writes E o s a d' n' → d = d' ∧ n = n'
  | _, _, _, _, _, _, .any h, h' => by
    cases h' with
    | any h' => rw [isOf_unique _ _ _ _ h h']; exact ⟨rfl, rfl⟩
  | _, _, _, _, _, _, .none h, h' => by cases h'; exact ⟨rfl, rfl⟩
  | _, _, _, _, _, _, .bool h, h' => by
    cases h' with
    | bool h' => rw [h] at h'; cases h'; exact ⟨rfl, rfl⟩
  | _, _, _, _, _, _, .int h, h' => by
    cases h' with
    | int h' => rw [h] at h'; cases h'; exact ⟨rfl, rfl⟩
  | _, _, _, _, _, _, .float h hf, h' => by
    cases h' with
    | float h' _ => rw [h] at h'; cases h'; exact ⟨rfl, rfl⟩
    | nan h' hf' => rw [h] at h'; cases h'; rw [hf'.notFinite] at hf; cases hf
  | _, _, _, _, _, _, .nan h hf, h' => by
    cases h' with
    | float h' hf' => rw [h] at h'; cases h'; rw [hf.notFinite] at hf'; cases hf'
    | nan h' hf' => rw [h] at h'; cases h'; exact ⟨hf.unique hf', rfl⟩
  | _, _, _, _, _, _, .str h, h' => by
    cases h' with
    | str h' => rw [h] at h'; cases h'; exact ⟨rfl, rfl⟩
  | _, _, _, _, _, _, .bytes h ht, h' => by
    cases h' with
    | bytes h' ht' =>
      rw [h] at h'; cases h'
      rw [ht] at ht'; cases ht'
      exact ⟨rfl, rfl⟩
  | _, _, _, _, _, _, .text h, h' => by
    cases h' with
    | text h' => rw [h] at h'; cases h'; exact ⟨rfl, rfl⟩
  | _, _, _, _, _, _, .duration h, h' => by
    cases h' with
    | duration h' => rw [h] at h'; cases h'; exact ⟨rfl, rfl⟩
  | _, _, _, _, _, _, .seconds h, h' => by
    cases h' with
    | seconds h' => rw [h] at h'; cases h'; exact ⟨rfl, rfl⟩
  | _, _, _, _, _, _, .literal h, h' => by
    cases h' with
    | literal h' => rw [isOf_unique _ _ _ _ h h']; exact ⟨rfl, rfl⟩
  | _, _, _, _, _, _, .enum h hv hd, h' => by
    cases h' with
    | enum h' hv' hd' =>
      rw [hv] at hv'; cases hv'
      rw [isOf_unique _ _ _ _ hd hd']; exact ⟨rfl, rfl⟩
  | _, _, _, _, _, _, .enumOf h hv hs, h' => by
    cases h' with
    | enumOf h' hv' hs' =>
      rw [hv] at hv'; cases hv'
      exact writes_unique hs hs'
  | _, _, _, _, _, _, .dataclass h hi hs, h' => by
    cases h' with
    | dataclass h' hi' hs' =>
      rw [hi] at hi'; cases hi'
      exact writes_unique hs hs'
  | _, _, _, _, _, _, .jsonOrPython hs, h' => by
    cases h' with
    | jsonOrPython hs' => exact writes_unique hs hs'
  | _, _, _, _, _, _, .tuple h hs, h' => by
    cases h' with
    | tuple h' hs' =>
      rw [h] at h'; cases h'
      obtain ⟨rfl, rfl⟩ := each_unique hs hs'
      exact ⟨rfl, rfl⟩
  | _, _, _, _, _, _, .variadic h hv hi hs, h' => by
    cases h' with
    | variadic h' hv' hi' hs' =>
      rw [h] at h'; cases h'
      obtain ⟨rfl, rfl, rfl⟩ := split_unique (hi.symm.trans hi') (hv.symm.trans hv')
      have h1 := each_length hs
      have h2 := each_length hs'
      simp only [List.length_append, List.length_replicate] at h1 h2
      have hk := Nat.add_right_cancel (Nat.add_left_cancel (h1.trans h2.symm))
      subst hk
      obtain ⟨rfl, rfl⟩ := each_unique hs hs'
      exact ⟨rfl, rfl⟩
  | _, _, _, _, _, _, .function hu h hs, h' => by
    cases h' with
    | function _ h' hs' =>
      rw [h] at h'; cases h'
      exact writes_unique hs hs'
    | unused hu' _ => exact absurd hu hu'
  | _, _, _, _, _, _, .unused hu hs, h' => by
    cases h' with
    | function hu' _ _ => exact absurd hu' hu
    | unused _ hs' => exact writes_unique hs hs'
  | _, _, _, _, _, _, .null h, h' => by
    cases h' with
    | null => exact ⟨rfl, rfl⟩
    | nullable hn _ => exact absurd h hn
  | _, _, _, _, _, _, .nullable hn hs, h' => by
    cases h' with
    | null h => exact absurd h hn
    | nullable _ hs' => exact writes_unique hs hs'
  | _, _, _, _, _, _, .list h hs, h' => by
    cases h' with
    | list h' hs' =>
      rw [h] at h'; cases h'
      obtain ⟨rfl, rfl⟩ := all_unique hs hs'
      exact ⟨rfl, rfl⟩
  | _, _, _, _, _, _, .set h hs, h' => by
    cases h' with
    | set h' hs' =>
      rw [h] at h'; cases h'
      obtain ⟨rfl, rfl⟩ := all_unique hs hs'
      exact ⟨rfl, rfl⟩
  | _, _, _, _, _, _, .dict h hs, h' => by
    cases h' with
    | dict h' hs' =>
      rw [h] at h'; cases h'
      obtain ⟨rfl, rfl⟩ := dict_unique hs hs'
      exact ⟨rfl, rfl⟩
  | _, _, _, _, _, _, .model h hi hs, h' => by
    cases h' with
    | model _ hi' hs' =>
      rw [hi] at hi'; cases hi'
      exact writes_unique hs hs'
  | _, _, _, _, _, _, .root hi hs, h' => by
    cases h' with
    | root hi' hs' =>
      rw [hi] at hi'; cases hi'
      exact writes_unique hs hs'
  | _, _, _, _, _, _, .fields h hs, h' => by
    cases h' with
    | fields h' hs' =>
      rw [h] at h'; cases h'
      obtain ⟨rfl, rfl⟩ := fields_unique hs hs'
      exact ⟨rfl, rfl⟩
    | fieldsExtra h' _ _ => rw [h] at h'; cases h'
  | _, _, _, _, _, _, .fieldsExtra h hs he, h' => by
    cases h' with
    | fields h' hs' => rw [h] at h'; cases h'
    | fieldsExtra h' hs' he' =>
      rw [h] at h'; cases h'
      obtain ⟨rfl, rfl⟩ := fields_unique hs hs'
      obtain ⟨rfl, rfl⟩ := extras_unique he he'
      exact ⟨rfl, rfl⟩
  | _, _, _, _, _, _, .ref _ h, h' => by
    cases h' with
    | ref _ h' =>
      obtain ⟨rfl, rfl⟩ := writes_unique h h'
      exact ⟨rfl, rfl⟩
termination_by structural _ _ _ _ _ _ h => h
theorem each_unique : ∀ {ss : List (Schema α)} {xs : List α} {ds ds' : List Json} {n n' : Nat},
    WritesEach E o ss xs ds n → WritesEach E o ss xs ds' n' → ds = ds' ∧ n = n'
  | _, _, _, _, _, _, .nil, h' => by cases h'; exact ⟨rfl, rfl⟩
  | _, _, _, _, _, _, .cons h hs, h' => by
    cases h' with
    | cons h' hs' =>
      obtain ⟨rfl, rfl⟩ := writes_unique h h'
      obtain ⟨rfl, rfl⟩ := each_unique hs hs'
      exact ⟨rfl, rfl⟩
termination_by structural _ _ _ _ _ _ h => h
theorem all_unique : ∀ {s : Schema α} {xs : List α} {ds ds' : List Json} {n n' : Nat},
    WritesAll E o s xs ds n → WritesAll E o s xs ds' n' → ds = ds' ∧ n = n'
  | _, _, _, _, _, _, .nil, h' => by cases h'; exact ⟨rfl, rfl⟩
  | _, _, _, _, _, _, .cons h hs, h' => by
    cases h' with
    | cons h' hs' =>
      obtain ⟨rfl, rfl⟩ := writes_unique h h'
      obtain ⟨rfl, rfl⟩ := all_unique hs hs'
      exact ⟨rfl, rfl⟩
termination_by structural _ _ _ _ _ _ h => h
theorem dict_unique : ∀ {k v : Schema α} {kvs : List (α × α)} {es es' : List (Text × Json)} {n n' : Nat},
    WritesDict E o k v kvs es n → WritesDict E o k v kvs es' n' → es = es' ∧ n = n'
  | _, _, _, _, _, _, _, .nil, h' => by cases h'; exact ⟨rfl, rfl⟩
  | _, _, _, _, _, _, _, .cons hk h hs, h' => by
    cases h' with
    | cons hk' h' hs' =>
      obtain rfl := keyText_unique hk hk'
      obtain ⟨rfl, rfl⟩ := writes_unique h h'
      obtain ⟨rfl, rfl⟩ := dict_unique hs hs'
      exact ⟨rfl, rfl⟩
termination_by structural _ _ _ _ _ _ _ h => h
theorem fields_unique : ∀ {fs : Fields α} {main : List (α × α)} {es es' : List (Text × Json)} {n n' : Nat},
    WritesFields E o fs main es n → WritesFields E o fs main es' n' → es = es' ∧ n = n'
  | _, _, _, _, _, _, .nil, h' => by cases h'; exact ⟨rfl, rfl⟩
  | _, _, _, _, _, _, .skipNone hx hv hs, h' => by
    cases h' with
    | skipNone _ _ hs' => exact fields_unique hs hs'
    | skip hv' _ _ _ => rcases hv' with hv' | hv' <;> simp_all
    | field hv' _ _ _ _ => rcases hv' with hv' | hv' <;> simp_all
  | _, _, _, _, _, _, .skip hv hk hf hs, h' => by
    cases h' with
    | skipNone hx hv' hs' => rcases hv with hv | hv <;> simp_all
    | skip hv' hk' hf' hs' => exact fields_unique hs hs'
    | field hv' hk' hf' h' hs' =>
      have ht := hk.symm.trans hk'
      simp only [Shape.str.injEq, PyStr.utf8.injEq] at ht
      subst ht
      rw [hf] at hf'; cases hf'
  | _, _, _, _, _, _, .field hv hk hf h hs, h' => by
    cases h' with
    | skipNone hx hv' hs' => rcases hv with hv | hv <;> simp_all
    | skip hv' hk' hf' hs' =>
      have ht := hk.symm.trans hk'
      simp only [Shape.str.injEq, PyStr.utf8.injEq] at ht
      subst ht
      rw [hf] at hf'; cases hf'
    | field hv' hk' hf' h' hs' =>
      have ht := hk.symm.trans hk'
      simp only [Shape.str.injEq, PyStr.utf8.injEq] at ht
      subst ht
      rw [hf] at hf'; cases hf'
      obtain ⟨rfl, rfl⟩ := writes_unique h h'
      obtain ⟨rfl, rfl⟩ := fields_unique hs hs'
      exact ⟨rfl, rfl⟩
termination_by structural _ _ _ _ _ _ h => h
end

/-! ### What the serialisers write -/

theorem Extra.Fits.forModel {x : Extra α} (h : x.Fits o) (a : α) : (x.forModel a).Fits o := by
  obtain ⟨h0, h1, h2, h3, h4, h5, h6⟩ := h
  exact ⟨h0, by simp only [Extra.forModel, h1, Duck.next], h2, h3, h4, h5, h6⟩

theorem Extra.Fits.modelOr {x : Extra α} (h : x.Fits o) (a : α) : (x.modelOr a).Fits o := by
  obtain ⟨h0, h1, h2, h3, h4, h5, h6⟩ := h
  exact ⟨h0, h1, h2, h3, h4, h5, h6⟩

theorem fieldKey_eq {x : Extra α} (h : x.Fits o) (f : FieldInfo) : f.key x = o.fieldKey f := by
  unfold FieldInfo.key Opts.fieldKey
  rw [h.byAlias]
  rcases o.byAlias with _ | _ | _ <;> rcases f.byAlias with _ | _ | _ <;> rcases f.alias with _ | _ <;> rfl

/-- The open keys of definitions are those of values of a greater depth. -/
def Over (E : Env α) (o : Opts) (opn : List Guard.Key) (h : Nat) : Prop :=
  ∀ k ∈ opn, k.2 < inferDefRefId → ∃ (b : α) (d : Json) (n : Nat), k.1 = E.world.identity b ∧ Writes E o (.ref k.2) b d n
    ∧ h < n

theorem Over.mono {opn : List Guard.Key} {h h' : Nat} (ha : Over E o opn h) (hle : h' ≤ h) : Over E o opn h' := by
  intro k hk hi
  obtain ⟨b, d, n, h1, h2, h3⟩ := ha k hk hi
  exact ⟨b, d, n, h1, h2, by omega⟩

theorem Over.fresh (hid : ∀ a b, E.world.identity a = E.world.identity b → a = b) {opn : List Guard.Key} {a : α} {d : Nat}
    {doc : Json} {n : Nat} (hd : d < inferDefRefId) (hw : Writes E o (.ref d) a doc n) (ha : Over E o opn n) :
    (E.world.identity a, d) ∉ opn := by
  intro hk
  obtain ⟨b, doc', n', h1, h2, h3⟩ := ha _ hk hd
  have hab : a = b := hid a b h1
  subst hab
  have := (writes_unique hw h2).2
  omega

theorem Over.cons {opn : List Guard.Key} {a : α} {d : Nat} {doc : Json} {n : Nat} (hw : Writes E o (.ref d) a doc n)
    (ha : Over E o opn n) {h : Nat} (hh : h < n) : Over E o ((E.world.identity a, d) :: opn) h := by
  intro k hk hi
  rcases List.mem_cons.1 hk with rfl | hk
  · exact ⟨a, doc, n, rfl, hw, hh⟩
  · obtain ⟨b, d', n', h1, h2, h3⟩ := ha k hk hi
    exact ⟨b, d', n', h1, h2, by omega⟩

theorem isNone_of {W : World α} {a : α} (h : W.shape a = .none) : isNone W a = true := by simp only [isNone, h]

theorem isNone_ne {W : World α} {a : α} (h : W.shape a ≠ .none) : isNone W a = false := by
  unfold isNone
  split
  · exact absurd ‹_› h
  · rfl

theorem keyFilter_pass (hash : Filter.Key → Int) (k : Filter.Key) :
    keyFilter hash (.schema Option.none Option.none) k Option.none Option.none = .ok (some (Option.none, Option.none)) := by
  cases k <;> rfl

theorem indexFilter_pass (i : Nat) (len : Option Nat) :
    indexFilter (.schema Option.none Option.none) i Option.none Option.none len = .ok (some (Option.none, Option.none)) := rfl

theorem getField_build (R : Recs α) (t : Text) : ∀ (fs : Fields α), getField (buildFields E R fs) t
    = (fs.lookup t).map fun f => (f.1, f.2.map (build E R))
  | .nil => by simp [buildFields, getField, Fields.lookup]
  | .cons info s rest => by
    have ih := getField_build R t rest
    simp only [getField] at ih
    by_cases h : info.name = t
    · simp [buildFields, getField, Fields.lookup, h]
    · simp [buildFields, getField, Fields.lookup, h, ih]
  | .excluded info rest => by
    have ih := getField_build R t rest
    simp only [getField] at ih
    by_cases h : info.name = t
    · simp [buildFields, getField, Fields.lookup, h]
    · simp [buildFields, getField, Fields.lookup, h, ih]

theorem buildItems_map (R : Recs α) : ∀ (items : Items α), buildItems E R items = items.toList.map (build E R)
  | .nil => by simp [buildItems, Items.toList]
  | .cons s rest => by simp [buildItems, Items.toList, buildItems_map R rest]

theorem tupleSers_split {S : Type} (first last : List S) (s : S) (k : Nat) :
    tupleSers (some first.length) (first ++ s :: last) (first.length + (k + last.length))
      = first ++ (List.replicate k s ++ last) := by
  have hk : first.length + (k + last.length) + 1 - (first.length + (last.length + 1)) = k := by omega
  simp [tupleSers, hk]

theorem usedFor_iff {x : Extra α} (hx : x.Fits o) {w : SerFunction.WhenUsed} {a : α} :
    shouldUse E w x a = true ↔ UsedFor E w a := by
  by_cases h : E.world.shape a = .none
  · cases w <;> simp [shouldUse, UsedFor, hx.mode, isNone_of h, h]
  · cases w <;> simp [shouldUse, UsedFor, hx.mode, isNone_ne h, h]

theorem leafKeyText_step {l : Leaf} : ∀ {kk : α} {t : Text}, LeafKeyText E l kk t → ∀ (x : Extra α) (st : St),
    leafKey E l x kk st = (.ok t, st) := by
  induction l with
  | int =>
    intro kk t h x st
    simp only [leafKey, if_pos h.1, toStrJsonKey, h.2, PyStr.lossy]
  | str =>
    intro kk t h x st
    simp only [LeafKeyText] at h
    simp only [leafKey, h, PyStr.lossy]
  | text k =>
    intro kk t h x st
    simp only [LeafKeyText] at h
    simp only [leafKey, h]
  | timedelta m =>
    intro kk t h x st
    cases m with
    | iso8601 =>
      obtain ⟨s, h⟩ := h
      simp only [leafKey, h, timedeltaKey]
    | float => exact h.elim
  | enumOf cls sub ih =>
    intro kk t h x st
    obtain ⟨h1, v, hv, h⟩ := h
    simp only [leafKey, enumKey, h1, hv, if_true]
    exact ih h x st
  | _ => intro kk t h; exact h.elim

theorem keyText_step (hst : 0 < E.world.stack) {k : Schema α} {kk : α} {t : Text} (h : KeyText E k kk t) (x : Extra α)
    (st : St) : keyOf E k x kk st = (.ok t, st) := by
  cases k with
  | any =>
    simp only [KeyText] at h
    simp only [keyOf, keyWith, keyM, key_plain (x := x) hst h]
  | leaf l => exact leafKeyText_step h x st
  | _ => simp only [KeyText] at h

set_option linter.unusedSectionVars false

section exact
variable (hp : E.platform.Valid) (hid : ∀ a b, E.world.identity a = E.world.identity b → a = b) {bottom : Recs α}

include hp hid

theorem extras_json (hst : 0 < E.world.stack) {x : Extra α} (hx : x.Fits o) :
    ∀ {extras : List (α × α)} {es : List (Text × Json)} {h : Nat}, WritesExtras E o extras es h → ∀ (n : Nat) (opn : List Guard.Key) (st : St),
      Above E.world opn h → Good E.platform opn st.guard → E.platform.limit < n + opn.length →
      Out E.platform True opn h (fun r => r = es) st.warnings
        (extrasJson E (recs E bottom n) x Option.none Option.none extras st)
  | [], _, _, h, n, opn, st, ha, hg, hl => by
    cases h
    exact .pure hg rfl
  | (k, v) :: extras, _, _, h, n, opn, st, ha, hg, hl => by
    cases h with
    | skipNone hn hv hs =>
      simp only [extrasJson, hx.excludeNone, hn, isNone_of hv, Bool.and_self, if_true]
      exact extras_json hst hx hs n opn st ha hg hl
    | @extra _ _ t d _ es _ hv hk h hs =>
      have hc : (x.excludeNone && isNone E.world v) = false := by
        rw [hx.excludeNone]
        rcases hv with hv | hv
        · rw [hv]; rfl
        · rw [isNone_ne hv, Bool.and_false]
      simp only [extrasJson, hc, keyFilter_pass, key_plain (x := x) hst hk]
      exact Out.seq (S := fun r => r = (t, d) :: es) (f := fun r rs => (t, r) :: rs)
        (plain_json (bottom := bottom) hp hid hst hx.unknown d v n opn st h (ha.mono (by omega)) hg hl)
        (fun st hg => extras_json hst hx hs n opn st (ha.mono (by omega)) hg hl)
        (fun e st1 h1 => by simp [h1]) (fun a st1 e st2 h1 h2 => by simp [h1, h2])
        (fun a st1 b st2 h1 h2 => by simp [h1, h2]) (fun a b h1 h2 => by rw [h1, h2])

mutual
theorem exact_json (hst : 0 < E.world.stack) : ∀ {s : Schema α} {a : α} {d : Json} {h : Nat}, Writes E o s a d h →
    ∀ (x : Extra α) (n : Nat) (opn : List Guard.Key) (st : St), x.Fits o → Above E.world opn h → Over E o opn h →
      Good E.platform opn st.guard → E.platform.limit < n + opn.length →
      Out E.platform True opn h (fun r => r = d) st.warnings
        ((build E (recs E bottom n) s).json x a Option.none Option.none st)
  | _, _, _, _, .any h, x, n, opn, st, hx, ha, hr, hg, hl => by
    simp only [build, anySer]
    exact plain_json hp hid hst hx.unknown _ _ n opn st h ha hg hl
  | _, _, _, _, .none h, x, n, opn, st, hx, ha, hr, hg, hl => by
    simp only [build, leafSer, noneSer, isNone_of h, if_true]
    exact .pure hg rfl
  | _, _, _, _, .bool h, x, n, opn, st, hx, ha, hr, hg, hl => by
    simp only [build, leafSer, simpleJson, h, Option.map]
    exact .pure hg rfl
  | _, _, _, _, .int h, x, n, opn, st, hx, ha, hr, hg, hl => by
    simp only [build, leafSer, simpleJson, h, Option.map]
    exact .pure hg rfl
  | _, _, _, _, .float h hf, x, n, opn, st, hx, ha, hr, hg, hl => by
    simp only [build, leafSer, simpleJson, h, Option.map, serializeF64, hf, if_true]
    exact .pure hg rfl
  | _, _, _, _, .nan h hf, x, n, opn, st, hx, ha, hr, hg, hl => by
    simp only [build, leafSer, simpleJson, h, Option.map, hf.written]
    exact .pure hg rfl
  | _, _, _, _, .str h, x, n, opn, st, hx, ha, hr, hg, hl => by
    simp only [build, leafSer, strSerJson, h, strJson]
    exact .pure hg rfl
  | _, _, _, _, .bytes h ht, x, n, opn, st, hx, ha, hr, hg, hl => by
    simp only [build, leafSer, bytesJson, h, ht]
    exact .pure hg rfl
  | _, _, _, _, .text h, x, n, opn, st, hx, ha, hr, hg, hl => by
    simp only [build, leafSer, textJson, h]
    exact .pure hg rfl
  | _, _, _, _, .duration h, x, n, opn, st, hx, ha, hr, hg, hl => by
    simp only [build, leafSer, timedeltaSer, h, timedeltaJson]
    exact .pure hg rfl
  | _, _, _, _, .seconds h, x, n, opn, st, hx, ha, hr, hg, hl => by
    simp only [build, leafSer, timedeltaSer, h, timedeltaJson]
    exact .pure hg rfl
  | _, a, _, _, .literal (l := l) h, x, n, opn, st, hx, ha, hr, hg, hl => by
    have hl' : literalCheck E l x a = .ok .ok := by simp [literalCheck, hx.check]
    simp only [build, leafSer, literalSer, hl']
    exact plain_json hp hid hst hx.unknown _ _ n opn st h ha hg hl
  | _, _, _, _, .enum h hv hd, x, n, opn, st, hx, ha, hr, hg, hl => by
    simp only [build, leafSer, enumSer, h, hv, if_true]
    exact plain_json hp hid hst hx.unknown _ _ n opn st hd ha hg hl
  | _, _, _, _, .enumOf h hv hs, x, n, opn, st, hx, ha, hr, hg, hl => by
    simp only [build, leafSer, enumSer, h, hv, if_true]
    exact exact_json hst hs x n opn st hx ha hr hg hl
  | _, _, _, _, .dataclass h hi hs, x, n, opn, st, hx, ha, hr, hg, hl => by
    have hf := hx.forModel
    simp only [build, dataclassSer, (hf _).duck, (hf _).check, h, hi]
    exact exact_json hst hs _ n opn st (hf _) ha hr hg hl
  | _, _, _, _, .jsonOrPython hs, x, n, opn, st, hx, ha, hr, hg, hl => by
    simp only [build, jsonOrPythonSer]
    exact exact_json hst hs x n opn st hx ha hr hg hl
  | _, _, _, _, .tuple (items := items) (xs := xs) h hs, x, n, opn, st, hx, ha, hr, hg, hl => by
    have hn : ∀ k l, tupleRefused Option.none x k l = false := fun k l => by simp [tupleRefused, hx.check]
    simp only [build, tupleSer, h, hn, tupleSers, buildItems_map]
    have := each_json hst hs x n true xs.length 0 (items.toList.drop xs.length) opn st hx ha hr hg hl
    rw [List.take_append_drop] at this
    exact this.mapM (fun r hr => by rw [hr])
  | _, _, _, _, .variadic (k := k) (first := first) (last := last) (s := s) h hv hi hs, x, n, opn, st, hx, ha, hr, hg, hl => by
    have hn : ∀ v k l, tupleRefused (some v) x k l = false := fun v k l => by simp [tupleRefused]
    have hlen := each_length hs
    simp only [List.length_append, List.length_replicate] at hlen
    simp only [build, tupleSer, h, hn, buildItems_map, hi, hv]
    have hss := tupleSers_split (first.map (build E (recs E bottom n))) (last.map (build E (recs E bottom n)))
      (build E (recs E bottom n) s) k
    simp only [List.length_map] at hss
    simp only [← hlen, List.map_append, List.map_cons]
    rw [hss]
    have := each_json hst hs x n false (first.length + (k + last.length)) 0 [] opn st hx ha hr hg hl
    simp only [List.append_nil, List.map_append, List.map_replicate] at this
    exact this.mapM (fun r hr => by rw [hr])
  | _, _, _, _, .function hu h hs, x, n, opn, st, hx, ha, hr, hg, hl => by
    simp only [build, functionSer, (usedFor_iff hx).2 hu, if_true, callFunction, Bool.false_eq_true, if_false, h]
    exact exact_json hst hs x n opn st hx ha hr hg hl
  | _, _, _, _, .unused hu hs, x, n, opn, st, hx, ha, hr, hg, hl => by
    simp only [build, functionSer]
    rw [if_neg fun h => hu ((usedFor_iff hx).1 h)]
    exact exact_json hst hs x n opn st hx ha hr hg hl
  | _, _, _, _, .null h, x, n, opn, st, hx, ha, hr, hg, hl => by
    simp only [build, nullableSer, isNone_of h, if_true]
    exact .pure hg rfl
  | _, _, _, _, .nullable hn hs, x, n, opn, st, hx, ha, hr, hg, hl => by
    simp only [build, nullableSer, isNone_ne hn]
    exact exact_json hst hs x n opn st hx ha hr hg hl
  | _, _, _, _, .list h hs, x, n, opn, st, hx, ha, hr, hg, hl => by
    simp only [build, listSer, h]
    exact (all_json hst hs x n _ 0 opn st hx ha hr hg hl).mapM (fun r hr => by rw [hr])
  | _, _, _, _, .set h hs, x, n, opn, st, hx, ha, hr, hg, hl => by
    simp only [build, setSer, h]
    exact (set_json hst hs x n opn st hx ha hr hg hl).mapM (fun r hr => by rw [hr])
  | _, _, _, _, .dict h hs, x, n, opn, st, hx, ha, hr, hg, hl => by
    simp only [build, dictSer, h]
    exact (dict_json hst hs x n opn st hx ha hr hg hl).mapM (fun r hr => by rw [hr])
  | _, _, _, _, .model h hi hs, x, n, opn, st, hx, ha, hr, hg, hl => by
    have hf := hx.forModel
    simp only [build, modelSer, (hf _).duck, (hf _).check, h, (hf _).excludeUnset, hi]
    exact exact_json hst hs _ n opn st (hf _) ha hr hg hl
  | _, _, _, _, .root hi hs, x, n, opn, st, hx, ha, hr, hg, hl => by
    have hf := hx.forModel
    simp only [build, modelSer, (hf _).duck, if_true, hi]
    exact exact_json hst hs _ n opn st (hf _) ha hr hg hl
  | _, a, _, _, .fields (mode := mode) (fs := fs) (main := main) h hs, x, n, opn, st, hx, ha, hr, hg, hl => by
    have hm := fields_json hst hs (x.modelOr a) n mode opn st (hx.modelOr a) ha hr hg hl
    have hd : (x.model.isNone && x.duck.next = .inferred) = false := by simp [hx.duck, Duck.next]
    simp only [build, fieldsSer, h, hd]
    refine Eq.mp (congrArg (Out _ _ _ _ _ _) ?_) (hm.mapM (f := Json.obj) (fun r hr => congrArg Json.obj hr))
    cases mainJson E (recs E bottom n) mode (buildFields E (recs E bottom n) fs) (x.modelOr a) Option.none Option.none main st with
    | mk r st1 =>
      cases r <;> simp [mapM]
  | _, a, _, _, .fieldsExtra (mode := mode) h hs he, x, n, opn, st, hx, ha, hr, hg, hl => by
    have hm := fields_json hst hs (x.modelOr a) n mode opn st (hx.modelOr a) (ha.mono (by omega)) (hr.mono (by omega)) hg hl
    have hd : (x.model.isNone && x.duck.next = .inferred) = false := by simp [hx.duck, Duck.next]
    simp only [build, fieldsSer, h, hd]
    exact Out.seq (f := fun es es' => Json.obj (es ++ es')) hm
      (fun st hg => extras_json (bottom := bottom) hp hid hst hx he n opn st (ha.mono (by omega)) hg hl)
      (fun e st1 h1 => by simp [h1]) (fun a st1 e st2 h1 h2 => by simp [h1, h2, mapM])
      (fun a st1 b st2 h1 h2 => by simp [h1, h2, mapM]) (fun a b h1 h2 => by rw [h1, h2])
  | _, _, _, _, .ref hd h, x, 0, opn, st, hx, ha, hr, hg, hl => absurd hg.le (by omega)
  | _, _, _, _, .ref hd h, x, n + 1, opn, st, hx, ha, hr, hg, hl => by
    have hfr := hr.fresh hid hd (.ref hd h)
    have hc := hr.cons (.ref hd h) (Nat.lt_succ_self _)
    simp only [build, refSer, recs]
    refine guarded_out hp hfr (fun _ => rfl) (fun st hg => ?_) st hg
    refine exact_json hst h x n _ st hx ?_ hc hg (by simp only [List.length_cons]; omega)
    intro k hk hi
    rcases List.mem_cons.1 hk with rfl | hk
    · exact absurd hi (Nat.ne_of_lt hd)
    · exact (ha.mono (by omega)) k hk hi
termination_by structural _ _ _ _ h => h
theorem each_json (hst : 0 < E.world.stack) : ∀ {ss : List (Schema α)} {xs : List α} {ds : List Json} {h : Nat},
    WritesEach E o ss xs ds h →
    ∀ (x : Extra α) (n : Nat) (more : Bool) (len i : Nat) (rest : List (Schema α)) (opn : List Guard.Key) (st : St),
      x.Fits o → Above E.world opn h → Over E o opn h → Good E.platform opn st.guard → E.platform.limit < n + opn.length →
      Out E.platform True opn h (fun r => r = ds) st.warnings
        (tupleJson (recs E bottom n) (.schema Option.none Option.none) more x len Option.none Option.none i
          ((ss ++ rest).map (build E (recs E bottom n))) xs st)
  | _, _, _, _, .nil, x, n, more, len, i, rest, opn, st, hx, ha, hr, hg, hl => by
    cases rest <;> exact .pure hg rfl
  | _, _, _, _, .cons h hs, x, n, more, len, i, rest, opn, st, hx, ha, hr, hg, hl => by
    simp only [List.cons_append, List.map_cons, tupleJson, indexFilter_pass]
    exact Out.seq (f := List.cons) (exact_json hst h x n opn st hx (ha.mono (by omega)) (hr.mono (by omega)) hg hl)
      (fun st hg => each_json hst hs x n more len (i + 1) rest opn st hx (ha.mono (by omega)) (hr.mono (by omega)) hg hl)
      (fun e st1 h1 => by simp only [h1]) (fun a st1 e st2 h1 h2 => by simp only [h1, h2])
      (fun a st1 b st2 h1 h2 => by simp only [h1, h2]) (fun a b h1 h2 => by rw [h1, h2])
termination_by structural _ _ _ _ h => h
theorem all_json (hst : 0 < E.world.stack) : ∀ {s : Schema α} {xs : List α} {ds : List Json} {h : Nat}, WritesAll E o s xs ds h →
    ∀ (x : Extra α) (n len i : Nat) (opn : List Guard.Key) (st : St), x.Fits o → Above E.world opn h → Over E o opn h →
      Good E.platform opn st.guard → E.platform.limit < n + opn.length →
      Out E.platform True opn h (fun r => r = ds) st.warnings
        (listJson (.schema Option.none Option.none) (build E (recs E bottom n) s) x len Option.none Option.none i xs st)
  | _, _, _, _, .nil, x, n, len, i, opn, st, hx, ha, hr, hg, hl => .pure hg rfl
  | _, _, _, _, .cons h hs, x, n, len, i, opn, st, hx, ha, hr, hg, hl => by
    simp only [listJson, indexFilter_pass]
    exact Out.seq (f := List.cons) (exact_json hst h x n opn st hx (ha.mono (by omega)) (hr.mono (by omega)) hg hl)
      (fun st hg => all_json hst hs x n len (i + 1) opn st hx (ha.mono (by omega)) (hr.mono (by omega)) hg hl)
      (fun e st1 h1 => by simp only [h1]) (fun a st1 e st2 h1 h2 => by simp only [h1, h2])
      (fun a st1 b st2 h1 h2 => by simp only [h1, h2]) (fun a b h1 h2 => by rw [h1, h2])
termination_by structural _ _ _ _ h => h
theorem set_json (hst : 0 < E.world.stack) : ∀ {s : Schema α} {xs : List α} {ds : List Json} {h : Nat}, WritesAll E o s xs ds h →
    ∀ (x : Extra α) (n : Nat) (opn : List Guard.Key) (st : St), x.Fits o → Above E.world opn h → Over E o opn h →
      Good E.platform opn st.guard → E.platform.limit < n + opn.length →
      Out E.platform True opn h (fun r => r = ds) st.warnings
        (setJson (build E (recs E bottom n) s) x Option.none Option.none xs st)
  | _, _, _, _, .nil, x, n, opn, st, hx, ha, hr, hg, hl => .pure hg rfl
  | _, _, _, _, .cons h hs, x, n, opn, st, hx, ha, hr, hg, hl => by
    simp only [setJson]
    exact Out.seq (f := List.cons) (exact_json hst h x n opn st hx (ha.mono (by omega)) (hr.mono (by omega)) hg hl)
      (fun st hg => set_json hst hs x n opn st hx (ha.mono (by omega)) (hr.mono (by omega)) hg hl)
      (fun e st1 h1 => by simp only [h1]) (fun a st1 e st2 h1 h2 => by simp only [h1, h2])
      (fun a st1 b st2 h1 h2 => by simp only [h1, h2]) (fun a b h1 h2 => by rw [h1, h2])
termination_by structural _ _ _ _ h => h
theorem dict_json (hst : 0 < E.world.stack) : ∀ {k v : Schema α} {kvs : List (α × α)} {es : List (Text × Json)} {h : Nat},
    WritesDict E o k v kvs es h →
    ∀ (x : Extra α) (n : Nat) (opn : List Guard.Key) (st : St), x.Fits o → Above E.world opn h → Over E o opn h →
      Good E.platform opn st.guard → E.platform.limit < n + opn.length →
      Out E.platform True opn h (fun r => r = es) st.warnings
        (dictJson E (.schema Option.none Option.none) (keyOf E k) (build E (recs E bottom n) v) x Option.none Option.none kvs st)
  | _, _, _, _, _, .nil, x, n, opn, st, hx, ha, hr, hg, hl => .pure hg rfl
  | _, _, _, _, _, .cons (t := t) hk h hs, x, n, opn, st, hx, ha, hr, hg, hl => by
    simp only [dictJson, keyFilter_pass, keyText_step hst hk]
    exact Out.seq (f := fun r rs => (t, r) :: rs)
      (exact_json hst h x n opn st hx (ha.mono (by omega)) (hr.mono (by omega)) hg hl)
      (fun st hg => dict_json hst hs x n opn st hx (ha.mono (by omega)) (hr.mono (by omega)) hg hl)
      (fun e st1 h1 => by simp only [h1]) (fun a st1 e st2 h1 h2 => by simp only [h1, h2])
      (fun a st1 b st2 h1 h2 => by simp only [h1, h2]) (fun a b h1 h2 => by rw [h1, h2])
termination_by structural _ _ _ _ _ h => h
theorem fields_json (hst : 0 < E.world.stack) : ∀ {fs : Fields α} {main : List (α × α)} {es : List (Text × Json)} {h : Nat},
    WritesFields E o fs main es h →
    ∀ (x : Extra α) (n : Nat) (mode : FieldsMode) (opn : List Guard.Key) (st : St), x.Fits o → Above E.world opn h → Over E o opn h →
      Good E.platform opn st.guard → E.platform.limit < n + opn.length →
      Out E.platform True opn h (fun r => r = es) st.warnings
        (mainJson E (recs E bottom n) mode (buildFields E (recs E bottom n) fs) x Option.none Option.none main st)
  | _, _, _, _, .nil, x, n, mode, opn, st, hx, ha, hr, hg, hl => .pure hg rfl
  | _, _, _, _, .skipNone hn hv hs, x, n, mode, opn, st, hx, ha, hr, hg, hl => by
    simp only [mainJson, hx.excludeNone, hn, isNone_of hv, Bool.and_self, if_true]
    exact fields_json hst hs x n mode opn st hx ha hr hg hl
  | _, (k, v) :: main, _, _, .skip hv hk hf hs, x, n, mode, opn, st, hx, ha, hr, hg, hl => by
    have hc : (x.excludeNone && isNone E.world v) = false := by
      rw [hx.excludeNone]
      rcases hv with hv | hv
      · rw [hv]; rfl
      · rw [isNone_ne hv, Bool.and_false]
    simp only [mainJson, hc, keyFilter_pass, keyStr_of hk, getField_build, hf, Option.map]
    exact fields_json hst hs x n mode opn st hx ha hr hg hl
  | _, (k, v) :: main, _, _, .field (info := info) hv hk hf h hs, x, n, mode, opn, st, hx, ha, hr, hg, hl => by
    have hc : (x.excludeNone && isNone E.world v) = false := by
      rw [hx.excludeNone]
      rcases hv with hv | hv
      · rw [hv]; rfl
      · rw [isNone_ne hv, Bool.and_false]
    simp only [mainJson, hc, keyFilter_pass, keyStr_of hk, getField_build, hf, Option.map, fieldKey_eq hx]
    exact Out.seq (f := fun r rs => (o.fieldKey info, r) :: rs)
      (exact_json hst h x n opn st hx (ha.mono (by omega)) (hr.mono (by omega)) hg hl)
      (fun st hg => fields_json hst hs x n mode opn st hx (ha.mono (by omega)) (hr.mono (by omega)) hg hl)
      (fun e st1 h1 => by simp [h1]) (fun a st1 e st2 h1 h2 => by simp [h1, h2])
      (fun a st1 b st2 h1 h2 => by simp [h1, h2]) (fun a b h1 h2 => by rw [h1, h2])
termination_by structural _ _ _ _ h => h
end

end exact

end PC.Infer
