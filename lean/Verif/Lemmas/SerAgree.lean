import Verif.Lemmas.SerTupleItems
import Verif.Spec.SerEngine
import Verif.Props.Bytes

namespace PC.Infer
open PC.Float (F64)
open PC.Filter (FVal Filt indexFilter keyFilter)

variable {α : Type}

/-- Outcomes related: equal errors, or results in relation; equal states. -/
def Rel {A B : Type} (R : A → B → Prop) : Except SErr A × St → Except SErr B × St → Prop
  | (.ok y, st), (.ok d, st') => R y d ∧ st = st'
  | (.error e, st), (.error e', st') => e = e' ∧ st = st'
  | _, _ => False

theorem agree_rel (W : World α) (p : Except SErr (Py α) × St) (q : Except SErr Json × St) :
    Agree W p q ↔ Rel (fun y d => y.doc W = some d.norm) p q := by
  obtain ⟨p, s⟩ := p
  obtain ⟨q, t⟩ := q
  cases p <;> cases q <;> simp [Agree, Rel]

theorem Rel.cases {A B : Type} {R : A → B → Prop} {p : Except SErr A × St} {q : Except SErr B × St} (h : Rel R p q) :
    (∃ e st, p = (.error e, st) ∧ q = (.error e, st)) ∨ ∃ a b st, p = (.ok a, st) ∧ q = (.ok b, st) ∧ R a b := by
  obtain ⟨p, s⟩ := p
  obtain ⟨q, t⟩ := q
  cases p <;> cases q <;> simp only [Rel] at h
  · obtain ⟨rfl, rfl⟩ := h
    exact .inl ⟨_, _, rfl, rfl⟩
  · obtain ⟨h, rfl⟩ := h
    exact .inr ⟨_, _, _, rfl, rfl, h⟩

theorem Rel.ok {A B : Type} {R : A → B → Prop} {a : A} {b : B} {st : St} (h : R a b) :
    Rel R (.ok a, st) (.ok b, st) := ⟨h, rfl⟩

theorem Rel.err {A B : Type} {R : A → B → Prop} {e : SErr} {st : St} :
    Rel R ((.error e, st) : Except SErr A × St) ((.error e, st) : Except SErr B × St) := ⟨rfl, rfl⟩

theorem Rel.map {A B C D : Type} {R : A → B → Prop} {S : C → D → Prop} {f : A → C} {g : B → D}
    {p : Except SErr A × St} {q : Except SErr B × St} (h : Rel R p q) (hf : ∀ a b, R a b → S (f a) (g b)) :
    Rel S (mapM f p) (mapM g q) := by
  rcases h.cases with ⟨e, st, rfl, rfl⟩ | ⟨a, b, st, rfl, rfl, h'⟩
  · exact .err
  · exact .ok (hf _ _ h')

/-! ### Filters -/

theorem filter_none (f : Filt) (k : Filter.Key) (i : Int) (r : Option FVal × Option FVal)
    (h : Filter.filter f k i Option.none Option.none = .ok (some r)) : r = (Option.none, Option.none) := by
  simp only [Filter.filter, Filter.excludeStep, Filter.includeStep] at h
  cases hd : f.defaultFilter i <;> simp [hd] at h
  exact h.symm

theorem indexFilter_none (f : Filt) (i : Nat) (len : Option Nat) (ni ne : Option FVal)
    (h : indexFilter f i Option.none Option.none len = .ok (some (ni, ne))) : ni = Option.none ∧ ne = Option.none := by
  have := filter_none f (.i i) i _ h
  simpa using this

theorem keyFilter_none (hash : Filter.Key → Int) (f : Filt) (k : Filter.Key) (ni ne : Option FVal)
    (h : keyFilter hash f k Option.none Option.none = .ok (some (ni, ne))) : ni = Option.none ∧ ne = Option.none := by
  unfold keyFilter at h
  split at h
  · simpa using filter_none _ _ _ _ h
  · simpa using filter_none _ _ _ _ h

/-- The condition on filters. -/
abbrev FiltersOk (E : Env α) (incl excl : Option FVal) : Prop :=
  (incl = Option.none ∧ excl = Option.none) ∨ NoSets E.world

theorem FiltersOk.index {E : Env α} {incl excl : Option FVal} (h : FiltersOk E incl excl) {f : Filt} {i : Nat}
    {len : Option Nat} {ni ne : Option FVal} (hf : indexFilter f i incl excl len = .ok (some (ni, ne))) :
    FiltersOk E ni ne := by
  rcases h with ⟨rfl, rfl⟩ | h
  · exact .inl (indexFilter_none _ _ _ _ _ hf)
  · exact .inr h

theorem FiltersOk.key {E : Env α} {incl excl : Option FVal} (h : FiltersOk E incl excl) {hash : Filter.Key → Int}
    {f : Filt} {k : Filter.Key} {ni ne : Option FVal} (hf : keyFilter hash f k incl excl = .ok (some (ni, ne))) :
    FiltersOk E ni ne := by
  rcases h with ⟨rfl, rfl⟩ | h
  · exact .inl (keyFilter_none _ _ _ _ _ hf)
  · exact .inr h

/-! ### Documents -/

theorem docEntries_setItem_text (W : World α) (t : Text) (o : Py α) (d : Json) (ho : o.doc W = some d) :
    ∀ (acc : List (Text × Py α)) (ds : List (Text × Json)),
      docEntries W (acc.map fun e => (.str (.utf8 e.1), e.2)) = some ds →
      docEntries W ((Keys.setItem t o acc).map fun e => (.str (.utf8 e.1), e.2)) = some (Keys.setItem t d ds)
  | [], ds, h => by
    simp only [List.map_nil, docEntries, Option.some.injEq] at h
    subst h
    simp [Keys.setItem, docEntries, Py.doc, ho]
  | (t', o') :: acc, ds, h => by
    simp only [List.map_cons, docEntries, Py.doc] at h
    cases ho' : o'.doc W with
    | none => simp [ho'] at h
    | some d' =>
      cases hr : docEntries W (acc.map fun e => (.str (.utf8 e.1), e.2)) with
      | none => simp [ho', hr] at h
      | some ds' =>
        simp only [ho', hr, Option.some.injEq] at h
        subst h
        simp only [Keys.setItem]
        by_cases ht : t' = t
        · simp [ht, docEntries, Py.doc, ho, hr]
        · simp [ht, docEntries, Py.doc, ho', docEntries_setItem_text W t o d ho acc ds' hr]

/-- The entries of a dict under construction, and the document so far. -/
def AccRel (W : World α) (ds : List (Text × Json)) (acc : List (Text × Py α)) (es : List (Text × Json)) : Prop :=
  docEntries W (acc.map fun e => (.str (.utf8 e.1), e.2))
    = some ((normEntries es).foldl (fun acc e => Keys.setItem e.1 e.2 acc) ds)

theorem accRel_dict {W : World α} {acc : List (Text × Py α)} {es : List (Text × Json)} (h : AccRel W [] acc es) :
    (textDict acc).doc W = some (Json.norm (.obj es)) := by
  have h' : docEntries W (acc.map fun e => (.str (.utf8 e.1), e.2))
    = some ((normEntries es).foldl (fun acc e => Keys.setItem e.1 e.2 acc) []) := h
  simp only [textDict, Py.doc, h', Json.norm]

theorem normEntries_append : ∀ es es' : List (Text × Json), normEntries (es ++ es') = normEntries es ++ normEntries es'
  | [], _ => rfl
  | (t, d) :: es, es' => by simp [normEntries, normEntries_append es es']

/-! ### Inference -/

/-- The serialiser agrees with itself. -/
def Fits (E : Env α) (s : Schema α) (f : SerFn α) : Prop :=
  ∀ x a incl excl st, SchemasOk E x → CallOk E s x incl excl →
    Agree E.world (f.py x a incl excl st) (f.json x a incl excl st)

theorem CallOk.any {E : Env α} {s : Schema α} {x : Extra α} {i e ni ne : Option FVal} (h : CallOk E s x i e)
    (hf : FiltersOk E ni ne) : CallOk E .any x ni ne :=
  ⟨h.mode, h.check, h.unknown, h.config, hf, .inr (.inr trivial)⟩

theorem bytes_same (u : List UInt8 → Option (List Char)) (m : Bytes.Mode) (b : List UInt8) :
    Bytes.bytesToString u m b = Bytes.serializeBytes u m b := by
  cases m with
  | utf8 => rfl
  | base64 => rfl
  | hex => simp only [Bytes.bytesToString, Bytes.serializeBytes, Bytes.foldl_hex, List.nil_append]

theorem seqFilter_agree {E : Env α} {rec : SerFn α} (hr : Fits E .any rec) {x : Extra α} (hs : SchemasOk E x)
    {len : Option Nat} {incl excl : Option FVal} (hc : CallOk E .any x incl excl) :
    ∀ (i : Nat) (xs : List (Except SErr α)) (st : St),
      Rel (fun ys ds => docItems E.world ys = some (normItems ds)) (pySeqFilter rec x len incl excl i xs st)
        (jsonSeqFilter rec x len incl excl i xs st)
  | _, [], st => .ok rfl
  | _, .error e :: _, st => .err
  | i, .ok v :: vs, st => by
    simp only [pySeqFilter, jsonSeqFilter]
    cases hf : indexFilter .any i incl excl len with
    | error e => exact .err
    | ok r =>
      cases r with
      | none => exact seqFilter_agree hr hs hc (i + 1) vs st
      | some r =>
        obtain ⟨ni, ne⟩ := r
        dsimp only
        rcases ((agree_rel _ _ _).1 (hr x v ni ne st hs (hc.any (FiltersOk.index hc.filters hf)))).cases with
          ⟨e, st1, h1, h2⟩ | ⟨y, d, st1, h1, h2, hy⟩
        · rw [h1, h2]; exact .err
        · rw [h1, h2]
          dsimp only
          rcases (seqFilter_agree hr hs hc (i + 1) vs st1).cases with ⟨e, st2, h3, h4⟩ | ⟨ys, ds, st2, h3, h4, hys⟩
          · rw [h3, h4]; exact .err
          · rw [h3, h4]
            refine .ok ?_
            simp only [docItems, hy, hys, normItems]

theorem seq_agree {E : Env α} {rec : SerFn α} (hr : Fits E .any rec) {x : Extra α} (hs : SchemasOk E x)
    (hc : CallOk E .any x Option.none Option.none) : ∀ (xs : List α) (st : St),
      Rel (fun ys ds => docItems E.world ys = some (normItems ds)) (pySeq rec x xs st)
        (jsonSeq rec x Option.none Option.none xs st)
  | [], st => .ok rfl
  | v :: vs, st => by
    simp only [pySeq, jsonSeq]
    rcases ((agree_rel _ _ _).1 (hr x v _ _ st hs hc)).cases with ⟨e, st1, h1, h2⟩ | ⟨y, d, st1, h1, h2, hy⟩
    · rw [h1, h2]; exact .err
    · rw [h1, h2]
      dsimp only
      rcases (seq_agree hr hs hc vs st1).cases with ⟨e, st2, h3, h4⟩ | ⟨ys, ds, st2, h3, h4, hys⟩
      · rw [h3, h4]; exact .err
      · rw [h3, h4]
        refine .ok ?_
        simp only [docItems, hy, hys, normItems]

theorem pairs_agree {E : Env α} {rec : SerFn α} (hr : Fits E .any rec) {x : Extra α} (hs : SchemasOk E x)
    {incl excl : Option FVal} (hc : CallOk E .any x incl excl) :
    ∀ (es : List (Except SErr (α × α))) (acc : List (Text × Py α)) (ds : List (Text × Json)) (st : St),
      docEntries E.world (acc.map fun e => (.str (.utf8 e.1), e.2)) = some ds →
      Rel (AccRel E.world ds) (pyPairsJson E.world rec x incl excl es acc st)
        (jsonPairs E.world rec x incl excl es st)
  | [], acc, ds, st, ha => .ok ha
  | .error e :: _, _, _, st, _ => .err
  | .ok (k, v) :: es, acc, ds, st, ha => by
    simp only [pyPairsJson, jsonPairs]
    cases hf : keyFilter (fun _ => 0) .any (E.world.filterKey k) incl excl with
    | error e => exact .err
    | ok r =>
      cases r with
      | none => exact pairs_agree hr hs hc es acc ds st ha
      | some r =>
        obtain ⟨ni, ne⟩ := r
        dsimp only
        cases hk : inferKey E.world x k with
        | error e => exact .err
        | ok t =>
          dsimp only
          rcases ((agree_rel _ _ _).1 (hr x v ni ne st hs (hc.any (FiltersOk.key hc.filters hf)))).cases with
            ⟨e, st1, h1, h2⟩ | ⟨y, d, st1, h1, h2, hy⟩
          · rw [h1, h2]; exact .err
          · rw [h1, h2]
            dsimp only
            have ha' := docEntries_setItem_text E.world t y d.norm hy acc ds ha
            rcases (pairs_agree hr hs hc es (Keys.setItem t y acc) _ st1 ha').cases with
              ⟨e, st2, h3, h4⟩ | ⟨ys, es', st2, h3, h4, hys⟩
            · rw [h3, h4]; exact .err
            · rw [h3, h4]
              exact .ok hys

theorem f64_agree {E : Env α} {c : Config} (hc : ConfigOk E c) {a : α} {f : F64}
    (ha : E.world.shape a = .float f ∨ E.world.shape a = .floatSub f) :
    Py.doc E.world (if !f.isFinite && c.infNan = .null then .none else .float f)
      = some (serializeF64 c.infNan f).norm := by
  unfold serializeF64
  cases hf : f.isFinite with
  | true => simp [Py.doc, Json.norm]
  | false =>
    rcases hc with hc | hc
    · cases hm : c.infNan <;> simp_all [Py.doc, Json.norm]
    · rw [hc.1 a f ha] at hf
      cases hf

theorem docItems_list {W : World α} {ys : List (Py α)} {ds : List Json} (h : docItems W ys = some (normItems ds)) :
    (Py.list ys).doc W = some (Json.norm (.arr ds)) := by
  simp only [Py.doc, h, Json.norm]

theorem SchemasOk.forSerializer {E : Env α} {x : Extra α} (h : SchemasOk E x) (c : Config) :
    SchemasOk E (x.forSerializer c) := ⟨h.defs, h.own, h.duck⟩

theorem body_agree {E : Env α} (ho : Ordinary E) {R : Recs α} (hr : Fits E .any R.infer)
    (hb : ∀ s, s.floatsOk E → Fits E s (build E R s)) {x : Extra α} (hs : SchemasOk E x) {incl excl : Option FVal}
    (hc : CallOk E .any x incl excl) (a : α) (st : St) :
    Agree E.world (pyJsonBody E.world R.infer (serializerFn E R) x a incl excl st)
      (jsonBody E.world R.infer (serializerFn E R) x a incl excl st) := by
  rw [agree_rel]
  unfold pyJsonBody jsonBody
  cases ha : E.world.shape a with
  | none => exact .ok (by simp [Py.doc, scalarDoc, ha, Json.norm])
  | bool b => exact .ok (by simp [Py.doc, scalarDoc, ha, Json.norm])
  | int i => exact .ok (by simp [Py.doc, scalarDoc, ha, Json.norm])
  | intSub i =>
    cases i with
    | none => exact .err
    | some i => exact .ok (by simp [Py.doc, Json.norm])
  | float f =>
    dsimp only
    have h := f64_agree hc.config (.inl ha)
    by_cases h1 : (!f.isFinite && decide (x.config.infNan = .null)) = true
    · rw [if_pos h1] at h ⊢
      exact .ok h
    · rw [if_neg h1] at h ⊢
      exact .ok h
  | floatSub f =>
    dsimp only
    have h := f64_agree hc.config (.inr ha)
    by_cases h1 : (!f.isFinite && decide (x.config.infNan = .null)) = true
    · rw [if_pos h1] at h ⊢
      exact .ok h
    · rw [if_neg h1] at h ⊢
      exact .ok h
  | str s =>
    obtain ⟨t, rfl⟩ := ho.str a s ha
    exact .ok (by simp [Py.doc, scalarDoc, ha, Json.norm])
  | strSub s =>
    cases s with
    | utf8 t => exact .ok (by simp [Py.doc, Json.norm])
    | lone t => exact .err
  | bytes b =>
    dsimp only
    rw [bytes_same]
    cases Bytes.serializeBytes E.world.fromUtf8 x.config.bytes b with
    | none => exact .err
    | some t => exact .ok (by simp [Py.doc, Json.norm])
  | bytearray b =>
    dsimp only
    rw [bytes_same]
    cases Bytes.serializeBytes E.world.fromUtf8 x.config.bytes b with
    | none => exact .err
    | some t => exact .ok (by simp [Py.doc, Json.norm])
  | list xs => exact (seqFilter_agree hr hs hc _ _ _).map fun _ _ => docItems_list
  | tuple xs => exact (seqFilter_agree hr hs hc _ _ _).map fun _ _ => docItems_list
  | set xs =>
    rcases hc.filters with ⟨rfl, rfl⟩ | h
    · exact (seq_agree hr hs hc _ _).map fun _ _ => docItems_list
    · exact absurd ha (h a xs).1
  | frozenset xs =>
    rcases hc.filters with ⟨rfl, rfl⟩ | h
    · exact (seq_agree hr hs hc _ _).map fun _ _ => docItems_list
    · exact absurd ha (h a xs).2
  | dict es => exact (pairs_agree hr hs hc _ [] [] _ rfl).map fun _ _ => accRel_dict
  | text t =>
    cases t with
    | error e => exact .err
    | ok t => exact .ok (by simp [Py.doc, Json.norm])
  | timedelta iso seconds =>
    dsimp only
    unfold timedeltaPy timedeltaJson
    cases x.config.timedelta with
    | iso8601 =>
      cases iso with
      | error e => exact .err
      | ok t => exact .ok (by simp [Py.doc, Json.norm])
    | float =>
      cases seconds with
      | error e => exact .err
      | ok t => exact .ok (by simp [Py.doc, Json.norm])
  | pydantic =>
    dsimp only
    unfold serializerFn
    cases hso : E.serializerOf a with
    | error e => exact .err
    | ok cs =>
      obtain ⟨c, s⟩ := cs
      obtain ⟨hfs, hcc⟩ := hs.own a c s hso
      refine (agree_rel _ _ _).1 (hb s hfs _ a incl excl st (hs.forSerializer c) ?_)
      refine ⟨hc.mode, rfl, hc.unknown, hcc, hc.filters, ?_⟩
      rcases hs.duck with h | h
      · exact .inl h
      · exact .inr (.inr (h.2 a c s hso))
  | dataclass fields =>
    cases fields with
    | error e => exact .err
    | ok es => exact (pairs_agree hr hs hc _ [] [] _ rfl).map fun _ _ => accRel_dict
  | enum v =>
    cases v with
    | error e => exact .err
    | ok v => exact (agree_rel _ _ _).1 (hr x v incl excl st hs hc)
  | generator items => exact (seqFilter_agree hr hs hc _ _ _).map fun _ _ => docItems_list
  | path =>
    dsimp only
    cases hst : E.world.str a with
    | error e => exact .err
    | ok s =>
      obtain ⟨t, rfl⟩ := ho.path a s ha hst
      exact .ok (by simp [Py.doc, Json.norm])
  | pattern p =>
    cases p with
    | error e => exact .err
    | ok p =>
      obtain ⟨t, h1, h2⟩ := ho.pattern a p ha
      dsimp only
      rw [h2]
      exact .ok (by simp [Py.doc, scalarDoc, h1, Json.norm])
  | unknown =>
    dsimp only
    cases x.fallback with
    | none =>
      rw [if_neg (by simp [hc.unknown]), if_neg (by simp [hc.unknown])]
      exact .err
    | some f =>
      dsimp only
      cases f a with
      | error e => exact .err
      | ok v => exact (agree_rel _ _ _).1 (hr x v incl excl st hs hc)

theorem guarded_agree {A B : Type} {S : A → B → Prop} (p : Guard.Platform) (k : Guard.Key)
    (rp : SErr → Except SErr A) (rj : SErr → Except SErr B) (hp : ∀ e, rp e = .error e) (hj : ∀ e, rj e = .error e)
    (bp : M A) (bj : M B) (h : ∀ st, Rel S (bp st) (bj st)) (st : St) :
    Rel S (guarded p k rp bp st) (guarded p k rj bj st) := by
  unfold guarded
  cases he : Guard.enter p st.guard k with
  | mk r g =>
    cases r with
    | error e =>
      cases e with
      | cyclic => dsimp only; rw [hp, hj]; exact .err
      | depth => dsimp only; rw [hp, hj]; exact .err
    | ok u =>
      dsimp only
      rcases (h { st with guard := g }).cases with ⟨e, st1, h1, h2⟩ | ⟨y, d, st1, h1, h2, hy⟩
      · rw [h1, h2]
        dsimp only
        cases Guard.leave st1.guard k with
        | none => exact .err
        | some g1 => exact .err
      · rw [h1, h2]
        dsimp only
        cases Guard.leave st1.guard k with
        | none => exact .err
        | some g1 => exact .ok hy

theorem infer_agree {E : Env α} (ho : Ordinary E) {R : Recs α} (hr : Fits E .any R.infer)
    (hb : ∀ s, s.floatsOk E → Fits E s (build E R s)) :
    Fits E .any ⟨inferPy E.world E.platform R.infer (serializerFn E R),
      inferJson E.world E.platform R.infer (serializerFn E R)⟩ := by
  intro x a incl excl st hs hc
  rw [agree_rel]
  dsimp only
  unfold inferPy inferJson
  rw [hc.mode]
  exact guarded_agree _ _ _ _ (fun _ => rfl) (fun e => by simp [hc.unknown]) _ _
    (fun st => (agree_rel _ _ _).1 (body_agree ho hr hb hs hc a st)) st

/-! ### Serialisers -/

theorem CallOk.same {E : Env α} {s s' : Schema α} {x : Extra α} {i e ni ne : Option FVal} (h : CallOk E s x i e)
    (hf : FiltersOk E ni ne) (hm : s.modelsFirst → s'.modelsFirst) : CallOk E s' x ni ne :=
  ⟨h.mode, h.check, h.unknown, h.config, hf, h.duck.imp id (Or.imp id hm)⟩

theorem onFallback_cases (W : World α) (name : Text) {x : Extra α} (hx : x.check = .none) (a : α) (st : St) :
    ∃ st1, onFallback W name x a st = (.ok (), st1) := by
  unfold onFallback
  split
  · exact ⟨_, rfl⟩
  · rw [if_neg (by simp [hx])]
    exact ⟨_, rfl⟩

theorem fallback_agree {E : Env α} {R : Recs α} (hr : Fits E .any R.infer) (name : Text) {s : Schema α} {x : Extra α}
    (hs : SchemasOk E x) {incl excl : Option FVal} (hc : CallOk E s x incl excl) (a : α) (st : St) :
    Rel (fun y d => y.doc E.world = some d.norm) (fallbackPy E R name x a incl excl st)
      (fallbackJson E R name x a incl excl st) := by
  obtain ⟨st1, h⟩ := onFallback_cases E.world name hc.check a st
  unfold fallbackPy fallbackJson
  rw [h]
  exact (agree_rel _ _ _).1 (hr x a incl excl st1 hs (hc.any hc.filters))

theorem enum_agree {E : Env α} {R : Recs α} (hr : Fits E .any R.infer) (l : Leaf) (cls : Nat) {s : Schema α}
    (hm : s.modelsFirst) {f : SerFn α} (hf : Fits E s f) : Fits E (.leaf l) (enumSer E R cls f) := by
  intro x a incl excl st hs hc
  rw [agree_rel]
  simp only [enumSer]
  by_cases h : E.isEnum cls a = true
  · rw [if_pos h, if_pos h, hc.mode]
    dsimp only
    cases E.enumValue a with
    | error e => exact .err
    | ok v => exact (agree_rel _ _ _).1 (hf x v incl excl st hs (hc.same hc.filters fun _ => hm))
  · rw [if_neg h, if_neg h]
    exact fallback_agree hr _ hs hc a st

theorem leaf_agree' {E : Env α} (ho : Ordinary E) {R : Recs α} (hr : Fits E .any R.infer) (l : Leaf)
    (hl : (Schema.leaf l : Schema α).floatsOk E)
    (hsub : ∀ cls sub, l = .enumOf cls sub → Fits E (.leaf sub) (leafSer E R sub)) :
    Fits E (.leaf l) (leafSer E R l) := by
  intro x a incl excl st hs hc
  rw [agree_rel]
  have hfb := fun name st => fallback_agree hr name hs hc a st
  have hns : ¬ x.check = .strict := by simp [hc.check]
  cases l with
  | none =>
    simp only [leafSer, noneSer]
    split
    · exact .ok (by simp [Py.doc, Json.norm])
    · exact hfb _ _
  | bool =>
    simp only [leafSer, simplePy, simpleJson]
    cases ht : E.isType .bool a with
    | exact =>
      obtain ⟨b, h1, h2⟩ := ho.bools.exact a ht
      rw [h1]
      exact .ok (by simp [Py.doc, scalarDoc, h2, Json.norm])
    | subclass => exact absurd ht (ho.boolsFinal a)
    | no =>
      rw [ho.bools.no a ht]
      exact hfb _ _
  | int =>
    simp only [leafSer, simplePy, simpleJson]
    cases ht : E.isType .int a with
    | exact =>
      obtain ⟨b, h1, h2⟩ := ho.ints.exact a ht
      rw [h1]
      exact .ok (by simp [Py.doc, scalarDoc, h2, Json.norm])
    | subclass =>
      obtain ⟨b, h1⟩ := ho.ints.subclass a ht
      dsimp only
      rw [h1, if_neg hns, hc.mode]
      exact .ok (by simp [Py.doc, Json.norm])
    | no =>
      rw [ho.ints.no a ht]
      exact hfb _ _
  | float m =>
    have key : ∀ f, E.extractFloat a = some f → (Json.norm (serializeF64 m f)) = .float f := by
      intro f hf
      unfold serializeF64
      rcases hl with rfl | h
      · split <;> rfl
      · rw [if_pos (h.2 a f hf)]
        rfl
    simp only [leafSer, simplePy, simpleJson]
    cases ht : E.isType .float a with
    | exact =>
      obtain ⟨f, h1, h2⟩ := ho.floats.exact a ht
      rw [h1]
      exact .ok (by simp [Py.doc, scalarDoc, h2, key f h1])
    | subclass =>
      obtain ⟨f, h1⟩ := ho.floats.subclass a ht
      dsimp only
      rw [h1, if_neg hns, hc.mode]
      exact .ok (by simp [Py.doc, key f h1])
    | no =>
      rw [ho.floats.no a ht]
      exact hfb _ _
  | str =>
    simp only [leafSer, strPy, strSerJson]
    cases ht : E.isType .str a with
    | exact =>
      obtain ⟨s, h1, h2⟩ := ho.strs.exact a ht
      obtain ⟨t, rfl⟩ := ho.str a s h2
      rw [h1]
      exact .ok (by simp [Py.doc, scalarDoc, h2, Json.norm])
    | subclass =>
      obtain ⟨s, h1⟩ := ho.strs.subclass a ht
      dsimp only
      rw [h1, hc.mode]
      cases s with
      | utf8 t => exact .ok (by simp [Py.doc, Json.norm])
      | lone t => exact .err
    | no =>
      rw [ho.strs.no a ht]
      exact hfb _ _
  | bytes m =>
    simp only [leafSer, bytesPy, bytesJson]
    cases E.asBytes a with
    | none => exact hfb _ _
    | some b =>
      dsimp only
      rw [hc.mode]
      dsimp only
      rw [bytes_same]
      cases Bytes.serializeBytes E.world.fromUtf8 m b with
      | none => exact .err
      | some t => exact .ok (by simp [Py.doc, Json.norm])
  | text k =>
    simp only [leafSer, textPy, textJson]
    cases E.asText k a with
    | none => exact hfb _ _
    | some t =>
      dsimp only
      rw [hc.mode]
      cases t with
      | error e => exact .err
      | ok t => exact .ok (by simp [Py.doc, Json.norm])
  | timedelta m =>
    simp only [leafSer, timedeltaSer]
    rw [hc.mode]
    dsimp only
    cases E.asTimedelta a with
    | none => exact hfb _ _
    | some t =>
      obtain ⟨iso, seconds⟩ := t
      cases m with
      | iso8601 =>
        cases iso with
        | error e => exact .err
        | ok t => exact .ok (by simp [Py.doc, Json.norm])
      | float =>
        cases seconds with
        | error e => exact .err
        | ok t => exact .ok (by simp [Py.doc, Json.norm])
  | decimal =>
    simp only [leafSer, decimalSer]
    by_cases h : E.isDecimal a = true
    · rw [if_pos h, if_pos h]
      exact (agree_rel _ _ _).1 (hr x a incl excl st hs (hc.any hc.filters))
    · rw [if_neg h, if_neg h]
      exact hfb _ _
  | literal l =>
    have h : literalCheck E l x a = .ok .ok := by simp [literalCheck, hc.check]
    simp only [leafSer, literalSer, h]
    exact (agree_rel _ _ _).1 (hr x a incl excl st hs (hc.any hc.filters))
  | enum cls =>
    exact (agree_rel _ _ _).1 (enum_agree hr _ cls (s := .any) trivial hr x a incl excl st hs hc)
  | enumOf cls sub =>
    exact (agree_rel _ _ _).1 (enum_agree hr _ cls (s := .leaf sub) trivial (hsub cls sub rfl) x a incl excl st hs hc)

theorem leaf_agree {E : Env α} (ho : Ordinary E) {R : Recs α} (hr : Fits E .any R.infer) (l : Leaf)
    (hl : (Schema.leaf l : Schema α).floatsOk E) : Fits E (.leaf l) (leafSer E R l) := by
  induction l with
  | enumOf cls sub ih =>
    refine leaf_agree' ho hr _ hl fun cls' sub' h => ?_
    cases h
    exact ih hl
  | _ => exact leaf_agree' ho hr _ hl (fun _ _ h => by cases h)

theorem list_agree {E : Env α} {s : Schema α} {f : SerFn α} (hf : Fits E s f) {x : Extra α} (hs : SchemasOk E x)
    {flt : Filt} {len : Nat} {incl excl : Option FVal} (hc : CallOk E s x incl excl) :
    ∀ (i : Nat) (xs : List α) (st : St),
      Rel (fun ys ds => docItems E.world ys = some (normItems ds)) (listPy flt f x len incl excl i xs st)
        (listJson flt f x len incl excl i xs st)
  | _, [], st => .ok rfl
  | i, v :: vs, st => by
    simp only [listPy, listJson]
    cases hi : indexFilter flt i incl excl (some len) with
    | error e => exact .err
    | ok r =>
      cases r with
      | none => exact list_agree hf hs hc (i + 1) vs st
      | some r =>
        obtain ⟨ni, ne⟩ := r
        dsimp only
        rcases ((agree_rel _ _ _).1 (hf x v ni ne st hs (hc.same (FiltersOk.index hc.filters hi) id))).cases with
          ⟨e, st1, h1, h2⟩ | ⟨y, d, st1, h1, h2, hy⟩
        · rw [h1, h2]; exact .err
        · rw [h1, h2]
          dsimp only
          rcases (list_agree hf hs hc (i + 1) vs st1).cases with ⟨e, st2, h3, h4⟩ | ⟨ys, ds, st2, h3, h4, hys⟩
          · rw [h3, h4]; exact .err
          · rw [h3, h4]
            refine .ok ?_
            simp only [docItems, hy, hys, normItems]

/-- The serialisers of the items of a tuple agree. -/
def ItemsFit (E : Env α) (P : Prop) (fs : List (SerFn α)) : Prop :=
  ∀ f ∈ fs, ∃ s : Schema α, (P → s.modelsFirst) ∧ Fits E s f

theorem tuple_agree {E : Env α} {R : Recs α} (hr : Fits E .any R.infer) {s : Schema α} {x : Extra α} (hs : SchemasOk E x)
    {flt : Filt} {more : Bool} {len : Nat} {incl excl : Option FVal} (hc : CallOk E s x incl excl) :
    ∀ (i : Nat) (fs : List (SerFn α)) (xs : List α) (st : St), ItemsFit E s.modelsFirst fs →
      Rel (fun ys ds => docItems E.world ys = some (normItems ds)) (tuplePy R flt more x len incl excl i fs xs st)
        (tupleJson R flt more x len incl excl i fs xs st)
  | _, [], [], st, _ => .ok rfl
  | _, _ :: _, [], st, _ => .ok rfl
  | i, [], v :: vs, st, _ => by
    simp only [tuplePy, tupleJson]
    split
    · exact list_agree hr hs (hc.any hc.filters) i (v :: vs) _
    · exact .ok rfl
  | i, f :: fs, v :: vs, st, hfs => by
    have ih := fun st => tuple_agree hr (flt := flt) (more := more) (len := len) hs hc (i + 1) fs vs st
      (fun g hg => hfs g (List.mem_cons_of_mem _ hg))
    obtain ⟨s', hm, hf⟩ := hfs f (List.mem_cons_self ..)
    simp only [tuplePy, tupleJson]
    cases hi : indexFilter flt i incl excl (some len) with
    | error e => exact .err
    | ok r =>
      cases r with
      | none => exact ih st
      | some r =>
        obtain ⟨ni, ne⟩ := r
        dsimp only
        rcases ((agree_rel _ _ _).1 (hf x v ni ne st hs (hc.same (FiltersOk.index hc.filters hi) hm))).cases with
          ⟨e, st1, h1, h2⟩ | ⟨y, d, st1, h1, h2, hy⟩
        · rw [h1, h2]; exact .err
        · rw [h1, h2]
          dsimp only
          rcases (ih st1).cases with ⟨e, st2, h3, h4⟩ | ⟨ys, ds, st2, h3, h4, hys⟩
          · rw [h3, h4]; exact .err
          · rw [h3, h4]
            refine .ok ?_
            simp only [docItems, hy, hys, normItems]

theorem function_agree {E : Env α} {R : Recs α} (hr : Fits E .any R.infer) (fi : FuncInfo) {ret other : Schema α}
    {f g : SerFn α} (hf : Fits E ret f) (hg : Fits E other g) :
    Fits E (.function fi ret other) (functionSer E R fi f g) := by
  intro x a incl excl st hs hc
  rw [agree_rel]
  simp only [functionSer]
  split
  · cases callFunction E fi x a incl excl with
    | ok b => exact (agree_rel _ _ _).1 (hf x b _ _ st hs (hc.same (.inl ⟨rfl, rfl⟩) fun h => h.1))
    | error e =>
      dsimp only
      cases e with
      | other e => exact .err
      | unexpected m =>
        simp only [onFuncError, hc.check, ne_eq, not_true, if_false]
        exact (agree_rel _ _ _).1 (hr x a incl excl _ hs (hc.any hc.filters))
  · exact (agree_rel _ _ _).1 (hg x a _ _ st hs (hc.same (.inl ⟨rfl, rfl⟩) fun h => h.2))

theorem set_agree {E : Env α} {s : Schema α} {f : SerFn α} (hf : Fits E s f) {x : Extra α} (hs : SchemasOk E x)
    {incl excl : Option FVal} (hc : CallOk E s x incl excl) : ∀ (xs : List α) (st : St),
      Rel (fun ys ds => docItems E.world ys = some (normItems ds)) (setPy f x incl excl xs st)
        (setJson f x incl excl xs st)
  | [], st => .ok rfl
  | v :: vs, st => by
    simp only [setPy, setJson]
    rcases ((agree_rel _ _ _).1 (hf x v _ _ st hs hc)).cases with ⟨e, st1, h1, h2⟩ | ⟨y, d, st1, h1, h2, hy⟩
    · rw [h1, h2]; exact .err
    · rw [h1, h2]
      dsimp only
      rcases (set_agree hf hs hc vs st1).cases with ⟨e, st2, h3, h4⟩ | ⟨ys, ds, st2, h3, h4, hys⟩
      · rw [h3, h4]; exact .err
      · rw [h3, h4]
        refine .ok ?_
        simp only [docItems, hy, hys, normItems]

theorem dict_agree {E : Env α} {s : Schema α} {f : SerFn α} (hf : Fits E s f) (k : KeyFn α) {x : Extra α}
    (hs : SchemasOk E x) {flt : Filt} {incl excl : Option FVal} (hc : CallOk E s x incl excl) :
    ∀ (es : List (α × α)) (acc : List (Text × Py α)) (ds : List (Text × Json)) (st : St),
      docEntries E.world (acc.map fun e => (.str (.utf8 e.1), e.2)) = some ds →
      Rel (AccRel E.world ds) (dictPyJson E flt k f x incl excl es acc st) (dictJson E flt k f x incl excl es st)
  | [], acc, ds, st, ha => .ok ha
  | (kk, v) :: es, acc, ds, st, ha => by
    simp only [dictPyJson, dictJson]
    cases hi : keyFilter E.hash flt (E.world.filterKey kk) incl excl with
    | error e => exact .err
    | ok r =>
      cases r with
      | none => exact dict_agree hf k hs hc es acc ds st ha
      | some r =>
        obtain ⟨ni, ne⟩ := r
        dsimp only
        cases hk : k x kk st with
        | mk r st0 =>
          cases r with
          | error e => exact .err
          | ok t =>
            dsimp only
            rcases ((agree_rel _ _ _).1 (hf x v ni ne st0 hs (hc.same (FiltersOk.key hc.filters hi) id))).cases with
              ⟨e, st1, h1, h2⟩ | ⟨y, d, st1, h1, h2, hy⟩
            · rw [h1, h2]; exact .err
            · rw [h1, h2]
              dsimp only
              have ha' := docEntries_setItem_text E.world t y d.norm hy acc ds ha
              rcases (dict_agree hf k hs hc es (Keys.setItem t y acc) _ st1 ha').cases with
                ⟨e, st2, h3, h4⟩ | ⟨ys, es', st2, h3, h4, hys⟩
              · rw [h3, h4]; exact .err
              · rw [h3, h4]
                exact .ok hys

theorem SchemasOk.forModel {E : Env α} {x : Extra α} (h : SchemasOk E x) (a : α) : SchemasOk E (x.forModel a) := by
  refine ⟨h.defs, h.own, ?_⟩
  rcases h.duck with h | h
  · exact .inl (by simp [Extra.forModel, h, Duck.next])
  · exact .inr h

theorem SchemasOk.modelOr {E : Env α} {x : Extra α} (h : SchemasOk E x) (a : α) : SchemasOk E (x.modelOr a) :=
  ⟨h.defs, h.own, h.duck⟩

theorem CallOk.forModel {E : Env α} {s s' : Schema α} {x : Extra α} {i e : Option FVal} (h : CallOk E s x i e)
    (a : α) : CallOk E s' (x.forModel a) i e :=
  ⟨h.mode, h.check, h.unknown, h.config, h.filters, .inr (.inl rfl)⟩

theorem CallOk.modelOr {E : Env α} {s s' : Schema α} {x : Extra α} {i e : Option FVal} (h : CallOk E s x i e)
    (a : α) : CallOk E s' (x.modelOr a) i e :=
  ⟨h.mode, h.check, h.unknown, h.config, h.filters, .inr (.inl (by
    unfold Extra.modelOr
    cases x.model <;> rfl))⟩

theorem model_agree {E : Env α} {R : Recs α} (hr : Fits E .any R.infer) (name : Text) (cls : Nat) (hasExtra root : Bool)
    {s : Schema α} {f : SerFn α} (hf : Fits E s f) :
    Fits E (.model name cls hasExtra root s) (modelSer E R name cls hasExtra root f) := by
  intro x a incl excl st hs hc
  have hs' := hs.forModel a
  have hc' : CallOk E s (x.forModel a) incl excl := hc.forModel a
  rw [agree_rel]
  simp only [modelSer]
  by_cases hd : (x.forModel a).duck = .inferred
  · rw [if_pos hd, if_pos hd]
    exact (agree_rel _ _ _).1 (hr _ a incl excl st hs' (hc'.any hc'.filters))
  · rw [if_neg hd, if_neg hd]
    cases root with
    | true =>
      simp only [if_true]
      cases E.root a with
      | error e =>
        dsimp only
        rw [if_neg (by simp [hc'.check])]
        exact .err
      | ok r => exact (agree_rel _ _ _).1 (hf _ r incl excl st hs' hc')
    | false =>
      simp only [Bool.false_eq_true, if_false]
      cases E.allow cls (x.forModel a).check a with
      | error e => exact .err
      | ok b =>
        cases b with
        | false => exact fallback_agree hr name hs' hc' a st
        | true =>
          dsimp only
          cases E.inner a (x.forModel a).excludeUnset hasExtra with
          | error e => exact .err
          | ok b => exact (agree_rel _ _ _).1 (hf _ b incl excl st hs' hc')

theorem dataclass_agree {E : Env α} {R : Recs α} (hr : Fits E .any R.infer) (name : Text) (cls : Nat)
    (names : List Text) {s : Schema α} {f : SerFn α} (hf : Fits E s f) :
    Fits E (.dataclass name cls names s) (dataclassSer E R name cls names f) := by
  intro x a incl excl st hs hc
  have hs' := hs.forModel a
  have hc' : CallOk E s (x.forModel a) incl excl := hc.forModel a
  rw [agree_rel]
  simp only [dataclassSer]
  by_cases hd : (x.forModel a).duck = .inferred
  · rw [if_pos hd, if_pos hd]
    exact (agree_rel _ _ _).1 (hr _ a incl excl st hs' (hc'.any hc'.filters))
  · rw [if_neg hd, if_neg hd]
    cases E.dcAllow cls (x.forModel a).check a with
    | error e => exact .err
    | ok b =>
      cases b with
      | false => exact fallback_agree hr name hs' hc' a st
      | true =>
        dsimp only
        cases E.dcInner names a with
        | error e => exact .err
        | ok b => exact (agree_rel _ _ _).1 (hf _ b incl excl st hs' hc')

/-! ### Fields -/

theorem keyStr_of {W : World α} {k : α} {t : Text} (h : W.shape k = .str (.utf8 t)) : keyStr W k = .ok t := by
  simp [keyStr, h]

theorem inferKey_of {E : Env α} (ho : Ordinary E) {k : α} {t : Text} (h : E.world.shape k = .str (.utf8 t))
    (x : Extra α) : inferKey E.world x k = .ok t := by
  unfold inferKey
  have := ho.stack
  cases hn : E.world.stack with
  | zero => omega
  | succ n => simp [inferKeyAt, h]

/-- All fields with a serialiser agree. -/
def FieldsFit (E : Env α) (fs : List (FieldInfo × Option (SerFn α))) : Prop :=
  ∀ f ∈ fs, ∀ g, f.2 = some g → ∃ s, Fits E s g

theorem main_agree {E : Env α} (ho : Ordinary E) {R : Recs α} (hr : Fits E .any R.infer) (mode : FieldsMode)
    {fs : List (FieldInfo × Option (SerFn α))} (hfs : FieldsFit E fs) {s : Schema α} {x : Extra α}
    (hs : SchemasOk E x) {incl excl : Option FVal} (hc : CallOk E s x incl excl) (hm : x.model.isSome) :
    ∀ (es : List (α × α)) (_ : ∀ kv ∈ es, ∃ t, E.world.shape kv.1 = .str (.utf8 t)) (acc : List (Text × Py α))
      (used : Nat) (ds : List (Text × Json)) (st : St),
      docEntries E.world (acc.map fun e => (.str (.utf8 e.1), e.2)) = some ds →
      Rel (fun r es' => AccRel E.world ds r.1 es') (mainPy E R mode fs x incl excl es acc used st)
        (mainJson E R mode fs x incl excl es st)
  | [], _, acc, used, ds, st, ha => .ok ha
  | (k, v) :: es, hk, acc, used, ds, st, ha => by
    obtain ⟨t, hkt⟩ := hk (k, v) (List.mem_cons_self ..)
    have hk' : ∀ kv ∈ es, ∃ t, E.world.shape kv.1 = .str (.utf8 t) := fun kv h => hk kv (List.mem_cons_of_mem _ h)
    have ih := fun acc used ds st ha => main_agree ho hr mode hfs hs hc hm es hk' acc used ds st ha
    simp only [mainPy, mainJson, keyStr_of hkt]
    by_cases hn : (x.excludeNone && isNone E.world v) = true
    · rw [if_pos hn, if_pos hn]
      exact ih acc _ ds st ha
    · rw [if_neg hn, if_neg hn]
      cases hi : keyFilter E.hash (.schema Option.none Option.none) (E.world.filterKey k) incl excl with
      | error e => exact .err
      | ok r =>
        cases r with
        | none => exact ih acc _ ds st ha
        | some r =>
          obtain ⟨ni, ne⟩ := r
          dsimp only
          have hni := FiltersOk.key hc.filters hi
          cases hg : getField fs t with
          | none =>
            dsimp only
            by_cases htd : mode = .typedDictAllow
            · rw [if_pos htd, if_pos htd, inferKey_of ho hkt]
              dsimp only
              rcases ((agree_rel _ _ _).1 (hr x v ni ne st hs (hc.any hni))).cases with
                ⟨e, st1, h1, h2⟩ | ⟨y, d, st1, h1, h2, hy⟩
              · rw [h1, h2]; exact .err
              · rw [h1, h2]
                dsimp only
                have ha' := docEntries_setItem_text E.world t y d.norm hy acc ds ha
                rcases (ih (Keys.setItem t y acc) used _ st1 ha').cases with
                  ⟨e, st2, h3, h4⟩ | ⟨ys, es', st2, h3, h4, hys⟩
                · rw [h3, h4]; exact .err
                · rw [h3, h4]; exact .ok hys
            · rw [if_neg htd, if_neg htd, if_neg (by simp [hc.check])]
              exact ih acc _ ds st ha
          | some fi =>
            obtain ⟨info, g⟩ := fi
            cases g with
            | none => exact ih acc _ ds st ha
            | some g =>
              dsimp only
              obtain ⟨s', hg'⟩ := hfs (info, some g) (List.mem_of_find?_eq_some hg) g rfl
              rcases ((agree_rel _ _ _).1 (hg' x v ni ne st hs
                ⟨hc.mode, hc.check, hc.unknown, hc.config, hni, .inr (.inl hm)⟩)).cases with
                ⟨e, st1, h1, h2⟩ | ⟨y, d, st1, h1, h2, hy⟩
              · rw [h1, h2]; exact .err
              · rw [h1, h2]
                dsimp only
                have ha' := docEntries_setItem_text E.world (info.key x) y d.norm hy acc ds ha
                rcases (ih (Keys.setItem (info.key x) y acc) (countReq (some info) used) _ st1 ha').cases with
                  ⟨e, st2, h3, h4⟩ | ⟨ys, es', st2, h3, h4, hys⟩
                · rw [h3, h4]; exact .err
                · rw [h3, h4]; exact .ok hys

theorem keyText_of_doc {W : World α} {k : Py α} {t : Text} (h : k.doc W = some (.str t)) : k.keyText W = some t := by
  cases k with
  | same a =>
    simp only [Py.doc, scalarDoc] at h
    cases hs : W.shape a with
    | str s =>
      cases s with
      | utf8 t' => simp [hs] at h; simp [Py.keyText, keyStr, hs, h]
      | lone t' => simp [hs] at h
    | _ => simp [hs] at h
  | str s =>
    cases s with
    | utf8 t' => simp [Py.doc] at h; simp [Py.keyText, h]
    | lone t' => simp [Py.doc] at h
  | list xs =>
    simp only [Py.doc] at h
    split at h <;> simp at h
  | dict xs =>
    simp only [Py.doc] at h
    split at h <;> simp at h
  | _ => simp [Py.doc] at h

theorem docEntries_cons {W : World α} {k v : Py α} {es : List (Py α × Py α)} {ds : List (Text × Json)}
    (h : docEntries W ((k, v) :: es) = some ds) :
    ∃ t d ds', k.doc W = some (.str t) ∧ v.doc W = some d ∧ docEntries W es = some ds' ∧ ds = (t, d) :: ds' := by
  simp only [docEntries] at h
  split at h
  · rename_i t d ds' h1 h2 h3
    simp only [Option.some.injEq] at h
    exact ⟨t, d, ds', h1, h2, h3, h.symm⟩
  · cases h

theorem docEntries_setItemPy (E : Env α) {k : α} {t : Text} (hk : E.world.shape k = .str (.utf8 t)) {o : Py α}
    {d : Json} (ho : o.doc E.world = some d) : ∀ (acc : List (Py α × Py α)) (ds : List (Text × Json)),
      docEntries E.world acc = some ds →
      docEntries E.world (setItemPy E (.same k) o acc) = some (Keys.setItem t d ds)
  | [], ds, h => by
    simp only [docEntries, Option.some.injEq] at h
    subst h
    simp [setItemPy, Keys.setItem, docEntries, Py.doc, scalarDoc, hk, ho]
  | (k', o') :: acc, ds, h => by
    obtain ⟨t', d', ds', h1, h2, h3, rfl⟩ := docEntries_cons h
    have hsk : sameKey E (.same k) k' = (t == t') := by
      have : (Py.same k).keyText E.world = some t := by simp [Py.keyText, keyStr_of hk]
      simp only [sameKey, keyText_of_doc h1, this]
    simp only [setItemPy, Keys.setItem, hsk]
    by_cases ht : t' = t
    · subst ht
      simp [docEntries, h1, ho, h3]
    · rw [if_neg ht, if_neg (by simpa using fun h => ht h.symm)]
      simp [docEntries, h1, h2, docEntries_setItemPy E hk ho acc ds' h3]

theorem extras_agree {E : Env α} (ho : Ordinary E) {R : Recs α} (hr : Fits E .any R.infer) {x : Extra α}
    (hs : SchemasOk E x) {incl excl : Option FVal} (hc : CallOk E .any x incl excl) :
    ∀ (es : List (α × α)) (_ : ∀ kv ∈ es, ∃ t, E.world.shape kv.1 = .str (.utf8 t)) (acc : List (Py α × Py α))
      (ds : List (Text × Json)) (st : St), docEntries E.world acc = some ds →
      Rel (fun r es' => docEntries E.world r
          = some ((normEntries es').foldl (fun acc e => Keys.setItem e.1 e.2 acc) ds))
        (extrasPy E R x incl excl es acc st) (extrasJson E R x incl excl es st)
  | [], _, acc, ds, st, ha => .ok ha
  | (k, v) :: es, hk, acc, ds, st, ha => by
    obtain ⟨t, hkt⟩ := hk (k, v) (List.mem_cons_self ..)
    have hk' : ∀ kv ∈ es, ∃ t, E.world.shape kv.1 = .str (.utf8 t) := fun kv h => hk kv (List.mem_cons_of_mem _ h)
    have ih := fun acc ds st ha => extras_agree ho hr hs hc es hk' acc ds st ha
    simp only [extrasPy, extrasJson]
    by_cases hn : (x.excludeNone && isNone E.world v) = true
    · rw [if_pos hn, if_pos hn]
      exact ih acc ds st ha
    · rw [if_neg hn, if_neg hn]
      cases hi : keyFilter E.hash (.schema Option.none Option.none) (E.world.filterKey k) incl excl with
      | error e => exact .err
      | ok r =>
        cases r with
        | none => exact ih acc ds st ha
        | some r =>
          obtain ⟨ni, ne⟩ := r
          dsimp only
          rw [inferKey_of ho hkt]
          dsimp only
          rcases ((agree_rel _ _ _).1 (hr x v ni ne st hs (hc.any (FiltersOk.key hc.filters hi)))).cases with
            ⟨e, st1, h1, h2⟩ | ⟨y, d, st1, h1, h2, hy⟩
          · rw [h1, h2]; exact .err
          · rw [h1, h2]
            dsimp only
            have ha' := docEntries_setItemPy E hkt hy acc ds ha
            rcases (ih _ _ st1 ha').cases with ⟨e, st2, h3, h4⟩ | ⟨ys, es', st2, h3, h4, hys⟩
            · rw [h3, h4]; exact .err
            · rw [h3, h4]; exact .ok hys

theorem fields_agree {E : Env α} (ho : Ordinary E) {R : Recs α} (hr : Fits E .any R.infer) (mode : FieldsMode)
    (sf : Fields α) {fs : List (FieldInfo × Option (SerFn α))} (hfs : FieldsFit E fs) :
    Fits E (.fields mode sf) (fieldsSer E R mode fs) := by
  intro x a incl excl st hs hc
  rw [agree_rel]
  simp only [fieldsSer]
  have hnd : ¬ (x.model.isNone && decide (x.duck.next = .inferred)) = true := by
    rcases hc.duck with h | h | h
    · simp [h, Duck.next]
    · cases hm : x.model <;> simp_all
    · exact absurd h id
  rw [if_neg hnd]
  cases hd : E.dicts mode a with
  | none => exact fallback_agree hr _ hs hc a st
  | some de =>
    obtain ⟨main, extras⟩ := de
    obtain ⟨hk1, hk2⟩ := ho.keys mode a main extras hd
    dsimp only
    rw [if_neg hnd]
    have hmod : (x.modelOr a).model.isSome := by
      unfold Extra.modelOr
      cases x.model <;> rfl
    rcases (main_agree ho hr mode hfs (hs.modelOr a) (hc.modelOr (s' := .any) a) hmod main hk1 [] 0 [] st rfl).cases with
      ⟨e, st1, h1, h2⟩ | ⟨r, es, st1, h1, h2, hy⟩
    · rw [h1, h2]; exact .err
    · rw [h1, h2]
      obtain ⟨acc, used⟩ := r
      dsimp only
      rw [if_neg (by simp [hc.check])]
      cases extras with
      | none => exact .ok (accRel_dict hy)
      | some ex =>
        dsimp only
        refine (extras_agree ho hr hs (hc.any hc.filters) ex (hk2 ex rfl) _ _ st1 hy).map ?_
        intro r es' hr'
        simp only [Py.doc, hr', Json.norm, normEntries_append, List.foldl_append]

/-! ### Schemas -/

mutual
theorem build_agree {E : Env α} (ho : Ordinary E) {R : Recs α} (hr : Fits E .any R.infer)
    (hd : ∀ d, (E.defs d).floatsOk E → Fits E (E.defs d) (R.ref d)) :
    ∀ (s : Schema α), s.floatsOk E → Fits E s (build E R s)
  | .any, _ => hr
  | .leaf l, hl => by
    rw [build]
    exact leaf_agree ho hr l hl
  | .nullable s, hl => by
    rw [build]
    intro x a incl excl st hs hc
    rw [agree_rel]
    simp only [nullableSer]
    split
    · exact .ok (by simp [Py.doc, Json.norm])
    · exact (agree_rel _ _ _).1 (build_agree ho hr hd s hl x a incl excl st hs (hc.same hc.filters id))
  | .list name f s, hl => by
    rw [build]
    intro x a incl excl st hs hc
    rw [agree_rel]
    simp only [listSer]
    cases E.asList a with
    | none => exact fallback_agree hr _ hs hc a st
    | some xs =>
      exact (list_agree (build_agree ho hr hd s hl) hs (hc.same hc.filters id) _ _ _).map fun _ _ => docItems_list
  | .set name frozen s, hl => by
    rw [build]
    intro x a incl excl st hs hc
    rw [agree_rel]
    simp only [setSer]
    cases E.asSet frozen a with
    | none => exact fallback_agree hr _ hs hc a st
    | some xs =>
      dsimp only
      rcases (set_agree (build_agree ho hr hd s hl) hs (hc.same (s' := s) hc.filters id) xs st).cases with
        ⟨e, st1, h1, h2⟩ | ⟨y, d, st1, h1, h2, hy⟩
      · rw [h1, h2]; exact .err
      · rw [h1, h2]
        dsimp only
        rw [hc.mode]
        exact .ok (docItems_list hy)
  | .dict name f k v, hl => by
    rw [build]
    intro x a incl excl st hs hc
    rw [agree_rel]
    simp only [dictSer]
    cases E.asDict a with
    | none => exact fallback_agree hr _ hs hc a st
    | some es =>
      dsimp only
      rw [hc.mode]
      exact (dict_agree (build_agree ho hr hd v hl.2) _ hs (hc.same (s' := v) hc.filters id) es [] [] st rfl).map
        fun _ _ => accRel_dict
  | .model name cls hasExtra root s, hl => by
    rw [build]
    exact model_agree hr name cls hasExtra root (build_agree ho hr hd s hl)
  | .fields mode fs, hl => by
    rw [build]
    exact fields_agree ho hr mode fs (buildFields_agree ho hr hd fs hl)
  | .ref d, hl => by
    rw [build]
    intro x a incl excl st hs hc
    rw [agree_rel]
    simp only [refSer]
    refine guarded_agree _ _ _ _ (fun _ => rfl) (fun _ => rfl) _ _ (fun st => ?_) st
    refine (agree_rel _ _ _).1 (hd d (hs.defs d) x a incl excl st hs ?_)
    refine ⟨hc.mode, hc.check, hc.unknown, hc.config, hc.filters, ?_⟩
    rcases hs.duck with h | h
    · exact .inl h
    · exact .inr (.inr (h.1 d))
  | .dataclass name cls names s, hl => by
    rw [build]
    exact dataclass_agree hr name cls names (build_agree ho hr hd s hl)
  | .jsonOrPython json python, hl => by
    rw [build]
    obtain ⟨rfl, hl⟩ := hl
    intro x a incl excl st hs hc
    exact build_agree ho hr hd json hl x a incl excl st hs (hc.same hc.filters (fun h => h.1))
  | .tuple name f v items, hl => by
    rw [build]
    intro x a incl excl st hs hc
    rw [agree_rel]
    simp only [tupleSer]
    cases E.asTuple a with
    | none => exact fallback_agree hr _ hs hc a st
    | some xs =>
      have hfit := buildItems_agree ho hr hd items hl
      have hn : tupleRefused v x (buildItems E R items).length xs.length = false := by simp [tupleRefused, hc.check]
      simp only [hn, hc.mode]
      exact (tuple_agree hr hs hc 0 _ xs st (fun g hg => hfit g (mem_tupleSers hg))).map fun _ _ => docItems_list
  | .function fi ret other, hl => by
    rw [build]
    exact function_agree hr fi (build_agree ho hr hd ret hl.1) (build_agree ho hr hd other hl.2)
theorem buildFields_agree {E : Env α} (ho : Ordinary E) {R : Recs α} (hr : Fits E .any R.infer)
    (hd : ∀ d, (E.defs d).floatsOk E → Fits E (E.defs d) (R.ref d)) :
    ∀ (fs : Fields α), fs.floatsOk E → FieldsFit E (buildFields E R fs)
  | .nil, _ => by
    rw [buildFields]
    intro f hf
    cases hf
  | .cons info s rest, hl => by
    rw [buildFields]
    intro f hf g hg
    rcases List.mem_cons.1 hf with rfl | hf
    · cases hg
      exact ⟨s, build_agree ho hr hd s hl.1⟩
    · exact buildFields_agree ho hr hd rest hl.2 f hf g hg
  | .excluded info rest, hl => by
    rw [buildFields]
    intro f hf g hg
    rcases List.mem_cons.1 hf with rfl | hf
    · cases hg
    · exact buildFields_agree ho hr hd rest hl f hf g hg
theorem buildItems_agree {E : Env α} (ho : Ordinary E) {R : Recs α} (hr : Fits E .any R.infer)
    (hd : ∀ d, (E.defs d).floatsOk E → Fits E (E.defs d) (R.ref d)) :
    ∀ (items : Items α), items.floatsOk E → ItemsFit E items.modelsFirst (buildItems E R items)
  | .nil, _ => by
    rw [buildItems]
    intro f hf
    cases hf
  | .cons s rest, hl => by
    rw [buildItems]
    intro f hf
    rcases List.mem_cons.1 hf with rfl | hf
    · exact ⟨s, fun h => h.1, build_agree ho hr hd s hl.1⟩
    · obtain ⟨s', h1, h2⟩ := buildItems_agree ho hr hd rest hl.2 f hf
      exact ⟨s', fun h => h1 h.2, h2⟩
end

/-- What is beyond the fuel agrees as well. -/
def BottomFits (E : Env α) (bottom : Recs α) : Prop :=
  Fits E .any bottom.infer ∧ ∀ d, Fits E (E.defs d) (bottom.ref d)

theorem recs_agree {E : Env α} (ho : Ordinary E) (hfl : ∀ d, (E.defs d).floatsOk E) {bottom : Recs α}
    (hb : BottomFits E bottom) : ∀ n, BottomFits E (recs E bottom n)
  | 0 => hb
  | n + 1 => by
    have h := recs_agree ho hfl hb n
    have hbuild := build_agree ho h.1 (fun d _ => h.2 d)
    exact ⟨infer_agree ho h.1 hbuild, fun d => hbuild _ (hfl d)⟩

end PC.Infer
