import Verif.Spec.SerConfig

/-
C116: the configuration that values are written with.
-/

namespace PC.SerConfig

theorem infNan_fromStr (s : String) (m : InfNanMode) : InfNanMode.fromStr s = .ok m ↔ s = (AnyMode.infNan m).name := by
  unfold InfNanMode.fromStr
  constructor
  · intro h
    split at h
    · cases h; assumption
    split at h
    · cases h; assumption
    split at h
    · cases h; assumption
    · cases h
  · rintro rfl
    cases m <;> rfl

theorem bytes_fromStr (s : String) (m : BytesMode) : BytesMode.fromStr s = .ok m ↔ s = (AnyMode.bytes m).name := by
  unfold BytesMode.fromStr
  constructor
  · intro h
    split at h
    · cases h; assumption
    split at h
    · cases h; assumption
    split at h
    · cases h; assumption
    · cases h
  · rintro rfl
    cases m <;> rfl

theorem timedelta_fromStr (s : String) (m : TimedeltaMode) :
    TimedeltaMode.fromStr s = .ok m ↔ s = (AnyMode.timedelta m).name := by
  unfold TimedeltaMode.fromStr
  constructor
  · intro h
    split at h
    · cases h; assumption
    split at h
    · cases h; assumption
    · cases h
  · rintro rfl
    cases m <;> rfl

theorem fromConfig_iff {μ : Type} (parse : String → Except Err μ) (dflt : μ) (get : Cfg → Option Item) (k : Kind)
    (hget : ∀ c, get c = entry (some c) k) (name : μ → String) (hp : ∀ s m, parse s = .ok m ↔ s = name m)
    (c : Option Cfg) (m : μ) :
    fromConfig parse dflt get c = .ok m ↔ (entry c k = none ∧ m = dflt ∨ entry c k = some (.str (name m))) := by
  cases c with
  | none => simp [fromConfig, entry, eq_comm]
  | some c =>
    simp only [fromConfig, hget]
    cases h : entry (some c) k with
    | none => simp [eq_comm]
    | some i =>
      cases i with
      | str s => simp [hp]
      | other => simp

/-- What a serialiser of one of the three types reads from the configuration is what the configuration says. -/
theorem leafMode_iff (k : Kind) (c : Option Cfg) (m : AnyMode) : leafMode k c = .ok m ↔ Says c k m := by
  have ex : ∀ {μ : Type} (x : Except Err μ) (f : μ → AnyMode), x.map f = .ok m ↔ ∃ y, x = .ok y ∧ f y = m := by
    intro μ x f
    cases x with
    | error e => simp [Except.map]
    | ok y => simp [Except.map]
  unfold leafMode Says
  cases k with
  | float =>
    dsimp only
    rw [ex]
    constructor
    · rintro ⟨y, h, rfl⟩
      refine ⟨rfl, ?_⟩
      rcases (fromConfig_iff _ _ _ .float (fun _ => rfl) (fun m => (AnyMode.infNan m).name) infNan_fromStr _ _).1 h with ⟨h1, rfl⟩ | h1
      · exact .inl ⟨h1, rfl⟩
      · exact .inr h1
    · rintro ⟨h, h1⟩
      cases m <;> cases h
      rename_i y
      refine ⟨y, (fromConfig_iff _ _ _ .float (fun _ => rfl) (fun m => (AnyMode.infNan m).name) infNan_fromStr _ _).2 ?_, rfl⟩
      rcases h1 with ⟨h1, h2⟩ | h1
      · cases h2; exact .inl ⟨h1, rfl⟩
      · exact .inr h1
  | bytes =>
    dsimp only
    rw [ex]
    constructor
    · rintro ⟨y, h, rfl⟩
      refine ⟨rfl, ?_⟩
      rcases (fromConfig_iff _ _ _ .bytes (fun _ => rfl) (fun m => (AnyMode.bytes m).name) bytes_fromStr _ _).1 h with ⟨h1, rfl⟩ | h1
      · exact .inl ⟨h1, rfl⟩
      · exact .inr h1
    · rintro ⟨h, h1⟩
      cases m <;> cases h
      rename_i y
      refine ⟨y, (fromConfig_iff _ _ _ .bytes (fun _ => rfl) (fun m => (AnyMode.bytes m).name) bytes_fromStr _ _).2 ?_, rfl⟩
      rcases h1 with ⟨h1, h2⟩ | h1
      · cases h2; exact .inl ⟨h1, rfl⟩
      · exact .inr h1
  | timedelta =>
    dsimp only
    rw [ex]
    constructor
    · rintro ⟨y, h, rfl⟩
      refine ⟨rfl, ?_⟩
      rcases (fromConfig_iff _ _ _ .timedelta (fun _ => rfl) (fun m => (AnyMode.timedelta m).name) timedelta_fromStr _ _).1 h with ⟨h1, rfl⟩ | h1
      · exact .inl ⟨h1, rfl⟩
      · exact .inr h1
    · rintro ⟨h, h1⟩
      cases m <;> cases h
      rename_i y
      refine ⟨y, (fromConfig_iff _ _ _ .timedelta (fun _ => rfl) (fun m => (AnyMode.timedelta m).name) timedelta_fromStr _ _).2 ?_, rfl⟩
      rcases h1 with ⟨h1, h2⟩ | h1
      · cases h2; exact .inl ⟨h1, rfl⟩
      · exact .inr h1

example : Says (some { infNan := some (.str "strings") }) .float (.infNan .strings) := ⟨rfl, .inr rfl⟩

/-- The modes of a serialiser are for each type the ones its own build would read. -/
theorem modes_iff (c : Option Cfg) (m : Modes) : Modes.fromConfig c = .ok m ↔ ∀ k, leafMode k c = .ok (m.forKind k) := by
  have ex : ∀ {μ : Type} (x : Except Err μ) (f : μ → AnyMode) (hf : ∀ a b, f a = f b → a = b) (y : μ),
      x.map f = .ok (f y) ↔ x = .ok y := by
    intro μ x f hf y
    cases x with
    | error e => simp [Except.map]
    | ok z => simp only [Except.map, Except.ok.injEq]; exact ⟨hf _ _, fun h => by rw [h]⟩
  have key : (∀ k, leafMode k c = .ok (m.forKind k)) ↔
      (fromConfig TimedeltaMode.fromStr .iso8601 Cfg.timedelta c = .ok m.timedelta ∧
       fromConfig BytesMode.fromStr .utf8 Cfg.bytes c = .ok m.bytes ∧
       fromConfig InfNanMode.fromStr .null Cfg.infNan c = .ok m.infNan) := by
    constructor
    · intro h
      exact ⟨(ex _ _ (fun _ _ h => by injection h) _).1 (h .timedelta), (ex _ _ (fun _ _ h => by injection h) _).1 (h .bytes),
        (ex _ _ (fun _ _ h => by injection h) _).1 (h .float)⟩
    · rintro ⟨h1, h2, h3⟩ k
      cases k
      · exact (ex _ AnyMode.infNan (fun _ _ h => by injection h) _).2 h3
      · exact (ex _ AnyMode.bytes (fun _ _ h => by injection h) _).2 h2
      · exact (ex _ AnyMode.timedelta (fun _ _ h => by injection h) _).2 h1
  rw [key]
  unfold Modes.fromConfig
  cases h1 : fromConfig TimedeltaMode.fromStr .iso8601 Cfg.timedelta c with
  | error e => simp
  | ok t =>
    cases h2 : fromConfig BytesMode.fromStr .utf8 Cfg.bytes c with
    | error e => simp
    | ok b =>
      cases h3 : fromConfig InfNanMode.fromStr .null Cfg.infNan c with
      | error e => simp
      | ok i => cases m; simp

theorem forKind_says {c : Option Cfg} {m : Modes} (h : Modes.fromConfig c = .ok m) (k : Kind) : Says c k (m.forKind k) :=
  (leafMode_iff ..).1 ((modes_iff ..).1 h k)

theorem map_ok {μ ν : Type} {x : Except Err μ} {f : μ → ν} {z : ν} (h : x.map f = .ok z) : ∃ y, x = .ok y ∧ f y = z := by
  cases x with
  | error e => cases h
  | ok y => cases h; exact ⟨y, rfl, rfl⟩

theorem buildFields_lookup : ∀ {fs : List (String × Schema)} {c : Option Cfg} {sers : List (String × Ser)},
    buildFields fs c = .ok sers → ∀ k,
      (∃ s ser, fs.lookup k = some s ∧ sers.lookup k = some ser ∧ build s c = .ok ser) ∨
      fs.lookup k = none ∧ sers.lookup k = none := by
  intro fs
  induction fs with
  | nil => intro c sers h k; unfold buildFields at h; cases h; exact .inr ⟨rfl, rfl⟩
  | cons e rest ih =>
    intro c sers h k
    obtain ⟨n, s⟩ := e
    unfold buildFields at h
    cases h1 : build s c with
    | error e => rw [h1] at h; cases h
    | ok ser =>
      rw [h1] at h
      dsimp only at h
      cases h2 : buildFields rest c with
      | error e => rw [h2] at h; cases h
      | ok more =>
        rw [h2] at h
        cases h
        cases hk : k == n with
        | true => exact .inl ⟨s, ser, by simp [List.lookup, hk], by simp [List.lookup, hk], h1⟩
        | false => simpa [List.lookup, hk] using ih h2 k

theorem runItems_get (W : World) (root : Modes) (s : Ser) : ∀ (vs : List Value) (n : Nat),
    (runItems W root s vs)[n]? = (vs[n]?).map (run W root s) := by
  intro vs
  induction vs with
  | nil => intro n; simp [runItems]
  | cons v vs ih =>
    intro n
    unfold runItems
    cases n with
    | zero => simp
    | succ n => simpa using ih n

theorem runFields_none (W : World) (root : Modes) : ∀ (kvs : List (String × Value)) (k : String),
    (runFields W root none kvs).lookup k = (kvs.lookup k).map (run W root .any) := by
  intro kvs
  induction kvs with
  | nil => intro k; simp [runFields]
  | cons e rest ih =>
    intro k
    obtain ⟨n, v⟩ := e
    unfold runFields
    cases hk : k == n with
    | true => simp [List.lookup, hk]
    | false => simpa [List.lookup, hk] using ih k

theorem runFields_some (W : World) (root : Modes) (fs : List (String × Ser)) : ∀ (kvs : List (String × Value)) (k : String),
    (runFields W root (some fs) kvs).lookup k =
      (fs.lookup k).bind fun s => (kvs.lookup k).map (run W root s) := by
  intro kvs
  induction kvs with
  | nil => intro k; cases fs.lookup k <;> simp [runFields]
  | cons e rest ih =>
    intro k
    obtain ⟨n, v⟩ := e
    unfold runFields
    dsimp only
    cases hk : k == n with
    | true =>
      have : k = n := by simpa using hk
      subst this
      cases hf : fs.lookup k with
      | none => dsimp only; rw [ih k, hf]; rfl
      | some s => simp [List.lookup]
    | false =>
      cases hf : fs.lookup n with
      | none => dsimp only; rw [ih k]; simp [List.lookup, hk]
      | some s => dsimp only; simp only [List.lookup, hk]; exact ih k

/-- The serialiser that is built of a schema treats a value that does not fit as `any` would. -/
theorem build_unfit {s : Schema} {c : Option Cfg} {ser : Ser} (h : build s c = .ok ser) :
    (∀ a root, ¬ Fits s (.atom a) → atomMode root ser a.kind = root.forKind a.kind) ∧
    (∀ vs, ¬ Fits s (.list vs) → itemSer ser = .any) ∧
    (∀ kvs, ¬ Fits s (.dict kvs) → dictSers ser = none) ∧
    (∀ W root cls kvs, ¬ Fits s (.obj cls kvs) → objSers W root ser cls = (W.modes cls, W.fields cls)) := by
  cases s with
  | leaf k =>
    unfold build at h
    obtain ⟨m, hm, rfl⟩ := map_ok h
    refine ⟨fun a root hf => ?_, fun _ _ => rfl, fun _ _ => rfl, fun _ _ _ _ _ => rfl⟩
    have := ((leafMode_iff ..).1 hm).1
    unfold atomMode
    exact if_neg fun h' => hf (show a.kind = k from h'.symm.trans this)
  | any => unfold build at h; cases h; exact ⟨fun _ _ _ => rfl, fun _ _ => rfl, fun _ _ => rfl, fun _ _ _ _ _ => rfl⟩
  | list s =>
    unfold build at h
    obtain ⟨m, hm, rfl⟩ := map_ok h
    exact ⟨fun _ _ _ => rfl, fun _ hf => absurd trivial hf, fun _ _ => rfl, fun _ _ _ _ _ => rfl⟩
  | typedDict own fs =>
    unfold build at h
    obtain ⟨m, hm, rfl⟩ := map_ok h
    exact ⟨fun _ _ _ => rfl, fun _ _ => rfl, fun _ hf => absurd trivial hf, fun _ _ _ _ _ => rfl⟩
  | model own fs =>
    unfold build at h
    obtain ⟨m, hm, rfl⟩ := map_ok h
    exact ⟨fun _ _ _ => rfl, fun _ _ => rfl, fun _ _ => rfl, fun _ _ _ _ hf => absurd trivial hf⟩

theorem new_parts {s : Schema} {c : Option Cfg} {S : SchemaSerializer} (h : SchemaSerializer.new s c = .ok S) :
    build s c = .ok S.ser ∧ Modes.fromConfig c = .ok S.modes := by
  unfold SchemaSerializer.new at h
  cases h1 : build s c with
  | error e => rw [h1] at h; cases h
  | ok ser =>
    rw [h1] at h
    dsimp only at h
    cases h2 : Modes.fromConfig c with
    | error e => rw [h2] at h; cases h
    | ok m => rw [h2] at h; cases h; exact ⟨rfl, rfl⟩

theorem made_parts {C : Nat → Class} {W : World} (hW : Made C W) (cls : Nat) :
    buildFields (C cls).fields (C cls).own = .ok (W.fields cls) ∧ Modes.fromConfig (C cls).config = .ok (W.modes cls) := by
  obtain ⟨h1, h2⟩ := new_parts (hW cls)
  refine ⟨?_, h2⟩
  unfold build at h1
  obtain ⟨m, hm, h⟩ := map_ok h1
  cases h
  exact hm

theorem governs_run {C : Nat → Class} {W : World} (hW : Made C W) {root scope : Option Cfg} {s : Schema} {v : Value}
    {p : List Step} {a : Atom} {c : Option Cfg} (h : Governs C root scope s v p a c) :
    ∀ {ser : Ser} {modes : Modes}, build s scope = .ok ser → Modes.fromConfig root = .ok modes →
      ∃ m, (run W modes ser v).at p = some (.atom m a) ∧ Says c a.kind m := by
  induction h with
  | leaf hk =>
    intro ser modes hs hm
    unfold build at hs
    obtain ⟨m, h1, rfl⟩ := map_ok hs
    have h2 := (leafMode_iff ..).1 h1
    subst hk
    refine ⟨m, ?_, h2⟩
    unfold run atomMode Out.at
    dsimp only
    rw [if_pos h2.1]
  | item hn _ ih =>
    intro ser modes hs hm
    unfold build at hs
    obtain ⟨t, h1, rfl⟩ := map_ok hs
    obtain ⟨m, h2, h3⟩ := ih h1 hm
    refine ⟨m, ?_, h3⟩
    unfold run Out.at
    rw [runItems_get, hn]
    exact h2
  | typedDict hf hv _ ih =>
    intro ser modes hs hm
    unfold build at hs
    obtain ⟨fs, h1, rfl⟩ := map_ok hs
    rcases buildFields_lookup h1 _ with ⟨s', ser', e1, e2, e3⟩ | ⟨e1, _⟩
    · rw [hf] at e1
      cases e1
      obtain ⟨m, h2, h3⟩ := ih e3 hm
      refine ⟨m, ?_, h3⟩
      unfold run Out.at
      dsimp only [dictSers]
      rw [runFields_some, e2, hv]
      exact h2
    · rw [hf] at e1; cases e1
  | model hf hv _ ih =>
    intro ser modes hs hm
    unfold build at hs
    obtain ⟨fs, h1, rfl⟩ := map_ok hs
    rcases buildFields_lookup h1 _ with ⟨s', ser', e1, e2, e3⟩ | ⟨e1, _⟩
    · rw [hf] at e1
      cases e1
      obtain ⟨m, h2, h3⟩ := ih e3 hm
      refine ⟨m, ?_, h3⟩
      unfold run Out.at
      dsimp only [objSers]
      rw [runFields_some, e2, hv]
      exact h2
    · rw [hf] at e1; cases e1
  | unknownAtom hf =>
    intro ser modes hs hm
    refine ⟨_, ?_, forKind_says hm _⟩
    unfold run Out.at
    rw [(build_unfit hs).1 _ _ hf]
  | unknownItem hf hn _ ih =>
    intro ser modes hs hm
    obtain ⟨m, h2, h3⟩ := ih (ser := .any) rfl hm
    refine ⟨m, ?_, h3⟩
    unfold run Out.at
    rw [(build_unfit hs).2.1 _ hf, runItems_get, hn]
    exact h2
  | unknownValue hf hv _ ih =>
    intro ser modes hs hm
    obtain ⟨m, h2, h3⟩ := ih (ser := .any) rfl hm
    refine ⟨m, ?_, h3⟩
    unfold run Out.at
    rw [(build_unfit hs).2.2.1 _ hf, runFields_none, hv]
    exact h2
  | @unknownObject root scope s cls kvs k t v p a c hf ht hv _ ih =>
    intro ser modes hs hm
    obtain ⟨h1, hm'⟩ := made_parts hW cls
    rcases buildFields_lookup h1 k with ⟨s', ser', e1, e2, e3⟩ | ⟨e1, _⟩
    · rw [ht] at e1
      cases e1
      obtain ⟨m, h2, h3⟩ := ih e3 hm'
      refine ⟨m, ?_, h3⟩
      unfold run Out.at
      rw [(build_unfit hs).2.2.2 W modes cls kvs hf]
      dsimp only
      rw [runFields_some, e2, hv]
      exact h2
    · rw [ht] at e1; cases e1

theorem run_governs {C : Nat → Class} {W : World} (hW : Made C W) : ∀ (p : List Step) {root scope : Option Cfg} {s : Schema}
    {v : Value} {m : AnyMode} {a : Atom} {ser : Ser} {modes : Modes}, build s scope = .ok ser →
    Modes.fromConfig root = .ok modes → (run W modes ser v).at p = some (.atom m a) →
    ∃ c, Governs C root scope s v p a c ∧ Says c a.kind m := by
  intro p
  induction p with
  | nil =>
    intro root scope s v m a ser modes hs hm h
    cases v with
    | atom b =>
      unfold run Out.at at h
      injection h with h
      injection h with h1 h2
      subst h2
      by_cases hf : Fits s (.atom b)
      · cases s with
        | leaf k =>
          unfold build at hs
          obtain ⟨m', h3, rfl⟩ := map_ok hs
          have h4 := (leafMode_iff ..).1 h3
          have hk : b.kind = k := hf
          subst hk
          unfold atomMode at h1
          dsimp only at h1
          rw [if_pos h4.1] at h1
          subst h1
          exact ⟨_, .leaf rfl, h4⟩
        | _ => exact hf.elim
      · rw [(build_unfit hs).1 _ _ hf] at h1
        subst h1
        exact ⟨_, .unknownAtom hf, forKind_says hm _⟩
    | list vs => unfold run Out.at at h; cases h
    | dict kvs => unfold run Out.at at h; cases h
    | obj c kvs => unfold run Out.at at h; cases h
  | cons st p ih =>
    intro root scope s v m a ser modes hs hm h
    cases v with
    | atom b => unfold run at h; cases st <;> simp [Out.at] at h
    | list vs =>
      cases st with
      | k key => unfold run Out.at at h; cases h
      | i n =>
        unfold run Out.at at h
        rw [runItems_get] at h
        cases hv : vs[n]? with
        | none => rw [hv] at h; cases h
        | some v =>
          rw [hv] at h
          dsimp only [Option.map] at h
          by_cases hf : Fits s (.list vs)
          · cases s with
            | list t =>
              unfold build at hs
              obtain ⟨ser', h3, rfl⟩ := map_ok hs
              obtain ⟨c, h4, h5⟩ := ih h3 hm h
              exact ⟨c, .item hv h4, h5⟩
            | _ => exact hf.elim
          · rw [(build_unfit hs).2.1 _ hf] at h
            obtain ⟨c, h4, h5⟩ := ih (s := .any) (scope := root) rfl hm h
            exact ⟨c, .unknownItem hf hv h4, h5⟩
    | dict kvs =>
      cases st with
      | i n => unfold run Out.at at h; cases h
      | k key =>
        unfold run Out.at at h
        by_cases hf : Fits s (.dict kvs)
        · cases s with
          | typedDict own fs =>
            unfold build at hs
            obtain ⟨sers, h3, rfl⟩ := map_ok hs
            dsimp only [dictSers] at h
            rw [runFields_some] at h
            rcases buildFields_lookup h3 key with ⟨s', ser', e1, e2, e3⟩ | ⟨_, e2⟩
            · rw [e2] at h
              cases hv : kvs.lookup key with
              | none => rw [hv] at h; cases h
              | some v =>
                rw [hv] at h
                obtain ⟨c, h4, h5⟩ := ih e3 hm h
                exact ⟨c, .typedDict e1 hv h4, h5⟩
            · rw [e2] at h; cases h
          | _ => exact hf.elim
        · rw [(build_unfit hs).2.2.1 _ hf, runFields_none] at h
          cases hv : kvs.lookup key with
          | none => rw [hv] at h; cases h
          | some v =>
            rw [hv] at h
            obtain ⟨c, h4, h5⟩ := ih (s := .any) (scope := root) rfl hm h
            exact ⟨c, .unknownValue hf hv h4, h5⟩
    | obj cls kvs =>
      cases st with
      | i n => unfold run Out.at at h; cases h
      | k key =>
        unfold run Out.at at h
        by_cases hf : Fits s (.obj cls kvs)
        · cases s with
          | model own fs =>
            unfold build at hs
            obtain ⟨sers, h3, rfl⟩ := map_ok hs
            dsimp only [objSers] at h
            rw [runFields_some] at h
            rcases buildFields_lookup h3 key with ⟨s', ser', e1, e2, e3⟩ | ⟨_, e2⟩
            · rw [e2] at h
              cases hv : kvs.lookup key with
              | none => rw [hv] at h; cases h
              | some v =>
                rw [hv] at h
                obtain ⟨c, h4, h5⟩ := ih e3 hm h
                exact ⟨c, .model e1 hv h4, h5⟩
            · rw [e2] at h; cases h
          | _ => exact hf.elim
        · rw [(build_unfit hs).2.2.2 W modes cls kvs hf] at h
          dsimp only at h
          rw [runFields_some] at h
          obtain ⟨h1, hm'⟩ := made_parts hW cls
          rcases buildFields_lookup h1 key with ⟨s', ser', e1, e2, e3⟩ | ⟨_, e2⟩
          · rw [e2] at h
            cases hv : kvs.lookup key with
            | none => rw [hv] at h; cases h
            | some v =>
              rw [hv] at h
              obtain ⟨c, h4, h5⟩ := ih e3 hm' h
              exact ⟨c, .unknownObject hf e1 hv h4, h5⟩
          · rw [e2] at h; cases h

/-- **C116.** A float, bytes or a timedelta is at a position of the JSON, written in mode `m`, exactly if it is there in
the value and the configuration that governs the position says `m`. -/
theorem written_iff (C : Nat → Class) (W : World) (hW : Made C W) (s : Schema) (config : Option Cfg)
    (S : SchemaSerializer) (hS : SchemaSerializer.new s config = .ok S) (v : Value) (p : List Step) (m : AnyMode) (a : Atom) :
    (S.toJson W v).at p = some (.atom m a) ↔ ∃ c, Governs C config config s v p a c ∧ Says c a.kind m := by
  obtain ⟨h1, h2⟩ := new_parts hS
  constructor
  · exact run_governs hW p h1 h2
  · rintro ⟨c, hg, hs⟩
    obtain ⟨m', h3, h4⟩ := governs_run hW hg h1 h2
    have : m = m' := by
      have e1 := (leafMode_iff ..).2 hs
      have e2 := (leafMode_iff ..).2 h4
      rw [e1] at e2
      injection e2
    rw [this]
    exact h3

mutual
theorem build_ok : ∀ (s : Schema) (c : Option Cfg),
    (∀ k c', Uses s c k c' → ∃ m, Says c' k m) → ∃ ser, build s c = .ok ser
  | .leaf k, c, h => by
    obtain ⟨m, hm⟩ := h k c .leaf
    exact ⟨.leaf m, by unfold build; rw [(leafMode_iff ..).2 hm]; rfl⟩
  | .any, _, _ => ⟨.any, rfl⟩
  | .list s, c, h => by
    obtain ⟨ser, hs⟩ := build_ok s c fun k c' hu => h k c' (.item hu)
    exact ⟨.list ser, by unfold build; rw [hs]; rfl⟩
  | .typedDict own fs, c, h => by
    obtain ⟨sers, hs⟩ := buildFields_ok fs c fun n s hm k c' hu => h k c' (.typedDict hm hu)
    exact ⟨.fields sers, by unfold build; rw [hs]; rfl⟩
  | .model own fs, c, h => by
    obtain ⟨sers, hs⟩ := buildFields_ok fs own fun n s hm k c' hu => h k c' (.model hm hu)
    exact ⟨.model sers, by unfold build; rw [hs]; rfl⟩

theorem buildFields_ok : ∀ (fs : List (String × Schema)) (c : Option Cfg),
    (∀ n s, (n, s) ∈ fs → ∀ k c', Uses s c k c' → ∃ m, Says c' k m) → ∃ sers, buildFields fs c = .ok sers
  | [], _, _ => ⟨[], rfl⟩
  | (n, s) :: rest, c, h => by
    obtain ⟨ser, hs⟩ := build_ok s c (h n s List.mem_cons_self)
    obtain ⟨sers, hr⟩ := buildFields_ok rest c fun n s hm => h n s (List.mem_cons_of_mem _ hm)
    exact ⟨(n, ser) :: sers, by unfold buildFields; rw [hs]; dsimp only; rw [hr]⟩
end

theorem buildFields_mem : ∀ {fs : List (String × Schema)} {c : Option Cfg} {sers : List (String × Ser)},
    buildFields fs c = .ok sers → ∀ n s, (n, s) ∈ fs → ∃ ser, build s c = .ok ser := by
  intro fs
  induction fs with
  | nil => intro c sers _ n s h; cases h
  | cons e rest ih =>
    intro c sers h n s hm
    obtain ⟨n', s'⟩ := e
    unfold buildFields at h
    cases h1 : build s' c with
    | error e => rw [h1] at h; cases h
    | ok ser =>
      rw [h1] at h
      dsimp only at h
      cases h2 : buildFields rest c with
      | error e => rw [h2] at h; cases h
      | ok more =>
        rcases List.mem_cons.1 hm with hm | hm
        · cases hm; exact ⟨ser, h1⟩
        · exact ih h2 n s hm

theorem uses_says {s : Schema} {c : Option Cfg} {k : Kind} {c' : Option Cfg} (h : Uses s c k c') :
    ∀ {ser : Ser}, build s c = .ok ser → ∃ m, Says c' k m := by
  induction h with
  | leaf => intro ser h; unfold build at h; obtain ⟨m, hm, _⟩ := map_ok h; exact ⟨m, (leafMode_iff ..).1 hm⟩
  | item _ ih => intro ser h; unfold build at h; obtain ⟨m, hm, _⟩ := map_ok h; exact ih hm
  | typedDict hm _ ih =>
    intro ser h; unfold build at h; obtain ⟨m, h1, _⟩ := map_ok h
    obtain ⟨ser', h2⟩ := buildFields_mem h1 _ _ hm
    exact ih h2
  | model hm _ ih =>
    intro ser h; unfold build at h; obtain ⟨m, h1, _⟩ := map_ok h
    obtain ⟨ser', h2⟩ := buildFields_mem h1 _ _ hm
    exact ih h2

/-- A serialiser is built exactly if its own configuration has a valid mode, or none, for each of the three types, and
the configurations of models have for the types that occur directly inside them. -/
theorem built_iff (s : Schema) (config : Option Cfg) :
    (∃ S, SchemaSerializer.new s config = .ok S) ↔
      (∀ k, ∃ m, Says config k m) ∧ ∀ k c, Uses s config k c → ∃ m, Says c k m := by
  constructor
  · rintro ⟨S, hS⟩
    obtain ⟨h1, h2⟩ := new_parts hS
    exact ⟨fun k => ⟨_, forKind_says h2 k⟩, fun k c hu => uses_says hu h1⟩
  · rintro ⟨h1, h2⟩
    obtain ⟨ser, hs⟩ := build_ok s config h2
    obtain ⟨mf, hf⟩ := h1 .float
    obtain ⟨mb, hb⟩ := h1 .bytes
    obtain ⟨mt, ht⟩ := h1 .timedelta
    have kf := hf.1
    have kb := hb.1
    have kt := ht.1
    cases mf <;> cases kf
    cases mb <;> cases kb
    cases mt <;> cases kt
    rename_i i b t
    have : Modes.fromConfig config = .ok ⟨t, b, i⟩ := (modes_iff ..).2 fun k => by
      cases k
      · exact (leafMode_iff ..).2 hf
      · exact (leafMode_iff ..).2 hb
      · exact (leafMode_iff ..).2 ht
    exact ⟨⟨ser, ⟨t, b, i⟩⟩, by unfold SchemaSerializer.new; rw [hs]; dsimp only; rw [this]⟩

/-- The `config` in the schema of a typed dict has no effect on serialisation. -/
theorem typed_dict_config_ignored (own own' : Option Cfg) (fs : List (String × Schema)) (config : Option Cfg) :
    SchemaSerializer.new (.typedDict own fs) config = SchemaSerializer.new (.typedDict own' fs) config := by
  unfold SchemaSerializer.new build
  rfl

/-- The function `to_json` takes every combination of the names of modes and no other, and writes all it finds outside
of instances of models in these modes. -/
theorem to_json_modes (W : World) (t b i : String) (v : Value) (o : Out) :
    toJson W t b i v = .ok o ↔ ∃ m : Modes, t = (AnyMode.timedelta m.timedelta).name ∧ b = (AnyMode.bytes m.bytes).name ∧
      i = (AnyMode.infNan m.infNan).name ∧ o = run W m .any v := by
  unfold toJson
  constructor
  · intro h
    obtain ⟨m, hm, rfl⟩ := map_ok h
    refine ⟨m, ?_⟩
    unfold Modes.fromArgs at hm
    cases h1 : TimedeltaMode.fromStr t with
    | error e => rw [h1] at hm; cases hm
    | ok t' =>
      rw [h1] at hm
      dsimp only at hm
      cases h2 : BytesMode.fromStr b with
      | error e => rw [h2] at hm; cases hm
      | ok b' =>
        rw [h2] at hm
        dsimp only at hm
        cases h3 : InfNanMode.fromStr i with
        | error e => rw [h3] at hm; cases hm
        | ok i' =>
          rw [h3] at hm
          cases hm
          exact ⟨(timedelta_fromStr ..).1 h1, (bytes_fromStr ..).1 h2, (infNan_fromStr ..).1 h3, rfl⟩
  · rintro ⟨m, rfl, rfl, rfl, rfl⟩
    unfold Modes.fromArgs
    rw [(timedelta_fromStr _ _).2 rfl, (bytes_fromStr _ _).2 rfl, (infNan_fromStr _ _).2 rfl]
    rfl

/-! ### Concrete cases -/

/-- NaN. -/
def nan : Atom := ⟨.float, 0⟩

/-- A configuration with `ser_json_inf_nan='strings'`. -/
def strings : Cfg := { infNan := some (.str "strings") }

/-- The schema of a model with this configuration, a float field and one of any type. -/
def point : Schema := .model (some strings) [("x", .leaf .float), ("y", .any)]

/-- Its class; every class of the example is this one. -/
def pointClass : Nat → Class := fun _ => ⟨some strings, [("x", .leaf .float), ("y", .any)], some strings⟩

/-- Its serialiser. -/
def pointWorld : World :=
  ⟨fun _ => ⟨.iso8601, .utf8, .strings⟩, fun _ => [("x", .leaf (.infNan .strings)), ("y", .any)]⟩

example : Made pointClass pointWorld := fun _ => rfl

/-- An instance with NaN in both fields. -/
def instance0 : Value := .obj 0 [("x", .atom nan), ("y", .atom nan)]

example : Governs pointClass none none (.list point) (.list [instance0]) [.i 0, .k "x"] nan (some strings) ∧
    Governs pointClass none none (.list point) (.list [instance0]) [.i 0, .k "y"] nan none :=
  ⟨.item rfl (.model rfl rfl (.leaf rfl)), .item rfl (.model rfl rfl (.unknownAtom fun h => h))⟩

example : Uses (.list point) none .float (some strings) := .item (.model (n := "x") (.head _) .leaf)

/-- In a list of such models, serialised without a configuration of its own, the two fields of one instance are written
differently: the float as the model says, the other as the serialiser says, which is null. -/
theorem any_field_not_in_scope :
    (SchemaSerializer.new (.list point) none).map (fun S => S.toJson pointWorld (.list [instance0])) =
      .ok (.list [.dict [("x", .atom (.infNan .strings) nan), ("y", .atom (.infNan .null) nan)]]) := rfl

/-- The same instance in a list of any values: both as the model says. -/
theorem same_instance_elsewhere :
    (SchemaSerializer.new (.list .any) none).map (fun S => S.toJson pointWorld (.list [instance0])) =
      .ok (.list [.dict [("x", .atom (.infNan .strings) nan), ("y", .atom (.infNan .strings) nan)]]) := rfl

/-- The claim that all that is written of an instance of a model is written as the configuration of the model says. -/
def OwnConfigGoverns (C : Nat → Class) (W : World) (s : Schema) (config : Option Cfg) : Prop :=
  ∀ S, SchemaSerializer.new s config = .ok S → ∀ cls kvs n k vs m a, vs[n]? = some (Value.obj cls kvs) →
    (S.toJson W (.list vs)).at [.i n, .k k] = some (.atom m a) → Says (C cls).own a.kind m

/-- It is false. -/
theorem own_config_does_not_govern : ¬ OwnConfigGoverns pointClass pointWorld (.list point) none := by
  intro h
  obtain ⟨_, h1 | h1⟩ := h _ rfl 0 [("x", .atom nan), ("y", .atom nan)] 0 "y" [instance0] (.infNan .null) nan rfl rfl
  · exact absurd h1.1 (by decide)
  · exact absurd h1 (by decide)

/-- A typed dict with `ser_json_inf_nan='strings'` in its schema writes NaN as null. -/
theorem typed_dict_config_lost :
    (SchemaSerializer.new (.typedDict (some strings) [("x", .leaf .float)]) none).map
      (fun S => S.toJson pointWorld (.dict [("x", .atom nan)])) = .ok (.dict [("x", .atom (.infNan .null) nan)]) := rfl

/-- Without arguments, `to_json` and a serialiser without a configuration write NaN differently. -/
theorem defaults_differ :
    toJsonDefault pointWorld (.atom nan) = .ok (.atom (.infNan .constants) nan) ∧
    (SchemaSerializer.new .any none).map (fun S => S.toJson pointWorld (.atom nan)) = .ok (.atom (.infNan .null) nan) :=
  ⟨rfl, rfl⟩

/-- A wrong mode in the configuration of a model is not noticed unless a field has the type it is for. -/
theorem wrong_mode_unnoticed :
    (∃ S, SchemaSerializer.new (.model (some { bytes := some (.str "base32") }) [("x", .leaf .float)]) none = .ok S) ∧
    SchemaSerializer.new (.model (some { bytes := some (.str "base32") }) [("x", .leaf .bytes)]) none =
      .error (.schema "Invalid BytesMode serialization mode: `base32`, expected utf8 or base64 or hex or ") :=
  ⟨⟨_, rfl⟩, by cbv⟩

/-- A wrong mode in the configuration of the serialiser is always noticed. -/
example : SchemaSerializer.new .any (some { bytes := some .other }) = .error .type := rfl

example : toJson pointWorld "float" "hex" "null" (.list [.atom nan]) = .ok (.list [.atom (.infNan .null) nan]) := rfl

end PC.SerConfig
