import Verif.Spec.ArgumentsV3
import Verif.Lemmas.Arguments

/-
Lemmas about `arguments-v3` schemas.
-/

namespace PC.ArgsV3
open PC.Lookup PC.Fields
open PC.Args (Sig EachValid ArgsView Arguments Acc insertNew)
variable {α : Type}

/-! ### Building -/

/-- The local variables of `build` after the parameters `pre`. -/
structure After (st : BuildSt) (pre : List Decl) : Prop where
  dflt : st.hadDefault = true ↔ ∃ c ∈ pre, c.hasDefault = true
  pok : st.hadPosOrKw = true ↔ ∃ c ∈ pre, c.mode = .positionalOrKeyword
  va : st.hadVarArgs = true ↔ ∃ c ∈ pre, c.mode = .varArgs
  ko : st.hadKwOnly = true ↔ ∃ c ∈ pre, c.mode = .keywordOnly
  vk : st.hadVarKw = true ↔ ∃ c ∈ pre, c.mode.varKw = true
  names : ∀ n, n ∈ st.names ↔ ∃ c ∈ pre, c.name = n

theorem After.nil : After {} [] := by
  constructor <;> simp

/-- What `build` wants of one parameter. -/
structure Wanted (pre : List Decl) (d : Decl) : Prop where
  follow : MayFollow pre d
  noOmit : d.omitOnError = false
  quirk : VariadicQuirk pre d

theorem kindCheck_names {st st' : BuildSt} {name : String} {m : Mode}
    (h : kindCheck st name m = .ok st') : st'.names = st.names ∧ st'.hadDefault = st.hadDefault := by
  unfold kindCheck at h
  split at h <;> (repeat' split at h) <;> first | cases h; exact ⟨rfl, rfl⟩ | cases h

theorem kindCheck_iff {st : BuildSt} {pre : List Decl} (ha : After st pre) (nm : List String)
    (d : Decl) :
    (∃ st', kindCheck { st with names := nm } d.name d.mode = .ok st') ↔
      ∀ c ∈ pre, c.mode.place < d.mode.place ∨
        (c.mode.place = d.mode.place ∧ d.mode.variadic = false) := by
  have key : ∀ b : Bool, ∀ P : Prop, (b = true ↔ P) → (b = false ↔ ¬ P) := by
    intro b P h
    rw [← h]
    cases b <;> simp
  have h1 := ha.pok
  have h2 := ha.va
  have h3 := ha.ko
  have h4 := ha.vk
  constructor
  · rintro ⟨st', h⟩ c hc
    have g1 : c.mode = .positionalOrKeyword → st.hadPosOrKw = true := fun e => h1.2 ⟨c, hc, e⟩
    have g2 : c.mode = .varArgs → st.hadVarArgs = true := fun e => h2.2 ⟨c, hc, e⟩
    have g3 : c.mode = .keywordOnly → st.hadKwOnly = true := fun e => h3.2 ⟨c, hc, e⟩
    have g4 : c.mode.varKw = true → st.hadVarKw = true := fun e => h4.2 ⟨c, hc, e⟩
    cases hm : d.mode <;> rw [hm] at h <;> simp only [kindCheck] at h <;>
      (repeat' split at h) <;> first
        | (exfalso; cases h; done)
        | (cases hcm : c.mode <;> simp_all [Mode.place, Mode.variadic, Mode.varKw])
  · intro h
    have g1 : ∀ b : Bool, (b = true → ∃ c ∈ pre, c.mode.place > d.mode.place ∨
        (c.mode.place = d.mode.place ∧ d.mode.variadic = true)) → b = false := by
      intro b hb
      cases b with
      | false => rfl
      | true =>
        obtain ⟨c, hc, hx⟩ := hb rfl
        rcases h c hc with h5 | ⟨h5, h6⟩
        · rcases hx with h7 | ⟨h7, -⟩ <;> omega
        · rcases hx with h7 | ⟨-, h7⟩
          · omega
          · rw [h6] at h7
            cases h7
    have k2 : ∀ c : Decl, c.mode.varKw = true → c.mode.place = 4 := by
      intro c hc
      cases hm : c.mode <;> rw [hm] at hc <;> first | rfl | cases hc
    cases hm : d.mode <;> simp only [kindCheck] <;> rw [hm] at g1
    · rw [g1 st.hadPosOrKw, g1 st.hadVarArgs, g1 st.hadKwOnly, g1 st.hadVarKw]
      · exact ⟨_, rfl⟩
      all_goals intro e
      · obtain ⟨c, hc, e⟩ := h4.1 e
        exact ⟨c, hc, Or.inl (by rw [k2 c e]; decide)⟩
      · obtain ⟨c, hc, e⟩ := h3.1 e
        exact ⟨c, hc, Or.inl (by rw [e]; decide)⟩
      · obtain ⟨c, hc, e⟩ := h2.1 e
        exact ⟨c, hc, Or.inl (by rw [e]; decide)⟩
      · obtain ⟨c, hc, e⟩ := h1.1 e
        exact ⟨c, hc, Or.inl (by rw [e]; decide)⟩
    · rw [g1 st.hadVarArgs, g1 st.hadKwOnly, g1 st.hadVarKw]
      · exact ⟨_, rfl⟩
      all_goals intro e
      · obtain ⟨c, hc, e⟩ := h4.1 e
        exact ⟨c, hc, Or.inl (by rw [k2 c e]; decide)⟩
      · obtain ⟨c, hc, e⟩ := h3.1 e
        exact ⟨c, hc, Or.inl (by rw [e]; decide)⟩
      · obtain ⟨c, hc, e⟩ := h2.1 e
        exact ⟨c, hc, Or.inl (by rw [e]; decide)⟩
    · rw [g1 st.hadVarArgs, g1 st.hadKwOnly, g1 st.hadVarKw]
      · exact ⟨_, rfl⟩
      all_goals intro e
      · obtain ⟨c, hc, e⟩ := h4.1 e
        exact ⟨c, hc, Or.inl (by rw [k2 c e]; decide)⟩
      · obtain ⟨c, hc, e⟩ := h3.1 e
        exact ⟨c, hc, Or.inl (by rw [e]; decide)⟩
      · obtain ⟨c, hc, e⟩ := h2.1 e
        exact ⟨c, hc, Or.inr ⟨by rw [e], rfl⟩⟩
    · rw [g1 st.hadVarKw]
      · exact ⟨_, rfl⟩
      · intro e
        obtain ⟨c, hc, e⟩ := h4.1 e
        exact ⟨c, hc, Or.inl (by rw [k2 c e]; decide)⟩
    all_goals
      rw [g1 st.hadVarKw]
      · exact ⟨_, rfl⟩
      · intro e
        obtain ⟨c, hc, e⟩ := h4.1 e
        exact ⟨c, hc, Or.inr ⟨k2 c e, rfl⟩⟩

theorem exists_mem_snoc {pre : List Decl} {d : Decl} {P : Decl → Prop} :
    (∃ c ∈ pre ++ [d], P c) ↔ (∃ c ∈ pre, P c) ∨ P d := by
  constructor
  · rintro ⟨c, hc, hp⟩
    rcases List.mem_append.1 hc with h | h
    · exact Or.inl ⟨c, h, hp⟩
    · rw [List.mem_singleton.1 h] at hp
      exact Or.inr hp
  · rintro (⟨c, hc, hp⟩ | hp)
    · exact ⟨c, List.mem_append_left _ hc, hp⟩
    · exact ⟨d, List.mem_append_right _ (List.mem_singleton.2 rfl), hp⟩

theorem kindCheck_flags {st st' : BuildSt} {name : String} {m : Mode}
    (h : kindCheck st name m = .ok st') :
    (st'.hadPosOrKw = true ↔ st.hadPosOrKw = true ∨ m = .positionalOrKeyword) ∧
    (st'.hadVarArgs = true ↔ st.hadVarArgs = true ∨ m = .varArgs) ∧
    (st'.hadKwOnly = true ↔ st.hadKwOnly = true ∨ m = .keywordOnly) ∧
    (st'.hadVarKw = true ↔ st.hadVarKw = true ∨ m.varKw = true) := by
  unfold kindCheck at h
  split at h <;> (repeat' split at h) <;> first | (cases h; done) | (cases h; simp [Mode.varKw])

theorem buildStep_after {st st' : BuildSt} {pre : List Decl} {d : Decl} (ha : After st pre)
    (h : buildStep st d = .ok st') : After st' (pre ++ [d]) := by
  unfold buildStep at h
  split at h
  · cases h
  · split at h
    · cases h
    · rename_i st1 hk
      obtain ⟨n1, n2⟩ := kindCheck_names hk
      obtain ⟨f1, f2, f3, f4⟩ := kindCheck_flags hk
      dsimp only at n1 n2 f1 f2 f3 f4
      have base : ∀ st2 : BuildSt, st2.hadPosOrKw = st1.hadPosOrKw → st2.hadVarArgs = st1.hadVarArgs →
          st2.hadKwOnly = st1.hadKwOnly → st2.hadVarKw = st1.hadVarKw → st2.names = st1.names →
          (st2.hadDefault = true ↔ st.hadDefault = true ∨ d.hasDefault = true) →
          After st2 (pre ++ [d]) := by
        intro st2 e1 e2 e3 e4 e5 e6
        refine ⟨?_, ?_, ?_, ?_, ?_, ?_⟩
        · rw [e6, exists_mem_snoc, ha.dflt]
        · rw [e1, f1, exists_mem_snoc, ha.pok]
        · rw [e2, f2, exists_mem_snoc, ha.va]
        · rw [e3, f3, exists_mem_snoc, ha.ko]
        · rw [e4, f4, exists_mem_snoc, ha.vk]
        · intro n
          rw [e5, n1, exists_mem_snoc, List.mem_cons, ha.names]
          constructor
          · rintro (h | h)
            · exact Or.inr h.symm
            · exact Or.inl h
          · rintro (h | h)
            · exact Or.inr h
            · exact Or.inl h.symm
      split at h
      · cases h
      · split at h
        · cases h
        · split at h
          · rename_i hd
            cases h
            exact base _ rfl rfl rfl rfl rfl (by simp [hd])
          · rename_i hd
            cases h
            exact base _ rfl rfl rfl rfl rfl (by rw [n2]; simp [hd])

theorem buildStep_iff {st : BuildSt} {pre : List Decl} {d : Decl} (ha : After st pre) :
    (∃ st', buildStep st d = .ok st') ↔ Wanted pre d := by
  have hki := kindCheck_iff ha (d.name :: st.names) d
  have hfresh : d.name ∈ st.names ↔ ∃ c ∈ pre, c.name = d.name := ha.names d.name
  have lastFlag : ∀ st1, kindCheck { st with names := d.name :: st.names } d.name d.mode = .ok st1 →
      (∀ c ∈ pre, c.mode.place < d.mode.place ∨
        (c.mode.place = d.mode.place ∧ d.mode.variadic = false)) →
      ((st1.hadDefault && !d.hasDefault && !st1.hadKwOnly) = false ↔
        ((d.mode.positional = true → d.hasDefault = false → ∀ c ∈ pre, c.hasDefault = false) ∧
          VariadicQuirk pre d)) := by
    intro st1 hk ho
    obtain ⟨-, n2⟩ := kindCheck_names hk
    obtain ⟨-, -, f3, -⟩ := kindCheck_flags hk
    dsimp only at n2 f3
    have hdf := ha.dflt
    have hko := ha.ko
    have nopos : d.mode.positional = true → ¬ ∃ c ∈ pre, c.mode = .keywordOnly := by
      rintro hp ⟨c, hc, e⟩
      have := ho c hc
      rw [e] at this
      cases hm : d.mode <;> rw [hm] at this hp <;> simp [Mode.place, Mode.positional] at this hp
    constructor
    · intro h
      constructor
      · intro hp hdd c hc
        cases hcd : c.hasDefault with
        | false => rfl
        | true =>
          exfalso
          have a1 : st1.hadDefault = true := by rw [n2]; exact hdf.2 ⟨c, hc, hcd⟩
          have a2 : st1.hadKwOnly = false := by
            cases hx : st1.hadKwOnly with
            | false => rfl
            | true =>
              exfalso
              rcases f3.1 hx with h5 | h5
              · exact nopos hp (hko.1 h5)
              · rw [h5] at hp
                cases hp
          rw [a1, a2, hdd] at h
          cases h
      · intro hv hex
        cases hdd : d.hasDefault with
        | true => exact Or.inl rfl
        | false =>
          right
          have a1 : st1.hadDefault = true := by rw [n2]; exact hdf.2 hex
          rw [a1, hdd] at h
          simp only [Bool.not_false, Bool.and_self, Bool.true_and, Bool.not_eq_false'] at h
          rcases f3.1 h with h5 | h5
          · exact hko.1 h5
          · rw [h5] at hv
            cases hv
    · rintro ⟨hd1, hq⟩
      cases a1 : st1.hadDefault with
      | false => rfl
      | true =>
        have hex := hdf.1 (n2 ▸ a1)
        cases hdd : d.hasDefault with
        | true => rfl
        | false =>
          have a2 : st1.hadKwOnly = true := by
            cases hv : d.mode.variadic with
            | true =>
              rcases hq hv hex with h5 | h5
              · rw [hdd] at h5
                cases h5
              · exact f3.2 (Or.inl (hko.2 h5))
            | false =>
              cases hm : d.mode with
              | keywordOnly => exact f3.2 (Or.inr hm)
              | positionalOnly | positionalOrKeyword =>
                exfalso
                obtain ⟨c, hc, hcd⟩ := hex
                rw [hd1 (by rw [hm]; rfl) hdd c hc] at hcd
                cases hcd
              | varArgs | varKwUniform | varKwUnpacked =>
                rw [hm] at hv
                cases hv
          rw [a2]
          rfl
  constructor
  · rintro ⟨st', h⟩
    unfold buildStep at h
    split at h
    · cases h
    · rename_i hn
      split at h
      · cases h
      · rename_i st1 hk
        have ho := hki.1 ⟨st1, hk⟩
        split at h
        · cases h
        · rename_i hom
          split at h
          · cases h
          · rename_i hl
            obtain ⟨h5, h6⟩ := (lastFlag st1 hk ho).1 (by simpa using hl)
            exact ⟨⟨fun c hc e => hn (hfresh.2 ⟨c, hc, e⟩), ho, h5⟩, by simpa using hom, h6⟩
  · rintro ⟨⟨h1, h2, h3⟩, h4, h5⟩
    have hn : d.name ∉ st.names := by
      intro hx
      obtain ⟨c, hc, e⟩ := hfresh.1 hx
      exact h1 c hc e
    obtain ⟨st1, hk⟩ := hki.2 h2
    have hl := (lastFlag st1 hk h2).2 ⟨h3, h5⟩
    unfold buildStep
    rw [if_neg hn, hk]
    dsimp only
    rw [if_neg (by rw [h4]; decide), if_neg (by rw [hl]; decide)]
    split <;> exact ⟨_, rfl⟩

theorem buildLoop_iff {st : BuildSt} {pre : List Decl} (ds : List Decl) (ha : After st pre) :
    (∃ st', buildLoop st ds = .ok st') ↔
      ∀ p1 d p2, ds = p1 ++ d :: p2 → Wanted (pre ++ p1) d := by
  induction ds generalizing st pre with
  | nil =>
    constructor
    · intro _ p1 d p2 h
      cases p1 <;> cases h
    · intro _
      exact ⟨st, rfl⟩
  | cons d ds ih =>
    have hs := buildStep_iff (d := d) ha
    constructor
    · rintro ⟨st', h⟩
      rw [buildLoop] at h
      split at h
      · cases h
      · rename_i st1 hb
        have := (ih (buildStep_after ha hb)).1 ⟨st', h⟩
        intro p1 d' p2 hd
        cases p1 with
        | nil =>
          cases hd
          rw [List.append_nil]
          exact hs.1 ⟨st1, hb⟩
        | cons c p1 =>
          cases hd
          have := this p1 d' p2 rfl
          rwa [List.append_assoc] at this
    · intro h
      have h0 := h [] d ds rfl
      rw [List.append_nil] at h0
      obtain ⟨st1, hb⟩ := hs.2 h0
      rw [buildLoop, hb]
      refine (ih (buildStep_after ha hb)).2 ?_
      intro p1 d' p2 hd
      have := h (d :: p1) d' p2 (by rw [hd]; rfl)
      rwa [List.append_assoc]


/-! ### The older kind of schema -/

theorem select_simple {p : Param α} {n : String}
    (hk : p.keys = ⟨.simple (.ofStr n), none, none⟩) {byAlias byName : Bool}
    (hb : byAlias = true ∨ byName = true) :
    p.keys.select byAlias byName = .ok (.simple (.ofStr n)) := by
  rw [hk]
  rcases hb with rfl | rfl
  · cases byName <;> rfl
  · cases byAlias <;> rfl

theorem argStep_older {v : V3 α} {q : Parts α} {view : ArgsView α} {input : α}
    {byAlias byName : Bool} (hb : byAlias = true ∨ byName = true) {i : Nat} {p : Param α}
    (hk : p.keys = ⟨.simple (.ofStr p.name), none, none⟩) (hv : p.mode.variadic = false)
    (hf : p.FieldBlind) (acc : Acc α) :
    v.argStep view input byAlias byName i p acc =
      (v.older q).step view input byAlias byName i p.older acc := by
  have hsel := select_simple hk hb
  have hsel' : p.older.keys.select byAlias byName = .ok (.simple (.ofStr p.name)) := hsel
  have hpos : Args.posValue view p.older i = posValue view p i := by
    unfold Args.posValue posValue Param.older
    cases view.args with
    | none => rfl
    | some args =>
      dsimp only
      cases hm : p.mode <;> rw [hm] at hv <;> first | rfl | cases hv
  have hrun : ∀ x st, rebindExtra (fun e => { e with fieldName := some p.older.name })
      (p.older.run x) st = p.run x st := hf.1
  have hdf : ∀ st, rebindExtra (fun e => { e with fieldName := some p.older.name })
      (p.older.dflt (some (.s p.older.name))) st = p.dflt (some (.s p.name)) st := hf.2
  unfold V3.argStep Arguments.step
  rw [hsel, hpos]
  dsimp only
  have hname : p.older.name = p.name := rfl
  have hlba : (v.older q).locByAlias = v.locByAlias := rfl
  cases hm : p.mode
  case varArgs => rw [hm] at hv; cases hv
  case varKwUniform => rw [hm] at hv; cases hv
  case varKwUnpacked => rw [hm] at hv; cases hv
  case positionalOnly =>
    have hlk : Arguments.lookup view p.older byAlias byName = .ok (none, none) := by
      unfold Arguments.lookup
      have : p.older.mode.keyword = false := by
        unfold Param.older
        rw [hm]
        rfl
      rw [this]
      rfl
    have hkl : kwLookup view p (.simple (.ofStr p.name)) = .ok none := by
      unfold kwLookup
      rw [hm]
      cases view.kwargs <;> rfl
    have hmk : p.older.mode.keyword = false := by
      unfold Param.older
      rw [hm]
      rfl
    rw [hlk, hkl]
    dsimp only
    cases posValue view p i with
    | some x =>
      dsimp only
      rw [hrun]
      unfold into pushArg
      rfl
    | none =>
      dsimp only
      rw [hdf]
      cases (p.dflt (some (.s p.name)) acc.st).1 with
      | error e => rfl
      | ok o =>
        cases o with
        | none => rfl
        | some w =>
          dsimp only
          rw [if_pos rfl, hmk]
          rfl
  case positionalOrKeyword =>
    have hmk : p.older.mode.keyword = true := by
      unfold Param.older
      rw [hm]
      rfl
    have hmp : p.older.mode.positional = true := by
      unfold Param.older
      rw [hm]
      rfl
    have hlk : Arguments.lookup view p.older byAlias byName =
        match kwLookup view p (.simple (.ofStr p.name)) with
        | .error e => .error e
        | .ok r => .ok (some (.simple (.ofStr p.name)), r) := by
      unfold Arguments.lookup kwLookup
      rw [hmk, if_pos rfl, hsel', hm]
      dsimp only
      cases view.kwargs with
      | none => rfl
      | some kw => rfl
    rw [hlk]
    cases kwLookup view p (.simple (.ofStr p.name)) with
    | error e => rfl
    | ok r =>
      dsimp only
      cases posValue view p i with
      | some x =>
        cases r with
        | some px => rfl
        | none =>
          dsimp only
          rw [hrun]
          unfold into pushArg
          rfl
      | none =>
        cases r with
        | some px =>
          dsimp only
          rw [hrun]
          unfold into setKw
          rw [hname, hlba]
          rfl
        | none =>
          dsimp only
          rw [hdf]
          cases (p.dflt (some (.s p.name)) acc.st).1 with
          | error e => rfl
          | ok o =>
            cases o with
            | none =>
              dsimp only
              rw [if_neg (by decide), if_pos hmp]
              rfl
            | some w =>
              dsimp only
              rw [if_neg (by decide), if_pos hmk]
              rfl
  case keywordOnly =>
    have hmk : p.older.mode.keyword = true := by
      unfold Param.older
      rw [hm]
      rfl
    have hmp : p.older.mode.positional = false := by
      unfold Param.older
      rw [hm]
      rfl
    have hlk : Arguments.lookup view p.older byAlias byName =
        match kwLookup view p (.simple (.ofStr p.name)) with
        | .error e => .error e
        | .ok r => .ok (some (.simple (.ofStr p.name)), r) := by
      unfold Arguments.lookup kwLookup
      rw [hmk, if_pos rfl, hsel', hm]
      dsimp only
      cases view.kwargs with
      | none => rfl
      | some kw => rfl
    rw [hlk]
    cases kwLookup view p (.simple (.ofStr p.name)) with
    | error e => rfl
    | ok r =>
      dsimp only
      cases posValue view p i with
      | some x =>
        cases r with
        | some px => rfl
        | none =>
          dsimp only
          rw [hrun]
          unfold into pushArg
          rfl
      | none =>
        cases r with
        | some px =>
          dsimp only
          rw [hrun]
          unfold into setKw
          rw [hname, hlba]
          rfl
        | none =>
          dsimp only
          rw [hdf]
          cases (p.dflt (some (.s p.name)) acc.st).1 with
          | error e => rfl
          | ok o =>
            cases o with
            | none =>
              dsimp only
              rw [if_neg (by decide), hmp]
              rfl
            | some w =>
              dsimp only
              rw [if_neg (by decide), if_pos hmk]
              rfl

theorem argLoop_older {v : V3 α} {q : Parts α} {view : ArgsView α} {input : α}
    {byAlias byName : Bool} (hb : byAlias = true ∨ byName = true) (ps : List (Param α)) (i : Nat)
    (h : ∀ p ∈ ps, p.keys = ⟨.simple (.ofStr p.name), none, none⟩ ∧ p.mode.variadic = false ∧
      p.FieldBlind) (acc : Acc α) :
    v.argLoop view input byAlias byName i ps acc =
      (v.older q).loop view input byAlias byName i (ps.map Param.older) acc := by
  induction ps generalizing i acc with
  | nil => rfl
  | cons p ps ih =>
    obtain ⟨h1, h2, h3⟩ := h p (List.mem_cons_self ..)
    rw [V3.argLoop, List.map_cons, Arguments.loop, argStep_older (q := q) hb h1 h2 h3]
    cases ((v.older q).step view input byAlias byName i p.older acc).1 with
    | error e => rfl
    | ok u => exact ih (i + 1) (fun p hp => h p (List.mem_cons_of_mem _ hp)) _

section
variable {v : V3 α} {q : Parts α} {s : Sig} (hd : v.Describes q s)
include hd

theorem pos_mode {p : Param α} (h : p ∈ q.pos) : p.mode.positional = true := by
  have := List.mem_map_of_mem (f := fun p : Param α => (p.mode, p.name)) h
  rw [hd.pos] at this
  rcases List.mem_append.1 this with h | h
  · obtain ⟨n, -, e⟩ := List.mem_map.1 h
    rw [← (Prod.mk.inj e).1]
    rfl
  · obtain ⟨n, -, e⟩ := List.mem_map.1 h
    rw [← (Prod.mk.inj e).1]
    rfl

theorem kwOnly_mode {p : Param α} (h : p ∈ q.kwOnly) : p.mode = .keywordOnly := by
  have := List.mem_map_of_mem (f := fun p : Param α => (p.mode, p.name)) h
  rw [hd.kwOnly] at this
  obtain ⟨n, -, e⟩ := List.mem_map.1 this
  exact (Prod.mk.inj e).1.symm

theorem star_mode {p : Param α} (h : p ∈ q.star.toList) : p.mode = .varArgs := by
  rw [Option.mem_toList] at h
  exact hd.star.1 p h

theorem starStar_mode {p : Param α} (h : p ∈ q.starStar.toList) : p.mode.varKw = true := by
  rw [Option.mem_toList] at h
  exact hd.starStar.1 p h

theorem filter_params (f : Mode → Bool) (hp : ∀ m : Mode, m.positional = true → f m = b1)
    (ha : f .varArgs = b2) (hk : f .keywordOnly = b3)
    (hs : ∀ p ∈ q.starStar.toList, f p.mode = b4) :
    v.params.filter (fun p => f p.mode) =
      (if b1 then q.pos else []) ++ (if b2 then q.star.toList else []) ++
        (if b3 then q.kwOnly else []) ++ (if b4 then q.starStar.toList else []) := by
  have aux : ∀ (l : List (Param α)) (b : Bool), (∀ p ∈ l, f p.mode = b) →
      l.filter (fun p => f p.mode) = if b then l else [] := by
    intro l b h
    cases b with
    | true => exact List.filter_eq_self.2 h
    | false =>
      rw [if_neg (by decide)]
      exact List.filter_eq_nil_iff.2 fun p hp => by rw [h p hp]; decide
  rw [hd.params, List.filter_append, List.filter_append, List.filter_append,
    aux q.pos b1 fun p h => hp _ (pos_mode hd h),
    aux q.star.toList b2 fun p h => by rw [star_mode hd h, ha],
    aux q.kwOnly b3 fun p h => by rw [kwOnly_mode hd h, hk],
    aux q.starStar.toList b4 hs]

theorem filter_named : v.params.filter (fun p => !p.mode.variadic) = q.named := by
  have := filter_params hd (fun m => !m.variadic) (b1 := true) (b2 := false) (b3 := true)
    (b4 := false) (by intro m; cases m <;> simp [Mode.positional, Mode.variadic]) rfl rfl
    (by
      intro p hp
      have := starStar_mode hd hp
      cases hm : p.mode <;> rw [hm] at this <;> first | rfl | cases this)
  rw [this]
  simp [Parts.named]

theorem posCount_v3 : v.posCount = q.pos.length := by
  have := filter_params hd Mode.positional (b1 := true) (b2 := false) (b3 := false)
    (b4 := false) (fun m h => h) rfl rfl
    (by
      intro p hp
      have := starStar_mode hd hp
      cases hm : p.mode <;> rw [hm] at this <;> first | rfl | cases this)
  unfold V3.posCount
  rw [this]
  simp

theorem find_star : (v.params.find? fun p => decide (p.mode = .varArgs)) = q.star := by
  have := filter_params hd (fun m => decide (m = .varArgs)) (b1 := false) (b2 := true)
    (b3 := false) (b4 := false) (by intro m; cases m <;> simp [Mode.positional]) rfl rfl
    (by
      intro p hp
      have := starStar_mode hd hp
      cases hm : p.mode <;> rw [hm] at this <;> first | rfl | cases this)
  rw [← List.head?_filter, this]
  cases q.star <;> rfl

theorem find_starStar : (v.params.find? fun p => p.mode.varKw) = q.starStar := by
  have := filter_params hd (fun m => m.varKw) (b1 := false) (b2 := false)
    (b3 := false) (b4 := true) (by intro m; cases m <;> simp [Mode.positional, Mode.varKw]) rfl rfl
    (fun p hp => starStar_mode hd hp)
  rw [← List.head?_filter, this]
  cases q.starStar <;> rfl

theorem find_unpacked : (v.params.find? fun p => decide (p.mode = .varKwUnpacked)) =
    q.starStar.filter fun p => decide (p.mode = .varKwUnpacked) := by
  cases hss : q.starStar with
  | none =>
    have := filter_params hd (fun m => decide (m = .varKwUnpacked)) (b1 := false) (b2 := false)
      (b3 := false) (b4 := false) (by intro m; cases m <;> simp [Mode.positional]) rfl rfl
      (by rw [hss]; intro p hp; cases hp)
    rw [← List.head?_filter, this]
    rfl
  | some p =>
    have := filter_params hd (fun m => decide (m = .varKwUnpacked)) (b1 := false) (b2 := false)
      (b3 := false) (b4 := decide (p.mode = .varKwUnpacked))
      (by intro m; cases m <;> simp [Mode.positional]) rfl rfl
      (by
        rw [hss]
        intro p' hp
        rw [List.mem_singleton.1 hp])
    rw [← List.head?_filter, this, hss]
    by_cases hm : p.mode = .varKwUnpacked
    · simp [hm, Option.filter]
    · simp [hm, Option.filter]

theorem posCount_older : Args.posCount (v.older q).params = q.pos.length := by
  have h1 : ∀ l : List (Param α), (∀ p ∈ l, p.mode = .keywordOnly) →
      Args.posCount (l.map Param.older) = 0 := by
    intro l h
    induction l with
    | nil => rfl
    | cons p l ih =>
      rw [List.map_cons, Args.posCount, ih fun p hp => h p (List.mem_cons_of_mem _ hp), if_neg]
      have : p.older.mode.positional = false := by
        unfold Param.older
        rw [h p (List.mem_cons_self ..)]
        rfl
      rw [this]
      simp
  have h2 : ∀ l l' : List (Param α), (∀ p ∈ l, p.mode.positional = true) →
      Args.posCount (l'.map Param.older) = 0 →
      Args.posCount ((l ++ l').map Param.older) = l.length := by
    intro l l' h h0
    induction l with
    | nil => exact h0
    | cons p l ih =>
      rw [List.cons_append, List.map_cons, Args.posCount,
        ih fun p hp => h p (List.mem_cons_of_mem _ hp), if_pos, List.length_cons]
      left
      have := h p (List.mem_cons_self ..)
      unfold Param.older
      cases hm : p.mode <;> rw [hm] at this <;> first | rfl | cases this
  exact h2 q.pos q.kwOnly (fun p hp => pos_mode hd hp) (h1 _ fun p hp => kwOnly_mode hd hp)

theorem surplusPart_older (view : ArgsView α) (acc : Acc α) :
    v.surplusPart view acc = (v.older q).varArgsPart view acc := by
  unfold V3.surplusPart Arguments.varArgsPart
  rw [posCount_v3 hd, posCount_older hd, find_star hd]
  cases view.args with
  | none => rfl
  | some args =>
    dsimp only
    split
    · have : (v.older q).varArgs = q.star.map Param.run := rfl
      rw [this]
      cases q.star <;> rfl
    · rfl

theorem surplusKwStep_older (k x : α) (rest : Dict α) (acc : Acc α) :
    v.surplusKwStep k x rest acc = (v.older q).kwStep k x rest acc := by
  unfold V3.surplusKwStep Arguments.kwStep
  have e1 : (v.older q).keyOps = v.keyOps := rfl
  have e2 : (v.older q).extra = v.extra := rfl
  have e3 : (v.older q).varKw = match q.starStar with
    | none => .uniform none
    | some p => if p.mode = .varKwUniform then .uniform (some p.run) else .unpacked p.run := rfl
  rw [find_starStar hd, e1, e2, e3]
  cases v.keyOps.str k with
  | error e => cases e <;> rfl
  | ok key =>
    dsimp only
    by_cases hu : acc.used.contains key = true
    · rw [if_pos hu, if_pos hu]
    · rw [if_neg hu, if_neg hu]
      cases q.starStar with
      | none => rfl
      | some p =>
        dsimp only
        by_cases hm : p.mode = .varKwUniform
        · rw [if_pos hm, if_pos hm]
          unfold into setKw
          dsimp only
          cases (p.run x acc.st).1 with
          | ok w => rfl
          | error e => cases e <;> rfl
        · rw [if_neg hm, if_neg hm]

theorem surplusKwLoop_older (es : List (ValResult α (α × α))) (rest : Dict α) (acc : Acc α) :
    v.surplusKwLoop es rest acc = (v.older q).kwLoop es rest acc := by
  induction es generalizing rest acc with
  | nil => rfl
  | cons e es ih =>
    cases e with
    | error e => rfl
    | ok kv =>
      rw [V3.surplusKwLoop, Arguments.kwLoop, surplusKwStep_older hd]
      cases ((v.older q).kwStep kv.1 kv.2 rest acc).1 with
      | error e => rfl
      | ok r => exact ih _ _

theorem unpackedPart_older (rest : Dict α) (acc : Acc α) :
    v.unpackedPart rest acc = (v.older q).unpackedPart rest acc := by
  unfold V3.unpackedPart Arguments.unpackedPart
  have e3 : (v.older q).varKw = match q.starStar with
    | none => .uniform none
    | some p => if p.mode = .varKwUniform then .uniform (some p.run) else .unpacked p.run := rfl
  rw [find_unpacked hd, e3]
  cases hss : q.starStar with
  | none => rfl
  | some p =>
    have := hd.starStar.1 p hss
    cases hm : p.mode <;> rw [hm] at this <;> try cases this
    · simp [Option.filter, hm]
    · simp only [Option.filter, hm, decide_true, if_true, reduceCtorEq, if_false]
      unfold V3.unpack
      dsimp only
      have e4 : (v.older q).mkDict = v.mkDict := rfl
      have e5 : (v.older q).asDict = v.asDict := rfl
      rw [e4, e5]
      cases (p.run (v.mkDict rest) acc.st).1 with
      | ok w => rfl
      | error e =>
        cases e <;> first | rfl | simp

theorem fromArgsKwargs_older (hf : ∀ p ∈ q.named, p.FieldBlind) (view : ArgsView α) (input : α)
    (st : VState α) (hb : st.validateByAliasOr v.byAlias = true ∨
      st.validateByNameOr v.byName = true) :
    v.fromArgsKwargs view input st = (v.older q).run view input st := by
  unfold V3.fromArgsKwargs Arguments.run
  have hl := argLoop_older (v := v) (q := q) (view := view) (input := input) hb q.named 0 (by
    intro p hp
    have hm : p ∈ v.params ∧ p.mode.variadic = false := by
      rw [← filter_named hd] at hp
      obtain ⟨h1, h2⟩ := List.mem_filter.1 hp
      exact ⟨h1, by simpa using h2⟩
    exact ⟨hd.keys p hm.1, hm.2, hf p hp⟩) ⟨[], [], [], [], st⟩
  rw [filter_named hd, hl]
  have e1 : (v.older q).params = q.named.map Param.older := rfl
  have e2 : (v.older q).byAlias = v.byAlias := rfl
  have e3 : (v.older q).byName = v.byName := rfl
  rw [e1, e2, e3]
  have hkw : ∀ acc, v.surplusKwPart view acc = (v.older q).kwPart view acc := by
    intro acc
    unfold V3.surplusKwPart Arguments.kwPart
    cases view.kwargs with
    | none => rfl
    | some kw =>
      dsimp only
      split
      · exact surplusKwLoop_older hd _ _ _
      · rfl
  simp only [surplusPart_older hd, hkw, unpackedPart_older hd]
  rfl

end

/-! ### Dicts -/

theorem update_append (d a b : Dict α) : d.update (a ++ b) = (d.update a).update b := by
  unfold Dict.update
  rw [List.foldl_append]

theorem set_fresh {k : String} {w : α} {d : Dict α} (h : k ∉ d.map Prod.fst) :
    Dict.set k w d = d ++ [(k, w)] := by
  induction d with
  | nil => rfl
  | cons kv d ih =>
    obtain ⟨k0, v0⟩ := kv
    rw [List.map_cons, List.mem_cons] at h
    rw [Dict.set, if_neg fun e => h (Or.inl e.symm), ih fun e => h (Or.inr e)]
    rfl

theorem update_fresh (d l : Dict α) (h : ((d ++ l).map Prod.fst).Nodup) : d.update l = d ++ l := by
  induction l generalizing d with
  | nil => simp [Dict.update]
  | cons kv l ih =>
    obtain ⟨k, w⟩ := kv
    have h' : (((d ++ [(k, w)]) ++ l).map Prod.fst).Nodup := by
      rwa [List.append_assoc]
    have hk : k ∉ d.map Prod.fst := by
      rw [List.map_append, List.nodup_append] at h
      intro hk
      exact h.2.2 k hk k (by simp) rfl
    have : d.update ((k, w) :: l) = (d.set k w).update l := rfl
    rw [this, set_fresh hk, ih _ h', List.append_assoc]
    rfl

/-! ### Runs over a mapping that report nothing -/

/-- The errors only grow. -/
def Grows (acc : Acc α) (r : ValResult α Unit × Acc α) : Prop :=
  (∃ es, r.2.errs = acc.errs ++ es)

theorem into_grows (r : ValResult α α × VState α) (acc : Acc α) (store : α → Acc α → Acc α)
    (loc : LineError α → LineError α) (hs : ∀ w a, (store w a).errs = a.errs) :
    Grows acc (into r acc store loc) := by
  unfold into Grows
  dsimp only
  split
  · exact ⟨[], by rw [hs]; simp⟩
  · exact ⟨_, rfl⟩
  · exact ⟨[], by simp⟩

theorem Grows.trans {acc acc' : Acc α} {r : ValResult α Unit × Acc α}
    (h1 : ∃ es, acc'.errs = acc.errs ++ es) (h2 : Grows acc' r) : Grows acc r := by
  obtain ⟨es, h1⟩ := h1
  obtain ⟨es', h2⟩ := h2
  exact ⟨es ++ es', by rw [h2, h1, List.append_assoc]⟩

theorem tupleLoop_grows (v : V3 α) (p : Param α) (path : LookupPath) (i : Nat)
    (xs : List (Except PyErr α)) (acc : Acc α) : Grows acc (v.tupleLoop p path i xs acc) := by
  induction xs generalizing i acc with
  | nil => exact ⟨[], by simp [V3.tupleLoop]⟩
  | cons x xs ih =>
    cases x with
    | error e => exact ⟨[], by simp [V3.tupleLoop]⟩
    | ok x =>
      rw [V3.tupleLoop]
      have := into_grows (p.run x acc.st) acc pushArg
        (fun e => path.applyErrorLoc (e.withOuterLocation (.i i)) v.locByAlias p.name)
        (fun _ _ => rfl)
      split
      · exact Grows.trans this (ih _ _)
      · exact this

theorem kwargsLoop_grows (v : V3 α) (p : Param α) (path : LookupPath) (es : List (α × α))
    (acc : Acc α) : Grows acc (v.kwargsLoop p path es acc) := by
  induction es generalizing acc with
  | nil => exact ⟨[], by simp [V3.kwargsLoop]⟩
  | cons kv es ih =>
    obtain ⟨k, x⟩ := kv
    rw [V3.kwargsLoop]
    split
    · exact Grows.trans ⟨_, rfl⟩ (ih _)
    · exact ⟨[], by simp⟩
    · rename_i key hk
      have := into_grows (p.run x acc.st) acc (setKw key)
        (fun e => path.applyErrorLoc (e.withOuterLocation (v.keyOps.loc k)) v.locByAlias p.name)
        (fun _ _ => rfl)
      dsimp only
      split
      · exact Grows.trans this (ih _)
      · exact this

theorem unpack_grows (v : V3 α) (p : Param α) (x : α) (loc : LineError α → LineError α)
    (acc : Acc α) : Grows acc (v.unpack p x loc acc) := by
  unfold V3.unpack Grows
  dsimp only
  split
  · split
    · exact ⟨[], by simp⟩
    · exact ⟨[], by simp⟩
  · exact ⟨_, rfl⟩
  · exact ⟨[], by simp⟩

theorem present_grows (v : V3 α) (p : Param α) (path : LookupPath) (x : α) (acc : Acc α) :
    Grows acc (v.present p path x acc) := by
  unfold V3.present
  split
  · exact into_grows _ _ _ _ fun _ _ => rfl
  · exact into_grows _ _ _ _ fun _ _ => rfl
  · split
    · exact Grows.trans ⟨[], by simp⟩ (tupleLoop_grows ..)
    · exact ⟨_, rfl⟩
  · exact into_grows _ _ _ _ fun _ _ => rfl
  · split
    · exact kwargsLoop_grows ..
    · exact ⟨_, rfl⟩
  · exact unpack_grows ..

theorem absent_grows (v : V3 α) (input : α) (p : Param α) (key : LookupKey) (acc : Acc α) :
    Grows acc (v.absent input p key acc) := by
  have hd : ∀ m : Mode, Grows acc
      (match (p.dflt (some (.s p.name)) acc.st).1 with
      | .ok (some w) =>
        if m.positional then
          (.ok (), pushArg w { acc with st := (p.dflt (some (.s p.name)) acc.st).2 })
        else (.ok (), setKw p.name w { acc with st := (p.dflt (some (.s p.name)) acc.st).2 })
      | .ok none => (.ok (), { acc with
          st := (p.dflt (some (.s p.name)) acc.st).2
          errs := acc.errs ++ (key.error (missingType m) input v.locByAlias p.name).toList })
      | .error e => (.error e, { acc with st := (p.dflt (some (.s p.name)) acc.st).2 })) := by
    intro m
    unfold Grows
    split
    · split <;> exact ⟨[], by simp [pushArg, setKw]⟩
    · exact ⟨_, rfl⟩
    · exact ⟨[], by simp⟩
  unfold V3.absent
  split
  · exact hd _
  · exact hd _
  · exact hd _
  · exact unpack_grows ..
  · exact ⟨[], by simp⟩
  · exact ⟨[], by simp⟩

theorem mapStep_grows (v : V3 α) (view : DictView α) (input : α) (a b : Bool) (p : Param α)
    (acc : Acc α) : Grows acc (v.mapStep view input a b p acc) := by
  unfold V3.mapStep
  split
  · exact ⟨[], by simp⟩
  · split
    · exact ⟨[], by simp⟩
    · exact Grows.trans ⟨[], by simp⟩ (present_grows ..)
    · exact absent_grows ..

theorem mapLoop_grows (v : V3 α) (view : DictView α) (input : α) (a b : Bool)
    (ps : List (Param α)) (acc : Acc α) : Grows acc (v.mapLoop view input a b ps acc) := by
  induction ps generalizing acc with
  | nil => exact ⟨[], by simp [V3.mapLoop]⟩
  | cons p ps ih =>
    rw [V3.mapLoop]
    have := mapStep_grows v view input a b p acc
    split
    · exact Grows.trans this (ih _)
    · exact this

theorem extraLoop_grows (v : V3 α) (es : List (ValResult α (α × α))) (acc : Acc α) :
    Grows acc (v.extraLoop es acc) := by
  induction es generalizing acc with
  | nil => exact ⟨[], by simp [V3.extraLoop]⟩
  | cons e es ih =>
    cases e with
    | error e => exact ⟨[], by simp [V3.extraLoop]⟩
    | ok kv =>
      rw [V3.extraLoop]
      split
      · exact Grows.trans ⟨_, rfl⟩ (ih _)
      · exact ⟨[], by simp⟩
      · split
        · exact ih _
        · split
          · exact Grows.trans ⟨_, rfl⟩ (ih _)
          · exact ih _

/-- What a parameter adds to the output. -/
def V3.Contrib (v : V3 α) (m : Dict α) (p : Param α) (as : List α) (ks : Dict α) : Prop :=
  match p.mode with
  | .positionalOnly | .positionalOrKeyword =>
    ∃ w, ParamOutput p (m.get p.name) w ∧ as = [w] ∧ ks = []
  | .keywordOnly => ∃ w, ParamOutput p (m.get p.name) w ∧ as = [] ∧ ks = [(p.name, w)]
  | .varArgs => v.StarOutput p (m.get p.name) as ∧ ks = []
  | .varKwUniform | .varKwUnpacked => as = [] ∧ v.StarStarOutput p (m.get p.name) ks

/-- What a list of parameters adds to the output. -/
inductive V3.Contribs (v : V3 α) (m : Dict α) : List (Param α) → List α → Dict α → Prop
  | nil : V3.Contribs v m [] [] []
  | cons {p ps a as k ks} : v.Contrib m p a k → V3.Contribs v m ps as ks →
      V3.Contribs v m (p :: ps) (a ++ as) (k ++ ks)

theorem Contribs.append {v : V3 α} {m : Dict α} {ps qs : List (Param α)} {as : List α}
    {ks : Dict α} (h : v.Contribs m (ps ++ qs) as ks) :
    ∃ a1 a2 k1 k2, v.Contribs m ps a1 k1 ∧ v.Contribs m qs a2 k2 ∧ as = a1 ++ a2 ∧
      ks = k1 ++ k2 := by
  induction ps generalizing as ks with
  | nil => exact ⟨[], as, [], ks, .nil, h, rfl, rfl⟩
  | cons p ps ih =>
    cases h with
    | cons h1 h2 =>
      obtain ⟨a1, a2, k1, k2, g1, g2, rfl, rfl⟩ := ih h2
      exact ⟨_, a2, _, k2, .cons h1 g1, g2, by rw [List.append_assoc], by rw [List.append_assoc]⟩

theorem into_clean {r : ValResult α α × VState α} {acc acc' : Acc α} {store : α → Acc α → Acc α}
    {loc : LineError α → LineError α} (he : r.1 ≠ .error (.lineErrors []))
    (h : into r acc store loc = (.ok (), acc')) (h0 : acc'.errs = []) :
    ∃ w, r.1 = .ok w ∧ acc' = store w { acc with st := r.2 } := by
  unfold into at h
  dsimp only at h
  split at h
  · rename_i w hw
    cases h
    exact ⟨w, hw, rfl⟩
  · rename_i ls hw
    cases h
    rw [List.append_eq_nil_iff, List.map_eq_nil_iff] at h0
    rw [hw, h0.2] at he
    exact absurd rfl he
  · cases h

theorem tupleLoop_clean {v : V3 α} {p : Param α} (he : ∀ x st, (p.run x st).1 ≠ .error (.lineErrors []))
    {path : LookupPath} {i : Nat} {xs : List (Except PyErr α)} {acc acc' : Acc α}
    (h : v.tupleLoop p path i xs acc = (.ok (), acc')) (h0 : acc'.errs = []) :
    ∃ ys ws, xs = ys.map .ok ∧ EachValid (some p.run) ys ws ∧ acc'.outArgs = acc.outArgs ++ ws ∧
      acc'.outKwargs = acc.outKwargs := by
  induction xs generalizing i acc with
  | nil =>
    cases h
    exact ⟨[], [], rfl, .nil, by simp, rfl⟩
  | cons x xs ih =>
    cases x with
    | error e => cases h
    | ok x =>
      rw [V3.tupleLoop] at h
      split at h
      · rename_i hr
        have hg := tupleLoop_grows v p path (i + 1) xs
          (into (p.run x acc.st) acc pushArg fun e =>
            path.applyErrorLoc (e.withOuterLocation (.i i)) v.locByAlias p.name).2
        unfold Grows at hg
        rw [h] at hg
        obtain ⟨es, hg⟩ := hg
        rw [h0] at hg
        have hnil := (List.append_eq_nil_iff.1 hg.symm).1
        obtain ⟨w, hw, hacc⟩ := into_clean (he x acc.st) (Prod.ext hr rfl) hnil
        obtain ⟨ys, ws, rfl, h2, h3, h4⟩ := ih h
        refine ⟨x :: ys, w :: ws, rfl, .cons rfl hw h2, ?_,
          h4.trans ((congrArg Acc.outKwargs hacc).trans rfl)⟩
        refine h3.trans ((congrArg (fun a : Acc α => a.outArgs ++ ws) hacc).trans ?_)
        simp [pushArg]
      · cases h

theorem kwargsLoop_clean {v : V3 α} {p : Param α}
    (he : ∀ x st, (p.run x st).1 ≠ .error (.lineErrors []))
    (hk : ∀ k, v.keyOps.str k ≠ .error (.lineErrors []))
    {path : LookupPath} {es : List (α × α)} {acc acc' : Acc α}
    (h : v.kwargsLoop p path es acc = (.ok (), acc')) (h0 : acc'.errs = []) :
    ∃ out, v.EachEntry p es out ∧ acc'.outArgs = acc.outArgs ∧
      acc'.outKwargs = acc.outKwargs.update out := by
  induction es generalizing acc with
  | nil =>
    cases h
    exact ⟨[], .nil, rfl, rfl⟩
  | cons kv es ih =>
    obtain ⟨k, x⟩ := kv
    rw [V3.kwargsLoop] at h
    split at h
    · rename_i ls hls
      have hg := kwargsLoop_grows v p path es { acc with errs := acc.errs ++ ls.map fun e =>
        { (e.withOuterLocation (v.keyOps.loc k)).withOuterLocation (.s p.name) with
          type := .invalidKey } }
      unfold Grows at hg
      rw [h] at hg
      obtain ⟨es', hg⟩ := hg
      rw [h0] at hg
      have := (List.append_eq_nil_iff.1 (List.append_eq_nil_iff.1 hg.symm).1).2
      rw [List.map_eq_nil_iff.1 this] at hls
      exact absurd hls (hk k)
    · cases h
    · rename_i key hkey
      dsimp only at h
      split at h
      · rename_i hr
        have hg := kwargsLoop_grows v p path es
          (into (p.run x acc.st) acc (setKw key) fun e =>
            path.applyErrorLoc (e.withOuterLocation (v.keyOps.loc k)) v.locByAlias p.name).2
        unfold Grows at hg
        rw [h] at hg
        obtain ⟨es', hg⟩ := hg
        rw [h0] at hg
        have hnil := (List.append_eq_nil_iff.1 hg.symm).1
        obtain ⟨w, hw, hacc⟩ := into_clean (he x acc.st) (Prod.ext hr rfl) hnil
        obtain ⟨out, h2, h3, h4⟩ := ih h
        exact ⟨(key, w) :: out, .cons hkey hw h2, h3.trans ((congrArg Acc.outArgs hacc).trans rfl),
          h4.trans ((congrArg (fun a : Acc α => a.outKwargs.update out) hacc).trans rfl)⟩
      · cases h

theorem unpack_clean {v : V3 α} {p : Param α} (he : ∀ x st, (p.run x st).1 ≠ .error (.lineErrors []))
    {x : α} {loc : LineError α → LineError α} {acc acc' : Acc α}
    (h : v.unpack p x loc acc = (.ok (), acc')) (h0 : acc'.errs = []) :
    ∃ st w d, (p.run x st).1 = .ok w ∧ v.asDict w = some d ∧ acc'.outArgs = acc.outArgs ∧
      acc'.outKwargs = acc.outKwargs.update d := by
  unfold V3.unpack at h
  dsimp only at h
  split at h
  · rename_i w hw
    split at h
    · rename_i d hd
      cases h
      exact ⟨acc.st, w, d, hw, hd, rfl, rfl⟩
    · cases h
  · rename_i ls hls
    cases h
    rw [List.append_eq_nil_iff, List.map_eq_nil_iff] at h0
    rw [h0.2] at hls
    exact absurd hls (he x acc.st)
  · cases h

section
variable {v : V3 α} {view : DictView α} {m : Dict α} (hm : v.Mapping view m)
include hm

theorem mapStep_eq {input : α} {a b : Bool} (hb : a = true ∨ b = true) {p : Param α}
    (hk : p.keys = ⟨.simple (.ofStr p.name), none, none⟩) (acc : Acc α) :
    v.mapStep view input a b p acc =
      match m.get p.name with
      | some x =>
        v.present p (.ofStr p.name) x { acc with used := insertNew p.name acc.used }
      | none => v.absent input p (.simple (.ofStr p.name)) acc := by
  unfold V3.mapStep
  rw [select_simple hk hb]
  dsimp only
  rw [hm.get]
  cases m.get p.name <;> rfl

theorem mapStep_clean {input : α} {a b : Bool} (hb : a = true ∨ b = true) {p : Param α}
    (hk : p.keys = ⟨.simple (.ofStr p.name), none, none⟩)
    (he : ∀ x st, (p.run x st).1 ≠ .error (.lineErrors []))
    (hke : ∀ k, v.keyOps.str k ≠ .error (.lineErrors [])) {acc acc' : Acc α}
    (h : v.mapStep view input a b p acc = (.ok (), acc')) (h0 : acc'.errs = []) :
    ∃ as ks, v.Contrib m p as ks ∧ acc'.outArgs = acc.outArgs ++ as ∧
      acc'.outKwargs = acc.outKwargs.update ks := by
  rw [mapStep_eq hm hb hk] at h
  unfold V3.Contrib
  have hdf : ∀ acc1 : Acc α, m.get p.name = none → p.mode.variadic = false →
      v.absent input p (.simple (.ofStr p.name)) acc1 = (.ok (), acc') →
      ∃ w, ParamOutput p (m.get p.name) w ∧
        acc' = if p.mode.positional then pushArg w { acc1 with st := (p.dflt (some (.s p.name)) acc1.st).2 }
          else setKw p.name w { acc1 with st := (p.dflt (some (.s p.name)) acc1.st).2 } := by
    intro acc1 hn hv h
    have hgo : (match (p.dflt (some (.s p.name)) acc1.st).1 with
      | .ok (some w) =>
        if p.mode.positional then
          ((.ok () : ValResult α Unit), pushArg w { acc1 with st := (p.dflt (some (.s p.name)) acc1.st).2 })
        else (.ok (), setKw p.name w { acc1 with st := (p.dflt (some (.s p.name)) acc1.st).2 })
      | .ok none => (.ok (), { acc1 with
          st := (p.dflt (some (.s p.name)) acc1.st).2
          errs := acc1.errs ++ (LookupKey.error (.simple (.ofStr p.name)) (missingType p.mode) input v.locByAlias p.name).toList })
      | .error e => (.error e, { acc1 with st := (p.dflt (some (.s p.name)) acc1.st).2 })) =
        (.ok (), acc') := by
      unfold V3.absent at h
      cases hmo : p.mode <;> rw [hmo] at hv h <;> first | (cases hv; done) | exact h
    split at hgo
    · rename_i w hw
      refine ⟨w, ?_, ?_⟩
      · unfold ParamOutput
        rw [hn]
        exact ⟨_, hw⟩
      · split at hgo
        · rename_i hpo
          cases hgo
          rw [if_pos hpo]
        · rename_i hpo
          cases hgo
          rw [if_neg hpo]
    · cases hgo
      have := (List.append_eq_nil_iff.1 h0).2
      unfold LookupKey.error at this
      split at this <;> cases this
    · cases hgo
  cases hg : m.get p.name with
  | some x =>
    rw [hg] at h
    dsimp only at h
    unfold V3.present at h
    cases hmo : p.mode <;> rw [hmo] at h <;> dsimp only at h ⊢
    · obtain ⟨w, hw, rfl⟩ := into_clean (he _ _) h h0
      exact ⟨[w], [], ⟨w, ⟨_, hw⟩, rfl, rfl⟩, rfl, rfl⟩
    · obtain ⟨w, hw, rfl⟩ := into_clean (he _ _) h h0
      exact ⟨[w], [], ⟨w, ⟨_, hw⟩, rfl, rfl⟩, rfl, rfl⟩
    · split at h
      · rename_i e xs hx
        obtain ⟨ys, ws, rfl, h2, h3, h4⟩ := tupleLoop_clean he h h0
        exact ⟨ws, [], ⟨⟨e, ys, hx, h2⟩, rfl⟩, h3, h4⟩
      · cases h
        exact absurd (List.append_eq_nil_iff.1 h0).2 (by simp)
    · obtain ⟨w, hw, rfl⟩ := into_clean (he _ _) h h0
      exact ⟨[], [(p.name, w)], ⟨w, ⟨_, hw⟩, rfl, rfl⟩, by simp [setKw], rfl⟩
    · split at h
      · rename_i es hx
        obtain ⟨out, h2, h3, h4⟩ := kwargsLoop_clean he hke h h0
        refine ⟨[], out, ⟨rfl, ?_⟩, by rw [h3]; simp, h4⟩
        unfold V3.StarStarOutput
        rw [if_pos hmo]
        exact ⟨es, hx, h2⟩
      · cases h
        exact absurd (List.append_eq_nil_iff.1 h0).2 (by simp)
    · obtain ⟨st, w, d, h2, h3, h4, h5⟩ := unpack_clean he h h0
      refine ⟨[], d, ⟨rfl, ?_⟩, by rw [h4]; simp, h5⟩
      unfold V3.StarStarOutput
      rw [if_neg (by rw [hmo]; decide)]
      exact ⟨st, w, h2, h3⟩
  | none =>
    rw [hg] at h
    dsimp only at h
    have hdf' := fun hv => hdf acc hg hv h
    cases hmo : p.mode <;> rw [hmo] at hdf' <;> dsimp only
    · obtain ⟨w, hw, rfl⟩ := hdf' rfl
      exact ⟨[w], [], ⟨w, hg ▸ hw, rfl, rfl⟩, rfl, rfl⟩
    · obtain ⟨w, hw, rfl⟩ := hdf' rfl
      exact ⟨[w], [], ⟨w, hg ▸ hw, rfl, rfl⟩, rfl, rfl⟩
    · unfold V3.absent at h
      rw [hmo] at h
      cases h
      exact ⟨[], [], ⟨rfl, rfl⟩, by simp, rfl⟩
    · obtain ⟨w, hw, rfl⟩ := hdf' rfl
      exact ⟨[], [(p.name, w)], ⟨w, hg ▸ hw, rfl, rfl⟩, by simp [setKw, Mode.positional], rfl⟩
    · unfold V3.absent at h
      rw [hmo] at h
      cases h
      refine ⟨[], [], ⟨rfl, ?_⟩, by simp, rfl⟩
      unfold V3.StarStarOutput
      rw [if_pos hmo]
    · unfold V3.absent at h
      rw [hmo] at h
      obtain ⟨st, w, d, h2, h3, h4, h5⟩ := unpack_clean he h h0
      refine ⟨[], d, ⟨rfl, ?_⟩, by rw [h4]; simp, h5⟩
      unfold V3.StarStarOutput
      rw [if_neg (by rw [hmo]; decide)]
      exact ⟨st, w, h2, h3⟩

theorem mapLoop_clean {input : α} {a b : Bool} (hb : a = true ∨ b = true)
    (hke : ∀ k, v.keyOps.str k ≠ .error (.lineErrors [])) (ps : List (Param α))
    (hk : ∀ p ∈ ps, p.keys = ⟨.simple (.ofStr p.name), none, none⟩)
    (he : ∀ p ∈ ps, ∀ x st, (p.run x st).1 ≠ .error (.lineErrors []))
    {acc acc' : Acc α} (h : v.mapLoop view input a b ps acc = (.ok (), acc')) (h0 : acc'.errs = []) :
    ∃ as ks, v.Contribs m ps as ks ∧ acc'.outArgs = acc.outArgs ++ as ∧
      acc'.outKwargs = acc.outKwargs.update ks := by
  induction ps generalizing acc with
  | nil =>
    cases h
    exact ⟨[], [], .nil, by simp, rfl⟩
  | cons p ps ih =>
    rw [V3.mapLoop] at h
    split at h
    · rename_i hr
      have hg := mapLoop_grows v view input a b ps (v.mapStep view input a b p acc).2
      unfold Grows at hg
      rw [h] at hg
      obtain ⟨es, hg⟩ := hg
      rw [h0] at hg
      have hnil := (List.append_eq_nil_iff.1 hg.symm).1
      obtain ⟨as, ks, h1, h2, h3⟩ := mapStep_clean hm hb (hk p (List.mem_cons_self ..))
        (he p (List.mem_cons_self ..)) hke (Prod.ext hr rfl) hnil
      obtain ⟨as', ks', h4, h5, h6⟩ := ih (fun q hq => hk q (List.mem_cons_of_mem _ hq))
        (fun q hq => he q (List.mem_cons_of_mem _ hq)) h
      refine ⟨as ++ as', ks ++ ks', .cons h1 h4, ?_, ?_⟩
      · rw [h5, h2, List.append_assoc]
      · rw [h6, h3, update_append]
    · cases h

end

/-! ### The used keys -/

theorem into_used (r : ValResult α α × VState α) (acc : Acc α) (store : α → Acc α → Acc α)
    (loc : LineError α → LineError α) (hs : ∀ w a, (store w a).used = a.used) :
    (into r acc store loc).2.used = acc.used := by
  unfold into
  dsimp only
  split
  · rw [hs]
  · rfl
  · rfl

theorem tupleLoop_used (v : V3 α) (p : Param α) (path : LookupPath) (i : Nat)
    (xs : List (Except PyErr α)) (acc : Acc α) :
    (v.tupleLoop p path i xs acc).2.used = acc.used := by
  induction xs generalizing i acc with
  | nil => rfl
  | cons x xs ih =>
    cases x with
    | error e => rfl
    | ok x =>
      rw [V3.tupleLoop]
      have := into_used (p.run x acc.st) acc pushArg
        (fun e => path.applyErrorLoc (e.withOuterLocation (.i i)) v.locByAlias p.name)
        (fun _ _ => rfl)
      split
      · exact (ih _ _).trans this
      · exact this

theorem kwargsLoop_used (v : V3 α) (p : Param α) (path : LookupPath) (es : List (α × α))
    (acc : Acc α) : (v.kwargsLoop p path es acc).2.used = acc.used := by
  induction es generalizing acc with
  | nil => rfl
  | cons kv es ih =>
    obtain ⟨k, x⟩ := kv
    rw [V3.kwargsLoop]
    split
    · exact ih _
    · rfl
    · rename_i key hk
      have := into_used (p.run x acc.st) acc (setKw key)
        (fun e => path.applyErrorLoc (e.withOuterLocation (v.keyOps.loc k)) v.locByAlias p.name)
        (fun _ _ => rfl)
      dsimp only
      split
      · exact (ih _).trans this
      · exact this

theorem unpack_used (v : V3 α) (p : Param α) (x : α) (loc : LineError α → LineError α)
    (acc : Acc α) : (v.unpack p x loc acc).2.used = acc.used := by
  unfold V3.unpack
  dsimp only
  split
  · split <;> rfl
  · rfl
  · rfl

theorem floor_used (acc : Acc α) (st : VState α) : ({ acc with st := st } : Acc α).used = acc.used :=
  rfl

theorem present_used (v : V3 α) (p : Param α) (path : LookupPath) (x : α) (acc : Acc α) :
    (v.present p path x acc).2.used = acc.used := by
  unfold V3.present
  split
  · exact into_used _ _ _ _ fun _ _ => rfl
  · exact into_used _ _ _ _ fun _ _ => rfl
  · split
    · exact tupleLoop_used ..
    · rfl
  · exact into_used _ _ _ _ fun _ _ => rfl
  · split
    · exact kwargsLoop_used ..
    · rfl
  · exact unpack_used ..

theorem absent_used (v : V3 α) (input : α) (p : Param α) (key : LookupKey) (acc : Acc α) :
    (v.absent input p key acc).2.used = acc.used := by
  unfold V3.absent
  split
  · dsimp only
    split
    · split <;> rfl
    · rfl
    · rfl
  · dsimp only
    split
    · split <;> rfl
    · rfl
    · rfl
  · dsimp only
    split
    · split <;> rfl
    · rfl
    · rfl
  · exact unpack_used ..
  · rfl
  · rfl

theorem mapLoop_used {v : V3 α} {view : DictView α} {m : Dict α} (hm : v.Mapping view m)
    {input : α} {a b : Bool} (hb : a = true ∨ b = true) (ps : List (Param α))
    (hk : ∀ p ∈ ps, p.keys = ⟨.simple (.ofStr p.name), none, none⟩) {acc acc' : Acc α}
    (h : v.mapLoop view input a b ps acc = (.ok (), acc')) (n : String) :
    n ∈ acc'.used ↔ n ∈ acc.used ∨ (n ∈ ps.map Param.name ∧ (m.get n).isSome = true) := by
  induction ps generalizing acc with
  | nil =>
    cases h
    simp
  | cons p ps ih =>
    rw [V3.mapLoop] at h
    split at h
    · have hu : n ∈ (v.mapStep view input a b p acc).2.used ↔
          n ∈ acc.used ∨ (n = p.name ∧ (m.get n).isSome = true) := by
        rw [mapStep_eq hm hb (hk p (List.mem_cons_self ..))]
        cases hg : m.get p.name with
        | some x =>
          dsimp only
          rw [present_used]
          dsimp only
          rw [Args.insertNew_mem]
          constructor
          · rintro (h | h)
            · exact Or.inr ⟨h, by rw [h, hg]; rfl⟩
            · exact Or.inl h
          · rintro (h | ⟨h, -⟩)
            · exact Or.inr h
            · exact Or.inl h
        | none =>
          dsimp only
          rw [absent_used]
          constructor
          · exact Or.inl
          · rintro (h | ⟨rfl, h⟩)
            · exact h
            · rw [hg] at h
              cases h
      rw [ih (fun q hq => hk q (List.mem_cons_of_mem _ hq)) h, hu, List.map_cons, List.mem_cons]
      constructor
      · rintro ((h | ⟨h, h'⟩) | ⟨h, h'⟩)
        · exact Or.inl h
        · exact Or.inr ⟨Or.inl h, h'⟩
        · exact Or.inr ⟨Or.inr h, h'⟩
      · rintro (h | ⟨h | h, h'⟩)
        · exact Or.inl (Or.inl h)
        · exact Or.inl (Or.inr ⟨h, h'⟩)
        · exact Or.inr ⟨h, h'⟩
    · cases h

/-! ### Extra keys -/

theorem extraLoop_clean {v : V3 α} (mk : String → α) (hmk : ∀ n, v.keyOps.str (mk n) = .ok n)
    (m : Dict α) {acc acc' : Acc α}
    (h : v.extraLoop (m.map fun kv => .ok (mk kv.1, kv.2)) acc = (.ok (), acc'))
    (h0 : acc'.errs = []) :
    acc' = acc ∧ (v.extra = .forbid → ∀ k ∈ m.map Prod.fst, k ∈ acc.used) := by
  induction m generalizing acc with
  | nil =>
    cases h
    exact ⟨rfl, by simp⟩
  | cons kv m ih =>
    rw [List.map_cons, V3.extraLoop, hmk] at h
    dsimp only at h
    split at h
    · rename_i hu
      obtain ⟨h1, h2⟩ := ih h
      refine ⟨h1, fun hf k hk => ?_⟩
      rw [List.map_cons, List.mem_cons] at hk
      rcases hk with rfl | hk
      · simpa using hu
      · exact h2 hf k hk
    · split at h
      · have hg := extraLoop_grows v (m.map fun kv => .ok (mk kv.1, kv.2)) { acc with
          errs := acc.errs ++ [.newWithLoc .extraForbidden kv.2 (v.keyOps.loc (mk kv.1))] }
        unfold Grows at hg
        rw [h] at hg
        obtain ⟨es, hg⟩ := hg
        rw [h0] at hg
        have := (List.append_eq_nil_iff.1 (List.append_eq_nil_iff.1 hg.symm).1).2
        cases this
      · rename_i hf
        obtain ⟨h1, -⟩ := ih h
        exact ⟨h1, fun h => absurd h hf⟩

theorem extraLoop_all {v : V3 α} (mk : String → α) (hmk : ∀ n, v.keyOps.str (mk n) = .ok n)
    (m : Dict α) {acc : Acc α} (h : ∀ k ∈ m.map Prod.fst, k ∈ acc.used) :
    v.extraLoop (m.map fun kv => .ok (mk kv.1, kv.2)) acc = (.ok (), acc) := by
  induction m with
  | nil => rfl
  | cons kv m ih =>
    rw [List.map_cons, V3.extraLoop, hmk]
    dsimp only
    rw [if_pos (by simpa using h kv.1 (by simp))]
    exact ih fun k hk => h k (by rw [List.map_cons]; exact List.mem_cons_of_mem _ hk)

theorem extraPart_clean {v : V3 α} {view : DictView α} {m : Dict α} (hm : v.Mapping view m)
    {acc acc' : Acc α} (h : v.extraPart view acc = (.ok (), acc')) (h0 : acc'.errs = []) :
    acc' = acc ∧ (v.extra = .forbid → view.isPyGetAttr = false →
      ∀ k ∈ m.map Prod.fst, k ∈ acc.used) := by
  unfold V3.extraPart at h
  split at h
  · rename_i hi
    cases h
    refine ⟨rfl, fun h1 h2 => ?_⟩
    rcases hi with hi | hi
    · rw [hi] at h1
      cases h1
    · rw [h2] at hi
      cases hi
  · obtain ⟨mk, hen, hmk⟩ := hm.entries
    rw [hen] at h
    obtain ⟨h1, h2⟩ := extraLoop_clean mk hmk m h h0
    exact ⟨h1, fun h3 _ => h2 h3⟩

/-- An accepted mapping: what each parameter adds to the output. -/
theorem fromMapping_ok {v : V3 α} {view : DictView α} {m : Dict α} (hm : v.Mapping view m)
    (he : v.Explains) (hk : ∀ p ∈ v.params, p.keys = ⟨.simple (.ofStr p.name), none, none⟩)
    {input : α} {st st' : VState α}
    (hb : st.validateByAliasOr v.byAlias = true ∨ st.validateByNameOr v.byName = true)
    {oa : List α} {ok : Dict α} (h : v.fromMapping view input st = (.ok (oa, ok), st')) :
    ∃ as ks, v.Contribs m v.params as ks ∧ oa = as ∧ ok = Dict.update [] ks ∧
      (v.extra = .forbid → view.isPyGetAttr = false →
        ∀ k ∈ m.map Prod.fst, k ∈ v.params.map Param.name) := by
  unfold V3.fromMapping at h
  dsimp only at h
  split at h
  · cases h
  · rename_i hr
    split at h
    · cases h
    · rename_i hx
      unfold finish at h
      split at h
      · rename_i h0
        rw [List.isEmpty_iff] at h0
        have hx' : v.extraPart view (v.mapLoop view input (st.validateByAliasOr v.byAlias)
            (st.validateByNameOr v.byName) v.params ⟨[], [], [], [], st⟩).2 = (.ok (), _) :=
          Prod.ext hx rfl
        have hcl : (v.extraPart view (v.mapLoop view input (st.validateByAliasOr v.byAlias)
              (st.validateByNameOr v.byName) v.params ⟨[], [], [], [], st⟩).2).2 =
              (v.mapLoop view input (st.validateByAliasOr v.byAlias)
                (st.validateByNameOr v.byName) v.params ⟨[], [], [], [], st⟩).2 ∧
            (v.extra = .forbid → view.isPyGetAttr = false → ∀ k ∈ m.map Prod.fst,
              k ∈ (v.mapLoop view input (st.validateByAliasOr v.byAlias)
                (st.validateByNameOr v.byName) v.params ⟨[], [], [], [], st⟩).2.used) := by
          exact extraPart_clean hm hx' h0
        rw [hcl.1] at h h0
        obtain ⟨as, ks, h1, h2, h3⟩ := mapLoop_clean hm hb he.2 v.params hk he.1
          (Prod.ext hr rfl) h0
        dsimp only at h2 h3
        cases h
        refine ⟨as, ks, h1, h2, h3, fun h4 h5 k hkm => ?_⟩
        have := (mapLoop_used hm hb v.params hk (Prod.ext hr rfl) k).1 (hcl.2 h4 h5 k hkm)
        rcases this with h | h
        · cases h
        · exact h.1
      · cases h

/-! ### Runs over a mapping where everything validates -/

theorem tupleLoop_valid {v : V3 α} {p : Param α} {path : LookupPath} (xs : List α)
    (hv : ∀ y ∈ xs, ∀ st, ∃ w, (p.run y st).1 = .ok w) (i : Nat) (acc : Acc α) :
    ∃ acc', v.tupleLoop p path i (xs.map .ok) acc = (.ok (), acc') ∧ acc'.errs = acc.errs := by
  induction xs generalizing i acc with
  | nil => exact ⟨acc, rfl, rfl⟩
  | cons x xs ih =>
    obtain ⟨w, hw⟩ := hv x (List.mem_cons_self ..) acc.st
    rw [List.map_cons, V3.tupleLoop]
    simp only [into, hw]
    obtain ⟨acc', h1, h2⟩ := ih (fun y hy => hv y (List.mem_cons_of_mem _ hy)) (i + 1)
      (pushArg w { acc with st := (p.run x acc.st).2 })
    exact ⟨acc', h1, h2⟩

theorem kwargsLoop_valid {v : V3 α} {p : Param α} {path : LookupPath} (es : List (α × α))
    (hv : ∀ kv ∈ es, (∃ key, v.keyOps.str kv.1 = .ok key) ∧ ∀ st, ∃ w, (p.run kv.2 st).1 = .ok w)
    (acc : Acc α) :
    ∃ acc', v.kwargsLoop p path es acc = (.ok (), acc') ∧ acc'.errs = acc.errs := by
  induction es generalizing acc with
  | nil => exact ⟨acc, rfl, rfl⟩
  | cons kv es ih =>
    obtain ⟨k, x⟩ := kv
    obtain ⟨⟨key, hkey⟩, hx⟩ := hv (k, x) (List.mem_cons_self ..)
    obtain ⟨w, hw⟩ := hx acc.st
    dsimp only at hkey hw
    rw [V3.kwargsLoop, hkey]
    simp only [into, hw]
    obtain ⟨acc', h1, h2⟩ := ih (fun y hy => hv y (List.mem_cons_of_mem _ hy))
      (setKw key w { acc with st := (p.run x acc.st).2 })
    exact ⟨acc', h1, h2⟩

theorem into_valid {r : ValResult α α × VState α} {w : α} (h : r.1 = .ok w) (acc : Acc α)
    (store : α → Acc α → Acc α) (loc : LineError α → LineError α)
    (hs : ∀ w a, (store w a).errs = a.errs) :
    ∃ acc', into r acc store loc = (.ok (), acc') ∧ acc'.errs = acc.errs := by
  simp only [into, h]
  exact ⟨_, rfl, hs ..⟩

theorem unpack_valid {v : V3 α} {p : Param α} {x : α}
    (h : ∀ st, ∃ w d, (p.run x st).1 = .ok w ∧ v.asDict w = some d)
    (loc : LineError α → LineError α) (acc : Acc α) :
    ∃ acc', v.unpack p x loc acc = (.ok (), acc') ∧ acc'.errs = acc.errs := by
  obtain ⟨w, d, h1, h2⟩ := h acc.st
  simp only [V3.unpack, h1, h2]
  exact ⟨_, rfl, rfl⟩

theorem mapStep_valid {v : V3 α} {view : DictView α} {m : Dict α} (hm : v.Mapping view m)
    {q : Parts α} {s : Sig} (hd : v.Describes q s) (hv : v.AllValid q m) {input : α} {a b : Bool}
    (hb : a = true ∨ b = true) {p : Param α} (hp : p ∈ v.params) (acc : Acc α) :
    ∃ acc', v.mapStep view input a b p acc = (.ok (), acc') ∧ acc'.errs = acc.errs := by
  rw [mapStep_eq hm hb (hd.keys p hp)]
  have hcase : (p ∈ q.named ∧ p.mode.variadic = false) ∨ (q.star = some p ∧ p.mode = .varArgs) ∨
      (q.starStar = some p ∧ p.mode.varKw = true) := by
    rw [hd.params] at hp
    rcases List.mem_append.1 hp with hp | hp
    · rcases List.mem_append.1 hp with hp | hp
      · rcases List.mem_append.1 hp with hp | hp
        · refine Or.inl ⟨List.mem_append_left _ hp, ?_⟩
          have := pos_mode hd hp
          cases hmo : p.mode <;> rw [hmo] at this <;> first | rfl | cases this
        · exact Or.inr (Or.inl ⟨Option.mem_toList.1 hp, star_mode hd hp⟩)
      · refine Or.inl ⟨List.mem_append_right _ hp, ?_⟩
        rw [kwOnly_mode hd hp]
        rfl
    · exact Or.inr (Or.inr ⟨Option.mem_toList.1 hp, starStar_mode hd hp⟩)
  rcases hcase with ⟨hn, hvar⟩ | ⟨hs, hmo⟩ | ⟨hs, hmo⟩
  · cases hg : m.get p.name with
    | some x =>
      obtain ⟨w, hw⟩ := hv.params p hn x hg acc.st
      dsimp only
      unfold V3.present
      cases hmo : p.mode <;> rw [hmo] at hvar <;> first | (cases hvar; done) | dsimp only
      · exact into_valid hw _ _ _ fun _ _ => rfl
      · exact into_valid hw _ _ _ fun _ _ => rfl
      · exact into_valid hw _ _ _ fun _ _ => rfl
    | none =>
      obtain ⟨w, hw⟩ := hv.defaults p hn hg acc.st
      dsimp only
      unfold V3.absent
      cases hmo : p.mode <;> rw [hmo] at hvar <;> first | (cases hvar; done) | dsimp only
      all_goals
        rw [hw]
        exact ⟨_, rfl, rfl⟩
  · cases hg : m.get p.name with
    | some x =>
      obtain ⟨e, xs, hx, hy⟩ := hv.star p x hs hg
      simp only [V3.present, hmo, hx]
      obtain ⟨acc', h1, h2⟩ := tupleLoop_valid (v := v) (path := .ofStr p.name) xs hy 0
        { acc with used := insertNew p.name acc.used, st := acc.st.floorExactness e }
      exact ⟨acc', h1, h2⟩
    | none =>
      simp only [V3.absent, hmo]
      exact ⟨_, rfl, rfl⟩
  · cases hmo' : p.mode <;> rw [hmo'] at hmo <;> try cases hmo
    · cases hg : m.get p.name with
      | some x =>
        obtain ⟨es, hx, hy⟩ := hv.uniform p x hs hmo' hg
        simp only [V3.present, hmo', hx]
        obtain ⟨acc', h1, h2⟩ := kwargsLoop_valid (v := v) (path := .ofStr p.name) es hy
          { acc with used := insertNew p.name acc.used }
        exact ⟨acc', h1, h2⟩
      | none =>
        simp only [V3.absent, hmo']
        exact ⟨_, rfl, rfl⟩
    · have hu := hv.unpacked p hs (by rw [hmo']; decide)
      cases hg : m.get p.name with
      | some x =>
        rw [hg] at hu
        simp only [V3.present, hmo']
        exact unpack_valid (x := x) hu _ { acc with used := insertNew p.name acc.used }
      | none =>
        rw [hg] at hu
        simp only [V3.absent, hmo']
        exact unpack_valid (x := v.mkDict []) hu _ acc

theorem mapLoop_valid {v : V3 α} {view : DictView α} {m : Dict α} (hm : v.Mapping view m)
    {q : Parts α} {s : Sig} (hd : v.Describes q s) (hv : v.AllValid q m) {input : α} {a b : Bool}
    (hb : a = true ∨ b = true) (ps : List (Param α)) (hp : ∀ p ∈ ps, p ∈ v.params) (acc : Acc α) :
    ∃ acc', v.mapLoop view input a b ps acc = (.ok (), acc') ∧ acc'.errs = acc.errs := by
  induction ps generalizing acc with
  | nil => exact ⟨acc, rfl, rfl⟩
  | cons p ps ih =>
    obtain ⟨acc1, h1, h2⟩ := mapStep_valid (input := input) hm hd hv hb
      (hp p (List.mem_cons_self ..)) acc
    rw [V3.mapLoop, h1]
    obtain ⟨acc2, h3, h4⟩ := ih (fun q hq => hp q (List.mem_cons_of_mem _ hq)) acc1
    exact ⟨acc2, h3, h4.trans h2⟩

theorem fromMapping_valid {v : V3 α} {view : DictView α} {m : Dict α} (hm : v.Mapping view m)
    {q : Parts α} {s : Sig} (hd : v.Describes q s) (hv : v.AllValid q m)
    (hx : v.extra = .forbid → ∀ k ∈ m.map Prod.fst, k ∈ v.params.map Param.name)
    (input : α) (st : VState α)
    (hb : st.validateByAliasOr v.byAlias = true ∨ st.validateByNameOr v.byName = true) :
    ∃ out, (v.fromMapping view input st).1 = .ok out := by
  obtain ⟨acc, h1, h2⟩ := mapLoop_valid (input := input) hm hd hv hb v.params (fun _ h => h)
    ⟨[], [], [], [], st⟩
  dsimp only at h2
  have hxp : ∃ acc', v.extraPart view acc = (.ok (), acc') ∧ acc'.errs = [] := by
    unfold V3.extraPart
    split
    · exact ⟨acc, rfl, h2⟩
    · obtain ⟨mk, hen, hmk⟩ := hm.entries
      rw [hen]
      dsimp only
      by_cases hf : v.extra = .forbid
      · refine ⟨acc, extraLoop_all mk hmk m fun k hk => ?_, h2⟩
        refine (mapLoop_used hm hb v.params hd.keys h1 k).2 (Or.inr ⟨hx hf k hk, ?_⟩)
        exact Args.get_isSome hk
      · have : ∀ (m : Dict α), v.extraLoop (m.map fun kv => .ok (mk kv.1, kv.2)) acc = (.ok (), acc) := by
          intro m
          induction m with
          | nil => rfl
          | cons kv m ih =>
            rw [List.map_cons, V3.extraLoop, hmk]
            dsimp only
            rw [if_neg hf, ih]
            split <;> rfl
        exact ⟨acc, this m, h2⟩
  obtain ⟨acc', h3, h4⟩ := hxp
  unfold V3.fromMapping
  rw [h1]
  dsimp only
  rw [h3]
  dsimp only
  unfold finish
  rw [h4]
  exact ⟨_, rfl⟩

end PC.ArgsV3
