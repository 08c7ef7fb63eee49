import Verif.Lemmas.ArgumentsV3

/-
The errors a mapping is rejected with.
-/

namespace PC.ArgsV3
open PC.Lookup PC.Fields
open PC.Args (Sig EachValid EachKwValid ArgsView Arguments Acc)
variable {α : Type}

/-- The errors collected by a step, and those it stops with, satisfy `P` and `Q`. -/
structure Errs (P : LineError α → Prop) (Q : List (LineError α) → Prop)
    (r : ValResult α Unit × Acc α) : Prop where
  collected : ∀ e ∈ r.2.errs, P e
  stops : ∀ ls, r.1 = .error (.lineErrors ls) → Q ls

theorem into_errs {P : LineError α → Prop} {Q : List (LineError α) → Prop}
    {r : ValResult α α × VState α} {acc : Acc α} {store : α → Acc α → Acc α}
    {loc : LineError α → LineError α} (hs : ∀ w a, (store w a).errs = a.errs)
    (h0 : ∀ e ∈ acc.errs, P e)
    (h : ∀ ls, r.1 = .error (.lineErrors ls) → ∀ e ∈ ls, P (loc e)) :
    Errs P Q (into r acc store loc) := by
  unfold into
  dsimp only
  cases hr : r.1 with
  | ok w =>
    dsimp only
    refine ⟨?_, by simp⟩
    rw [hs]
    exact h0
  | error e =>
    cases e with
    | lineErrors ls =>
      dsimp only
      refine ⟨?_, by simp⟩
      intro e he
      rcases List.mem_append.1 he with he | he
      · exact h0 e he
      · obtain ⟨e0, h1, rfl⟩ := List.mem_map.1 he
        exact h ls hr e0 h1
    | _ => exact ⟨h0, by simp⟩

theorem tupleLoop_errs {P : LineError α → Prop} {Q : List (LineError α) → Prop} {v : V3 α}
    {p : Param α} {path : LookupPath} (all xs : List (Except PyErr α)) (i : Nat)
    (hx : all.drop i = xs)
    (h : ∀ (j : Nat) y st ls e, all[j]? = some (.ok y) → (p.run y st).1 = .error (.lineErrors ls) →
      e ∈ ls → P (path.applyErrorLoc (e.withOuterLocation (.i j)) v.locByAlias p.name))
    (acc : Acc α) (h0 : ∀ e ∈ acc.errs, P e) : Errs P Q (v.tupleLoop p path i xs acc) := by
  induction xs generalizing i acc with
  | nil =>
    rw [V3.tupleLoop]
    exact ⟨h0, by simp⟩
  | cons x xs ih =>
    cases x with
    | error e =>
      rw [V3.tupleLoop]
      exact ⟨h0, by simp⟩
    | ok x =>
      have hi : all[i]? = some (.ok x) := by
        rw [← List.head?_drop, hx]
        rfl
      have hd : all.drop (i + 1) = xs := by
        rw [← List.tail_drop, hx]
        rfl
      have hin : Errs P Q (into (p.run x acc.st) acc pushArg fun e =>
          path.applyErrorLoc (e.withOuterLocation (.i i)) v.locByAlias p.name) :=
        into_errs (fun _ _ => rfl) h0 fun ls hls e he => h i x acc.st ls e hi hls he
      rw [V3.tupleLoop]
      cases hr : (into (p.run x acc.st) acc pushArg fun e =>
          path.applyErrorLoc (e.withOuterLocation (.i i)) v.locByAlias p.name).1 with
      | ok u =>
        dsimp only
        exact ih (i + 1) hd _ hin.collected
      | error e =>
        dsimp only
        refine ⟨hin.collected, ?_⟩
        intro ls hls
        exact hin.stops ls (hr.trans hls)

theorem kwargsLoop_errs {P : LineError α → Prop} {Q : List (LineError α) → Prop} {v : V3 α}
    {p : Param α} {path : LookupPath} (es : List (α × α))
    (hk : ∀ k y ls e, (k, y) ∈ es → v.keyOps.str k = .error (.lineErrors ls) → e ∈ ls →
      P { (e.withOuterLocation (v.keyOps.loc k)).withOuterLocation (.s p.name) with
          type := .invalidKey })
    (h : ∀ k y st ls e, (k, y) ∈ es → (p.run y st).1 = .error (.lineErrors ls) →
      e ∈ ls → P (path.applyErrorLoc (e.withOuterLocation (v.keyOps.loc k)) v.locByAlias p.name))
    (acc : Acc α) (h0 : ∀ e ∈ acc.errs, P e) : Errs P Q (v.kwargsLoop p path es acc) := by
  induction es generalizing acc with
  | nil =>
    rw [V3.kwargsLoop]
    exact ⟨h0, by simp⟩
  | cons kv es ih =>
    obtain ⟨k, x⟩ := kv
    have ih' := ih (fun k y ls e hm => hk k y ls e (List.mem_cons_of_mem _ hm))
      (fun k y st ls e hm => h k y st ls e (List.mem_cons_of_mem _ hm))
    rw [V3.kwargsLoop]
    cases hs : v.keyOps.str k with
    | error e =>
      cases e with
      | lineErrors ls =>
        dsimp only
        refine ih' _ ?_
        intro e he
        rcases List.mem_append.1 he with he | he
        · exact h0 e he
        · obtain ⟨e0, h1, rfl⟩ := List.mem_map.1 he
          exact hk k x ls e0 (List.mem_cons_self ..) hs h1
      | _ => exact ⟨h0, by simp⟩
    | ok key =>
      dsimp only
      have hin : Errs P Q (into (p.run x acc.st) acc (setKw key) fun e =>
          path.applyErrorLoc (e.withOuterLocation (v.keyOps.loc k)) v.locByAlias p.name) :=
        into_errs (fun _ _ => rfl) h0 fun ls hls e he =>
          h k x acc.st ls e (List.mem_cons_self ..) hls he
      cases hr : (into (p.run x acc.st) acc (setKw key) fun e =>
          path.applyErrorLoc (e.withOuterLocation (v.keyOps.loc k)) v.locByAlias p.name).1 with
      | ok u =>
        dsimp only
        exact ih' _ hin.collected
      | error e =>
        dsimp only
        refine ⟨hin.collected, ?_⟩
        intro ls hls
        exact hin.stops ls (hr.trans hls)

theorem unpack_errs {P : LineError α → Prop} {Q : List (LineError α) → Prop} {v : V3 α}
    {p : Param α} {x : α} {loc : LineError α → LineError α} {acc : Acc α}
    (h0 : ∀ e ∈ acc.errs, P e)
    (h : ∀ st ls, (p.run x st).1 = .error (.lineErrors ls) → ∀ e ∈ ls, P (loc e)) :
    Errs P Q (v.unpack p x loc acc) := by
  unfold V3.unpack
  dsimp only
  cases hr : (p.run x acc.st).1 with
  | ok w =>
    dsimp only
    cases v.asDict w with
    | none => exact ⟨h0, by simp⟩
    | some d => exact ⟨h0, by simp⟩
  | error e =>
    cases e with
    | lineErrors ls =>
      dsimp only
      refine ⟨?_, by simp⟩
      intro e he
      rcases List.mem_append.1 he with he | he
      · exact h0 e he
      · obtain ⟨e0, h1, rfl⟩ := List.mem_map.1 he
        exact h _ ls hr e0 h1
    | _ => exact ⟨h0, by simp⟩

theorem applyErrorLoc_ofStr (name : String) (e : LineError α) (b : Bool) :
    (LookupPath.ofStr name).applyErrorLoc e b name = e.withOuterLocation (.s name) := by
  cases b <;> rfl

/-- The errors that end the validation of a mapping: those of a default. -/
def DefaultErrors (q : Parts α) (m : Dict α) (ls : List (LineError α)) : Prop :=
  ∃ p ∈ q.named, m.get p.name = none ∧
    ∃ st, (p.dflt (some (.s p.name)) st).1 = .error (.lineErrors ls)

theorem newWithLoc_eq (t : ErrType) (x : α) (name : String) :
    (LineError.new t x).withOuterLocation (.s name) = .newWithLoc t x (.s name) := by rfl

theorem key_error (name : String) (t : ErrType) (input : α) (b : Bool) :
    (LookupKey.simple (.ofStr name)).error t input b name = some (.newWithLoc t input (.s name)) := by
  cases b <;> rfl

theorem mapStep_errs {v : V3 α} {view : DictView α} {m : Dict α} (hm : v.Mapping view m)
    {q : Parts α} {s : Sig} (hd : v.Describes q s) {input : α} {a b : Bool}
    (hb : a = true ∨ b = true) {p : Param α} (hp : p ∈ v.params) (acc : Acc α)
    (h0 : ∀ e ∈ acc.errs, v.MapError q m input e) :
    Errs (v.MapError q m input) (DefaultErrors q m) (v.mapStep view input a b p acc) := by
  rw [mapStep_eq hm hb (hd.keys p hp)]
  have hcase : (p ∈ q.named ∧ p.mode.variadic = false) ∨ (q.star = some p ∧ p.mode = .varArgs) ∨
      (q.starStar = some p ∧ p.mode.varKw = true) := by
    rw [hd.params] at hp
    rcases List.mem_append.1 hp with hp | hp
    · rcases List.mem_append.1 hp with hp | hp
      · rcases List.mem_append.1 hp with hp | hp
        · refine Or.inl ⟨List.mem_append_left _ hp, ?_⟩
          have := pos_mode hd hp
          cases hmo : p.mode <;> rw [hmo] at this <;> first | rfl | cases this
        · exact Or.inr (Or.inl ⟨Option.mem_toList.1 hp, star_mode hd hp⟩)
      · refine Or.inl ⟨List.mem_append_right _ hp, ?_⟩
        rw [kwOnly_mode hd hp]
        rfl
    · exact Or.inr (Or.inr ⟨Option.mem_toList.1 hp, starStar_mode hd hp⟩)
  rcases hcase with ⟨hn, hvar⟩ | ⟨hs, hmo⟩ | ⟨hs, hmo⟩
  · cases hg : m.get p.name with
    | some x =>
      dsimp only
      have hin : ∀ st ls, (p.run x st).1 = .error (.lineErrors ls) → ∀ e ∈ ls,
          v.MapError q m input ((LookupPath.ofStr p.name).applyErrorLoc e v.locByAlias p.name) := by
        intro st ls hls e he
        rw [applyErrorLoc_ofStr]
        exact .param hn hg hls he
      unfold V3.present
      cases hmo : p.mode <;> rw [hmo] at hvar <;> first | (cases hvar; done) | dsimp only
      · exact into_errs (fun _ _ => rfl) h0 (hin _)
      · exact into_errs (fun _ _ => rfl) h0 (hin _)
      · exact into_errs (fun _ _ => rfl) h0 (hin _)
    | none =>
      dsimp only
      have hmiss : v.MapError q m input (.newWithLoc p.mode.lacking input (.s p.name)) :=
        .missing hn hg
      unfold V3.absent
      cases hmo : p.mode <;> rw [hmo] at hvar <;> first | (cases hvar; done) | dsimp only
      all_goals
        rw [hmo] at hmiss
        cases hdf : (p.dflt (some (.s p.name)) acc.st).1 with
        | ok w =>
          cases w with
          | some w =>
            dsimp only
            exact ⟨h0, by simp [Mode.positional]⟩
          | none =>
            dsimp only
            refine ⟨?_, by simp⟩
            intro e he
            rcases List.mem_append.1 he with he | he
            · exact h0 e he
            · rw [key_error] at he
              cases Option.mem_toList.1 he
              exact hmiss
        | error e =>
          dsimp only
          refine ⟨h0, ?_⟩
          intro ls hls
          exact ⟨p, hn, hg, acc.st, hdf.trans (by cases hls; rfl)⟩
  · cases hg : m.get p.name with
    | some x =>
      simp only [V3.present, hmo]
      cases hx : v.asTuple x with
      | none =>
        dsimp only
        refine ⟨?_, by simp⟩
        intro e he
        rcases List.mem_append.1 he with he | he
        · exact h0 e he
        · cases List.mem_singleton.1 he
          rw [applyErrorLoc_ofStr, newWithLoc_eq]
          exact .noTuple hs hg hx
      | some r =>
        obtain ⟨ex, xs⟩ := r
        dsimp only
        refine tupleLoop_errs xs xs 0 rfl ?_ _ h0
        intro j y st ls e h1 h2 h3
        rw [applyErrorLoc_ofStr]
        exact .item hs hg hx h1 h2 h3
    | none =>
      simp only [V3.absent, hmo]
      exact ⟨h0, by simp⟩
  · cases hmo' : p.mode <;> rw [hmo'] at hmo <;> try cases hmo
    · cases hg : m.get p.name with
      | some x =>
        simp only [V3.present, hmo']
        cases hx : v.asKwargs x with
        | none =>
          dsimp only
          refine ⟨?_, by simp⟩
          intro e he
          rcases List.mem_append.1 he with he | he
          · exact h0 e he
          · cases List.mem_singleton.1 he
            rw [applyErrorLoc_ofStr, newWithLoc_eq]
            exact .noDict hs hmo' hg hx
        | some es =>
          dsimp only
          refine kwargsLoop_errs es ?_ ?_ _ h0
          · intro k y ls e h1 h2 h3
            exact .key hs hmo' hg hx h1 h2 h3
          · intro k y st ls e h1 h2 h3
            rw [applyErrorLoc_ofStr]
            exact .entry hs hmo' hg hx h1 h2 h3
      | none =>
        simp only [V3.absent, hmo']
        exact ⟨h0, by simp⟩
    · have hne : p.mode ≠ .varKwUniform := by rw [hmo']; decide
      cases hg : m.get p.name with
      | some x =>
        simp only [V3.present, hmo']
        refine unpack_errs h0 ?_
        intro st ls hls e he
        rw [applyErrorLoc_ofStr]
        exact .unpacked hs hne (by rw [hg]; exact hls) he
      | none =>
        simp only [V3.absent, hmo']
        refine unpack_errs h0 ?_
        intro st ls hls e he
        exact .unpacked hs hne (by rw [hg]; exact hls) he

theorem mapLoop_errs {v : V3 α} {view : DictView α} {m : Dict α} (hm : v.Mapping view m)
    {q : Parts α} {s : Sig} (hd : v.Describes q s) {input : α} {a b : Bool}
    (hb : a = true ∨ b = true) (ps : List (Param α)) (hp : ∀ p ∈ ps, p ∈ v.params) (acc : Acc α)
    (h0 : ∀ e ∈ acc.errs, v.MapError q m input e) :
    Errs (v.MapError q m input) (DefaultErrors q m) (v.mapLoop view input a b ps acc) := by
  induction ps generalizing acc with
  | nil =>
    rw [V3.mapLoop]
    exact ⟨h0, by simp⟩
  | cons p ps ih =>
    have h1 := mapStep_errs (input := input) hm hd hb (hp p (List.mem_cons_self ..)) acc h0
    rw [V3.mapLoop]
    cases hr : (v.mapStep view input a b p acc).1 with
    | ok u =>
      dsimp only
      exact ih (fun q hq => hp q (List.mem_cons_of_mem _ hq)) _ h1.collected
    | error e =>
      dsimp only
      refine ⟨h1.collected, ?_⟩
      intro ls hls
      exact h1.stops ls (hr.trans hls)

theorem extraLoop_errs {v : V3 α} {P : LineError α → Prop} {Q : List (LineError α) → Prop}
    (mk : String → α) (hmk : ∀ n, v.keyOps.str (mk n) = .ok n) (l : Dict α) (acc : Acc α)
    (h : ∀ name x, v.extra = .forbid → (name, x) ∈ l → name ∉ acc.used →
      P (.newWithLoc .extraForbidden x (v.keyOps.loc (mk name))))
    (h0 : ∀ e ∈ acc.errs, P e) :
    Errs P Q (v.extraLoop (l.map fun kv => .ok (mk kv.1, kv.2)) acc) := by
  induction l generalizing acc with
  | nil =>
    rw [List.map_nil, V3.extraLoop]
    exact ⟨h0, by simp⟩
  | cons kv l ih =>
    rw [List.map_cons, V3.extraLoop, hmk]
    dsimp only
    by_cases hu : kv.1 ∈ acc.used
    · rw [if_pos (by simpa using hu)]
      exact ih acc (fun n x hf hmem => h n x hf (List.mem_cons_of_mem _ hmem)) h0
    · rw [if_neg (by simpa using hu)]
      by_cases hf : v.extra = .forbid
      · rw [if_pos hf]
        refine ih _ (fun n x hf hmem => h n x hf (List.mem_cons_of_mem _ hmem)) ?_
        intro e he
        rcases List.mem_append.1 he with he | he
        · exact h0 e he
        · cases List.mem_singleton.1 he
          exact h kv.1 kv.2 hf (List.mem_cons_self ..) hu
      · rw [if_neg hf]
        exact ih acc (fun n x hf hmem => h n x hf (List.mem_cons_of_mem _ hmem)) h0

theorem fromMapping_errs {v : V3 α} {view : DictView α} {m : Dict α} (hm : v.Mapping view m)
    {q : Parts α} {s : Sig} (hd : v.Describes q s) (input : α) (st : VState α)
    (hb : st.validateByAliasOr v.byAlias = true ∨ st.validateByNameOr v.byName = true)
    {ls : List (LineError α)} (h : (v.fromMapping view input st).1 = .error (.lineErrors ls)) :
    (∀ e ∈ ls, v.MapError q m input e) ∨ DefaultErrors q m ls := by
  have h1 := mapLoop_errs (input := input) hm hd hb v.params (fun _ h => h) ⟨[], [], [], [], st⟩
    (by simp)
  unfold V3.fromMapping at h
  dsimp only at h
  cases hr : (v.mapLoop view input (st.validateByAliasOr v.byAlias) (st.validateByNameOr v.byName)
      v.params ⟨[], [], [], [], st⟩).1 with
  | error e =>
    rw [hr] at h
    dsimp only at h
    exact Or.inr (h1.stops ls (hr.trans (by cases h; rfl)))
  | ok u =>
    rw [hr] at h
    dsimp only at h
    have hx : Errs (v.MapError q m input) (DefaultErrors q m)
        (v.extraPart view (v.mapLoop view input (st.validateByAliasOr v.byAlias)
          (st.validateByNameOr v.byName) v.params ⟨[], [], [], [], st⟩).2) := by
      unfold V3.extraPart
      split
      · exact ⟨h1.collected, by simp⟩
      · obtain ⟨mk, hen, hmk⟩ := hm.entries
        rw [hen]
        dsimp only
        refine extraLoop_errs mk hmk m _ ?_ h1.collected
        intro name x hf hmem hnu
        refine .extra hf (hmk name) hmem ?_
        intro hin
        refine hnu ((mapLoop_used hm hb v.params hd.keys (Prod.ext hr rfl) name).2 (Or.inr ⟨hin, ?_⟩))
        exact Args.get_isSome (List.mem_map.2 ⟨_, hmem, rfl⟩)
    split at h
    · rename_i e he
      exact Or.inr (hx.stops ls (he.trans (by cases h; rfl)))
    · unfold finish at h
      split at h
      · cases h
      · cases h
        exact Or.inl hx.collected

end PC.ArgsV3
