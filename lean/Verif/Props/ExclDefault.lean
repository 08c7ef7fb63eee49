import Verif.Spec.ExclDefault

/-
C115: `exclude_defaults`.
-/

namespace PC.ExclDefault

variable {α ε σ : Type}

theorem compares_iff (s : Sch α ε σ) (d : Default α ε σ) : (∃ i, build s = .withDefault d i) ↔ Compares s d := by
  induction s with
  | default own d' s ih =>
    cases own with
    | true =>
      constructor
      · rintro ⟨i, h⟩; cases h
      · intro h; cases h
    | false =>
      constructor
      · rintro ⟨i, h⟩; cases h; exact .default
      · intro h; cases h; exact ⟨_, rfl⟩
  | function own s ih =>
    cases own with
    | true =>
      constructor
      · rintro ⟨i, h⟩; cases h
      · intro h; cases h
    | false =>
      constructor
      · rintro ⟨i, h⟩; exact .function (ih.1 ⟨i, h⟩)
      · intro h; cases h with
        | function h => exact ih.2 h
  | ref own s =>
    constructor
    · rintro ⟨i, h⟩; cases h
    · intro h; cases h
  | other own =>
    constructor
    · rintro ⟨i, h⟩; cases h
    · intro h; cases h

/-- **C115**: with `exclude_defaults` a field is left out exactly if its value equals its default. -/
theorem dropped_iff (eq : α → α → Except ε Bool) (f : Fld α ε σ) (st st' : σ) :
    excludeDefault eq true f.value (build f.sch) st = (.ok true, st') ↔ Drops eq f st st' := by
  unfold excludeDefault Drops
  rw [if_pos rfl]
  constructor
  · intro h
    cases hb : build f.sch with
    | other => rw [hb] at h; cases h
    | withDefault D i =>
      rw [hb] at h
      have hc := (compares_iff f.sch D).1 ⟨i, hb⟩
      have key : ∀ r : Except ε (Option α) × σ, (match r with
            | (.error e, st) => (.error e, st)
            | (.ok Option.none, st) => (.ok false, st)
            | (.ok (some d), st) => (eq f.value d, st)) = ((.ok true, st') : Except ε Bool × σ) →
          ∃ d, r = (.ok (some d), st') ∧ eq f.value d = .ok true := by
        intro r hr
        obtain ⟨r1, r2⟩ := r
        cases r1 with
        | error e => cases hr
        | ok o =>
          cases o with
          | none => cases hr
          | some d =>
            dsimp only at hr
            obtain ⟨h1, h2⟩ := Prod.mk.inj hr
            exact ⟨d, by rw [h2], h1⟩
      obtain ⟨d, h1, h2⟩ := key _ h
      cases D with
      | none => exact ⟨_, d, hc, nofun, h1, h2⟩
      | value d' => exact ⟨_, d, hc, nofun, h1, h2⟩
      | factory call => exact ⟨_, d, hc, nofun, h1, h2⟩
      | factoryOfData call => cases h1
  · rintro ⟨D, d, hc, hn, hp, he⟩
    obtain ⟨i, hb⟩ := (compares_iff f.sch D).2 hc
    rw [hb]
    have hg : (Ser.withDefault D i).getDefault st = (.ok (some d), st') := by
      cases D with
      | none => exact hp
      | value d' => exact hp
      | factory call => exact hp
      | factoryOfData call => exact absurd rfl (hn call)
    rw [hg]
    dsimp only
    rw [he]

/-- **C115**: without `exclude_defaults` nothing is left out. -/
theorem all_kept (eq : α → α → Except ε Bool) (fs : List (Fld α ε σ)) (st : σ) :
    dump eq false fs st = (.ok (fs.map fun f => (f.name, f.value)), st) := by
  induction fs with
  | nil => rfl
  | cons f fs ih =>
    unfold dump excludeDefault
    rw [if_neg (by decide)]
    dsimp only
    rw [ih]
    rfl

/-- What is written: every field kept or, if it may be, dropped. -/
inductive Dumps (eq : α → α → Except ε Bool) : List (Fld α ε σ) → List (String × α) → Prop where
  | nil : Dumps eq [] []
  | keep {f fs out} : Dumps eq fs out → Dumps eq (f :: fs) ((f.name, f.value) :: out)
  | drop {f fs out st st'} : Drops eq f st st' → Dumps eq fs out → Dumps eq (f :: fs) out

theorem dump_dumps (eq : α → α → Except ε Bool) : ∀ (fs : List (Fld α ε σ)) (st : σ) (out : List (String × α)) (st' : σ),
    dump eq true fs st = (.ok out, st') → Dumps eq fs out := by
  intro fs
  induction fs with
  | nil => intro st out st' h; cases h; exact .nil
  | cons f fs ih =>
    intro st out st' h
    unfold dump at h
    cases h1 : excludeDefault eq true f.value (build f.sch) st with
    | mk r st1 =>
      rw [h1] at h
      cases r with
      | error e => cases h
      | ok drop =>
        dsimp only at h
        cases h2 : dump eq true fs st1 with
        | mk r2 st2 =>
          rw [h2] at h
          cases r2 with
          | error e => cases h
          | ok out' =>
            dsimp only at h
            cases drop with
            | true => cases h; exact .drop ((dropped_iff ..).1 h1) (ih _ _ _ h2)
            | false => cases h; exact .keep (ih _ _ _ h2)

theorem dumps_names {eq : α → α → Except ε Bool} {fs : List (Fld α ε σ)} {out : List (String × α)} (h : Dumps eq fs out)
    (n : String) (hn : n ∉ fs.map Fld.name) : out.lookup n = none := by
  induction h with
  | nil => rfl
  | keep _ ih =>
    simp only [List.map_cons, List.mem_cons, not_or] at hn
    rw [List.lookup_cons, beq_false_of_ne hn.1]
    exact ih hn.2
  | drop _ _ ih =>
    simp only [List.map_cons, List.mem_cons, not_or] at hn
    exact ih hn.2

theorem load_back (eq : α → α → Except ε Bool) (missingError : String → ε) {fs : List (Fld α ε σ)}
    {out : List (String × α)} (h : Dumps eq fs out) : ∀ (given data : List (String × α)) (st : σ),
    (fs.map Fld.name).Nodup → (∀ f ∈ fs, Restorable f) → (∀ f ∈ fs, given.lookup f.name = out.lookup f.name) →
    ∃ back, load missingError fs given data st = (.ok (data ++ back), st) ∧ List.Forall₂ (Back eq) fs back := by
  induction h with
  | nil => intro given data st _ _ _; exact ⟨[], by simp [load], .nil⟩
  | @keep f fs out hd ih =>
    intro given data st hnd hr hl
    simp only [List.map_cons, List.nodup_cons] at hnd
    have hf : given.lookup f.name = some f.value := by
      rw [hl f (by simp), List.lookup_cons, beq_self_eq_true]
    have hrest : ∀ g ∈ fs, given.lookup g.name = out.lookup g.name := by
      intro g hg
      have hne : g.name ≠ f.name := fun h => hnd.1 (h ▸ List.mem_map_of_mem hg)
      rw [hl g (by simp [hg]), List.lookup_cons, beq_false_of_ne hne]
    obtain ⟨back, hb, hz⟩ := ih given (data ++ [(f.name, f.value)]) st hnd.2 (fun g hg => hr g (by simp [hg])) hrest
    refine ⟨(f.name, f.value) :: back, ?_, .cons ⟨rfl, .inl rfl⟩ hz⟩
    unfold load
    rw [hf]
    dsimp only
    rw [hb]
    simp
  | @drop f fs out st1 st2 hdrop hd ih =>
    intro given data st hnd hr hl
    simp only [List.map_cons, List.nodup_cons] at hnd
    have hf : given.lookup f.name = none := by
      rw [hl f (by simp)]; exact dumps_names hd _ hnd.1
    have hrest : ∀ g ∈ fs, given.lookup g.name = out.lookup g.name := fun g hg => hl g (by simp [hg])
    obtain ⟨D, d, hc, hn, hp, he⟩ := hdrop
    rcases hr f (by simp) D hc with ⟨own, d', s, hs, rfl⟩ | ⟨call, rfl⟩ | rfl
    · cases hp
      obtain ⟨back, hb, hz⟩ := ih given (data ++ [(f.name, d)]) st hnd.2 (fun g hg => hr g (by simp [hg])) hrest
      refine ⟨(f.name, d) :: back, ?_, .cons ⟨rfl, .inr ⟨own, d, s, hs, rfl, he⟩⟩ hz⟩
      unfold load
      rw [hf]
      dsimp only
      have hm : f.sch.missing data st = (.ok (some d), st) := by rw [hs]; rfl
      rw [hm]
      dsimp only
      rw [hb]
      simp
    · exact absurd rfl (hn call)
    · cases hp

/-- **C115**: what is dumped with `exclude_defaults` is loaded again, and every field gets its value back, or its default,
which it equals; for fields whose defaults are values and outermost. -/
theorem restored_partial (eq : α → α → Except ε Bool) (missingError : String → ε) (fs : List (Fld α ε σ))
    (hnd : (fs.map Fld.name).Nodup) (hr : ∀ f ∈ fs, Restorable f) (st st' st'' : σ) (out : List (String × α))
    (h : dump eq true fs st = (.ok out, st')) :
    ∃ back, load missingError fs out [] st'' = (.ok back, st'') ∧ List.Forall₂ (Back eq) fs back := by
  obtain ⟨back, hb, hz⟩ := load_back eq missingError (dump_dumps eq fs st out st' h) out [] st'' hnd hr (fun _ _ => rfl)
  exact ⟨back, by simpa using hb, hz⟩

/-! ### Witnesses -/

/-- Numbers as doubles of halves: `2 * n` and `2 * n + 1` are equal, as `1` and `True` are. -/
def same (a b : Nat) : Except String Bool := .ok (a / 2 == b / 2)

def miss (n : String) : String := n ++ ": missing"

/-- A field `a` with default 4. -/
def plain (v : Nat) : Fld Nat String Nat := ⟨"a", .default false (.value 4) (.other false), v⟩

example : Restorable (plain 5) := by
  intro D h
  cases h
  exact .inl ⟨_, _, _, rfl, rfl⟩

example : Drops same (plain 5) 0 0 := ⟨.value 4, 4, .default, nofun, rfl, rfl⟩

/-- The value that comes back may be another than the one that went: one that equals it. -/
theorem default_replaces_equal :
    dump same true [plain 5] 0 = (.ok [], 0) ∧ load miss [plain 5] [] [] 0 = (.ok [("a", 4)], 0) := ⟨rfl, rfl⟩

/-- A field whose default is wrapped by a validator function. -/
def wrapped (v : Nat) : Fld Nat String Nat := ⟨"a", .function false (.default false (.value 4) (.other false)), v⟩

/-- False for defaults inside validator functions: the field is left out, and then missing. -/
theorem inside_function_lost :
    dump same true [wrapped 4] 0 = (.ok [], 0) ∧ load miss [wrapped 4] [] [] 0 = (.error "a: missing", 0) ∧
    ¬ RoundTrips same miss [wrapped 4] 0 := by
  refine ⟨rfl, rfl, ?_⟩
  intro h
  obtain ⟨back, st'', hb, _⟩ := h [] 0 rfl
  cases hb

/-- A field whose default is the next number. -/
def counted (v : Nat) : Fld Nat String Nat :=
  ⟨"a", .default false (.factory fun n => (.ok n, n + 2)) (.other false), v⟩

/-- False for factories that do not give the same every time: the field gets another value back. -/
theorem factory_gives_another :
    dump same true [counted 4] 4 = (.ok [], 6) ∧ load miss [counted 4] [] [] 6 = (.ok [("a", 6)], 8) ∧
    ¬ RoundTrips same miss [counted 4] 4 := by
  refine ⟨rfl, rfl, ?_⟩
  intro h
  obtain ⟨back, st'', hb, hz⟩ := h [] 6 rfl
  cases hb
  cases hz with
  | cons h _ => revert h; unfold counted same; simp

/-- Defaults behind references, of schemas with a serialiser of their own and of factories that take data are written
although they are defaults. -/
theorem default_written (eq : α → α → Except ε Bool) (n : String) (v : α) (d : Default α ε σ) (s : Sch α ε σ)
    (call : List (String × α) → σ → Except ε α × σ) (own : Bool) (st : σ) :
    dump eq true [⟨n, .ref own (.default false d s), v⟩] st = (.ok [(n, v)], st) ∧
    dump eq true [⟨n, .default true d s, v⟩] st = (.ok [(n, v)], st) ∧
    dump eq true [⟨n, .default false (.factoryOfData call) s, v⟩] st = (.ok [(n, v)], st) := ⟨rfl, rfl, rfl⟩

end PC.ExclDefault
