import Verif.Lemmas.SerExact
import Verif.Props.SerEngine

/-
What serialisation by a schema writes.
-/

namespace PC.Infer
open PC.Float (F64)
open PC.Filter (FVal Filt)

variable {α : Type}

/-! ### C79: values of the type of a schema are written as the schema says -/

/-- C79. A value of the type a schema describes is written by `to_json` as the document the schema, the field names and
aliases, and the arguments `by_alias`, `exclude_none` and `exclude_unset` say, without warnings, if definitions and
inferences nest in it no deeper than the limit; otherwise the error for depth is raised. -/
theorem to_json_exact {E : Env α} (hp : E.platform.Valid)
    (hid : ∀ a b, E.world.identity a = E.world.identity b → a = b) (hst : 0 < E.world.stack) {o : Opts} {x : Extra α}
    (hx : x.Fits o) {s : Schema α} {a : α} {d : Json} {h : Nat} (hw : Writes E o s a d h) (bottom : Recs α) (n : Nat)
    (hn : E.platform.limit < n) :
    (h ≤ E.platform.limit → ∃ st, toJson E bottom n s x a Option.none Option.none freshSt = (.ok d, st)
      ∧ st.warnings = [])
    ∧ (E.platform.limit < h → (toJson E bottom n s x a Option.none Option.none freshSt).1 = .error .depth) := by
  have h := exact_json (bottom := bottom) hp hid hst hw x n [] freshSt hx (by intro k hk; cases hk)
    (by intro k hk; cases hk) (Guard.good_init _) (by simpa using hn)
  refine ⟨fun hle => ?_, fun hlt => (h.2 (by simpa using hlt) trivial).1⟩
  obtain ⟨r, st, hr, rfl, _, hw⟩ := h.1 (by simpa using hle)
  exact ⟨st, hr, hw⟩

/-- C79, the other way to JSON: `to_python(mode='json')` gives the Python value of that document as read back, under the
conditions of C74. -/
theorem to_python_json_exact_partial {E : Env α} (hp : E.platform.Valid)
    (hid : ∀ a b, E.world.identity a = E.world.identity b → a = b) (ho : Ordinary E) {o : Opts} {x : Extra α}
    (hx : x.Fits o) {s : Schema α} (hfl : s.floatsOk E) (hs : SchemasOk E x)
    (hc : CallOk E s x Option.none Option.none) {a : α} {d : Json} {h : Nat} (hw : Writes E o s a d h)
    (hh : h ≤ E.platform.limit) (bottom : Recs α) (n : Nat) (hn : E.platform.limit < n) :
    ∃ y st, toPython E bottom n s x a Option.none Option.none freshSt = (.ok y, st) ∧ y.doc E.world = some d.norm
      ∧ st.warnings = [] := by
  obtain ⟨st, hj, hwn⟩ := (to_json_exact hp hid ho.stack hx hw bottom n hn).1 hh
  have := json_ways_agree_partial hp ho hfl hs hc bottom n hn a
  rw [hj] at this
  cases hy : toPython E bottom n s x a Option.none Option.none freshSt with
  | mk r st' =>
    rw [hy] at this
    cases r with
    | error e => exact this.elim
    | ok y => exact ⟨y, st', rfl, this.1, by rw [this.2]; exact hwn⟩

/-- C79, a value has only one such document. -/
theorem written_document_unique {E : Env α} {o : Opts} {s : Schema α} {a : α} {d d' : Json} {h h' : Nat}
    (hw : Writes E o s a d h) (hw' : Writes E o s a d' h') : d = d' := (writes_unique hw hw').1

section
open Demo

/-- The tree of two models: a number, and a list of models of the same class. -/
theorem tree_writes (b : Option Bool) (t : Text) (ht : t = if b = some false then "n".toList else "num".toList) :
    Writes (env (shapes table) tree) ⟨b, false, false⟩ tree 0
      (.obj [(t, .int 7), ("kids".toList, .arr [.obj [(t, .int 8), ("kids".toList, .arr [])]])]) 1 := by
  have leafW : Writes (env (shapes table) tree) ⟨b, false, false⟩ tree 6
      (.obj [(t, .int 8), ("kids".toList, .arr [])]) 0 := by
    refine .model (b := 7) rfl rfl (.fields (main := [(2, 8), (4, 9)]) rfl ?_)
    subst ht
    rcases b with _ | _ | _ <;>
      exact .field (t := "n".toList) (n := 0) (n' := 0) (info := field "n" (some "num")) (.inl rfl) rfl rfl (.int rfl)
        (.field (t := "kids".toList) (n := 0) (n' := 0) (info := field "kids" Option.none) (.inl rfl) rfl rfl
          (.list (xs := []) rfl .nil) .nil)
  refine .model (b := 1) rfl rfl (.fields (main := [(2, 3), (4, 5)]) rfl ?_)
  subst ht
  rcases b with _ | _ | _ <;>
    exact .field (t := "n".toList) (n := 0) (n' := 1) (info := field "n" (some "num")) (.inl rfl) rfl rfl (.int rfl)
      (.field (t := "kids".toList) (n := 1) (n' := 0) (info := field "kids" Option.none) (.inl rfl) rfl rfl
        (.list (xs := [6]) rfl (.cons (n := 1) (n' := 0) (.ref (by decide) leafW) .nil)) .nil)

/-- The alias is used if the argument says so, or the class does (here) and the argument says nothing. -/
example : let E := env (shapes table) tree
    E.platform.Valid ∧ (∀ a b, E.world.identity a = E.world.identity b → a = b) ∧ 0 < E.world.stack
      ∧ (∀ b, ({ extra .json .schemaBased with byAlias := b } : Extra Nat).Fits ⟨b, false, false⟩)
      ∧ (toJson E deadEnd 256 tree (extra .json .schemaBased) 0 Option.none Option.none freshSt).1
        = .ok (.obj [("num".toList, .int 7),
            ("kids".toList, .arr [.obj [("num".toList, .int 8), ("kids".toList, .arr [])]])])
      ∧ (toJson E deadEnd 256 tree { extra .json .schemaBased with byAlias := some false } 0 Option.none Option.none
          freshSt).1
        = .ok (.obj [("n".toList, .int 7),
            ("kids".toList, .arr [.obj [("n".toList, .int 8), ("kids".toList, .arr [])]])]) := by
  have hf : ∀ b, ({ extra .json .schemaBased with byAlias := b } : Extra Nat).Fits ⟨b, false, false⟩ :=
    fun b => ⟨rfl, rfl, rfl, rfl, rfl, rfl, rfl⟩
  have hid : ∀ a b, (env (shapes table) tree).world.identity a = (env (shapes table) tree).world.identity b → a = b :=
    fun _ _ h => h
  refine ⟨.inl ⟨rfl, rfl⟩, hid, by decide, hf, ?_, ?_⟩
  · obtain ⟨st, h, _⟩ := (to_json_exact (.inl ⟨rfl, rfl⟩) hid (by decide) (hf Option.none)
      (tree_writes Option.none _ rfl) deadEnd 256 (by decide)).1 (by decide)
    exact congrArg Prod.fst h
  · obtain ⟨st, h, _⟩ := (to_json_exact (.inl ⟨rfl, rfl⟩) hid (by decide) (hf (some false))
      (tree_writes (some false) _ rfl) deadEnd 256 (by decide)).1 (by decide)
    exact congrArg Prod.fst h

/-- The same by `to_python(mode='json')`. -/
example : let E := env (shapes table) tree
    ∃ y st, toPython E deadEnd 256 tree (extra .json .schemaBased) 0 Option.none Option.none freshSt = (.ok y, st)
      ∧ y.doc E.world = some (.obj [("num".toList, .int 7),
            ("kids".toList, .arr [.obj [("num".toList, .int 8), ("kids".toList, .arr [])]])]) := by
  obtain ⟨y, st, h, hd, _⟩ := to_python_json_exact_partial (E := env (shapes table) tree) (.inl ⟨rfl, rfl⟩)
    (fun _ _ h => h) (ordinary rfl tree) (x := extra .json .schemaBased) (o := ⟨Option.none, false, false⟩)
    ⟨rfl, rfl, rfl, rfl, rfl, rfl, rfl⟩ (s := tree) ⟨trivial, trivial, trivial⟩
    ⟨fun _ => ⟨trivial, trivial, trivial⟩, (by
      intro a c s h
      simp only [env, Except.ok.injEq, Prod.mk.injEq] at h
      obtain ⟨rfl, rfl⟩ := h
      exact ⟨⟨trivial, trivial, trivial⟩, .inl (by decide)⟩), .inl rfl⟩
    ⟨rfl, rfl, rfl, .inl (by decide), .inl ⟨rfl, rfl⟩, .inl rfl⟩ (tree_writes Option.none _ rfl) (by decide) deadEnd 256
    (by decide)
  exact ⟨y, st, h, hd⟩

/-- Models in models, one in the other, without end in the table: model `2 * n` holds model `2 * n - 2`. -/
def chain (a : Nat) : Shape Nat := if a % 2 = 0 then .pydantic else .none

/-- A class with one field, an optional instance of the class. -/
def link : Schema Nat := .nullable (.model "Link".toList 0 false true (.ref 0))

/-- The same objects, the root of object `a + 2` is `a`, and `1` is `None`. -/
def chainEnv : Env Nat := { env chain link with root := fun a => .ok (if a = 0 then 1 else a - 2) }

theorem chain_writes : ∀ n, Writes chainEnv ⟨Option.none, false, false⟩ link (2 * n) .null (n + 1)
  | 0 => .nullable (by simp [chainEnv, env, world, chain]) (.root (b := 1) (by simp [chainEnv]) (.ref (by decide) (.null rfl)))
  | n + 1 => by
    refine .nullable (by simp [chainEnv, env, world, chain]) (.root (b := 2 * n) ?_ (.ref (by decide) (chain_writes n)))
    simp [chainEnv, Nat.mul_add]

/-- Root models nested 255 deep are written, 256 deep they are refused. -/
example : (∃ st, toJson chainEnv deadEnd 256 link (extra .json .schemaBased) (2 * 254) Option.none Option.none freshSt
      = (.ok .null, st))
    ∧ (toJson chainEnv deadEnd 256 link (extra .json .schemaBased) (2 * 255) Option.none Option.none freshSt).1
      = .error .depth := by
  have h := fun n => to_json_exact (E := chainEnv) (.inl ⟨rfl, rfl⟩) (fun _ _ h => h) (by decide)
    (x := extra .json .schemaBased) ⟨rfl, rfl, rfl, rfl, rfl, rfl, rfl⟩ (chain_writes n) deadEnd 256 (by decide)
  obtain ⟨st, h1, _⟩ := (h 254).1 (by decide)
  exact ⟨⟨st, h1⟩, (h 255).2 (by decide)⟩

example : ∃ d, Writes (env (shapes table) tree) ⟨Option.none, false, false⟩ tree 0 d 1 ∧ ∀ d' h,
    Writes (env (shapes table) tree) ⟨Option.none, false, false⟩ tree 0 d' h → d' = d :=
  ⟨_, tree_writes Option.none _ rfl, fun _ _ hw => written_document_unique hw (tree_writes Option.none _ rfl)⟩

end

end PC.Infer
