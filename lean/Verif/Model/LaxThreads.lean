import Verif.Model.LaxRetry

/-
Model of `retry_with_lax_check` when several threads use one serialiser: the steps of
`RecursionSafeCache::get_or_init` (`src/definitions.rs` 223-241) in any order. The module can be used without a
global lock (`src/lib.rs` 109: `gil_used = false`).
-/

namespace PC.LaxRetry

/-- What a thread is to do when it has an answer: ask the second of two serialisers if it is no
(`src/serializers/type_serializers/union.rs` 184-186), store it as that of the reference `i`
(`OnceLock::get_or_init`, `src/definitions.rs` 238), reset the flag of `i` (`src/definitions.rs` 239). -/
inductive Frame where
  | orElse (b : Ser)
  | store (i : Nat)
  | reset (i : Nat)
deriving DecidableEq, Repr

/-- What a thread does next: ask a serialiser (for a reference: look into the cache, `src/definitions.rs`
227-229), try to set the flag of the reference `i` (231-235), look into its cache again and compute if there is
nothing (238), or go on with an answer. -/
inductive Focus where
  | eval (x : Ser)
  | tryFlag (i : Nat)
  | enter (i : Nat)
  | answer (b : Bool)
deriving DecidableEq, Repr

/-- A thread: what it does and what is left to do after that. -/
structure Thread where
  focus : Focus
  stack : List Frame
deriving DecidableEq, Repr

/-- A thread that asks a serialiser: `src/serializers/shared.rs` 309-312. -/
def Thread.asking (x : Ser) : Thread := ⟨.eval x, []⟩

/-- One step of a thread; `none` if it has its answer: `src/definitions.rs` 223-241 and
`src/serializers/type_serializers/definitions.rs` 126-130. Every load, store and `compare_exchange` is a step of its
own (they are sequentially consistent). `OnceLock::get_or_init` would wait if another thread were computing the
same value; that this does not happen is proved (`one_computation`). -/
def Thread.step (body : Nat → Ser) (t : Thread) (s : Caches) : Option (Thread × Caches) :=
  match t.focus, t.stack with
  | .eval (.leaf b), st => some (⟨.answer b, st⟩, s)
  | .eval (.or a b), st => some (⟨.eval a, .orElse b :: st⟩, s)
  | .eval (.ref i), st =>
    match s.cached i with
    | some b => some (⟨.answer b, st⟩, s)
    | none => some (⟨.tryFlag i, st⟩, s)
  | .tryFlag i, st =>
    if i ∈ s.busy then some (⟨.answer false, st⟩, s)
    else some (⟨.enter i, st⟩, { s with busy := i :: s.busy })
  | .enter i, st =>
    match s.cached i with
    | some b => some (⟨.answer b, .reset i :: st⟩, s)
    | none => some (⟨.eval (body i), .store i :: st⟩, s)
  | .answer _, [] => none
  | .answer b, .orElse x :: st => if b then some (⟨.answer true, st⟩, s) else some (⟨.eval x, st⟩, s)
  | .answer b, .store i :: st => some (⟨.answer b, .reset i :: st⟩, s.set i b)
  | .answer b, .reset i :: st => some (⟨.answer b, st⟩, { s with busy := s.busy.erase i })

/-- Any thread takes a step: threads run in any order (free-threaded Python, `src/lib.rs` 109). -/
inductive Step (body : Nat → Ser) : List Thread × Caches → List Thread × Caches → Prop
  | step {ts : List Thread} {s : Caches} (n : Nat) (t t' : Thread) (s' : Caches) :
      ts[n]? = some t → t.step body s = some (t', s') → Step body (ts, s) (ts.set n t', s')

/-- Any number of steps: `src/lib.rs` 109. -/
inductive Steps (body : Nat → Ser) : List Thread × Caches → List Thread × Caches → Prop
  | refl {c} : Steps body c c
  | tail {c d e} : Steps body c d → Step body d e → Steps body c e

end PC.LaxRetry
