import Verif.Model.LaxThreads
import Verif.Spec.LaxRetry

/-
Threads that share a serialiser.
-/

namespace PC.LaxRetry

/-- The threads at the start. -/
def start (xs : List Ser) : List Thread × Caches := (xs.map Thread.asking, .new)

/-- The reference whose flag is to be reset after a frame. -/
def Frame.holds : Frame → List Nat
  | .orElse _ => []
  | .store i => [i]
  | .reset i => [i]

/-- The references whose flag a thread has set and not yet reset. -/
def Thread.holds (t : Thread) : List Nat :=
  (match t.focus with | .enter i => [i] | _ => []) ++ t.stack.flatMap Frame.holds

end PC.LaxRetry
