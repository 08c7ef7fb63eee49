import Verif.Model.DateTime

/-
What the temporal conversions should mean.
-/

namespace PC.Time
open PC.Num PC.Float

/-- A `timedelta` Python can hold: seconds and microseconds are in range. -/
def Delta.Valid (d : Delta) : Prop :=
  -999999999 ≤ d.days ∧ d.days ≤ 999999999 ∧ 0 ≤ d.seconds ∧ d.seconds < 86400 ∧
  0 ≤ d.microseconds ∧ d.microseconds < 1000000

/-- The rounded product with a million is within one microsecond of the exact product. -/
def MulMillion.Good (mul : MulMillion) : Prop :=
  ∀ n k, n < 2 ^ k →
    mul n k * 2 ^ k < 1000000 * n + 2 ^ k ∧ 1000000 * n < mul n k * 2 ^ k + 2 ^ k

/-- `us` microseconds are within one microsecond of `num / 2^k` seconds. -/
def Near (us num : Int) (k : Nat) : Prop :=
  us * 2 ^ k < 1000000 * num + 2 ^ k ∧ 1000000 * num < us * 2 ^ k + 2 ^ k

/-- speedate reads a timestamp of at most 2·10^10 seconds (beyond that it takes it for
milliseconds) as the instant that many seconds and microseconds after the epoch; `instant` gives
the microseconds since the epoch of a UTC datetime. -/
def Speedate.Counts (sp : Speedate) (instant : DateTime → Int) : Prop :=
  ∀ s us dt, -20000000000 ≤ s → s ≤ 20000000000 → sp.fromTimestamp s us = some dt →
    instant dt = s * 1000000 + us

/-- What a time zone constraint asks for. -/
def TzConstraint.Allows : TzConstraint → Option Int → Prop
  | .naive, tz => tz = none
  | .aware none, tz => tz ≠ none
  | .aware (some e), tz => tz = some e

/-- What the constraints of a date, time or datetime schema ask for: each bound given holds in the
order `cmp` (where values may be incomparable), the value is before (after) now, and has the
required kind of time zone.  Incomparable with now is allowed. -/
structure Constraints.Holds {α : Type} (c : Constraints α) (cmp : α → α → Option Ordering)
    (tzOf : α → Option Int) (a : α) : Prop where
  le : ∀ b, c.le = some b → cmp a b = some .lt ∨ cmp a b = some .eq
  lt : ∀ b, c.lt = some b → cmp a b = some .lt
  ge : ∀ b, c.ge = some b → cmp a b = some .gt ∨ cmp a b = some .eq
  gt : ∀ b, c.gt = some b → cmp a b = some .gt
  past : ∀ n, c.now = some (.past, n) → cmp a n = some .lt ∨ cmp a n = none
  future : ∀ n, c.now = some (.future, n) → cmp a n = some .gt ∨ cmp a n = none
  tz : ∀ t, c.tz = some t → t.Allows (tzOf a)

/-- Midnight in any time zone. -/
def Time.IsMidnight (t : Time) : Prop :=
  t.hour = 0 ∧ t.minute = 0 ∧ t.second = 0 ∧ t.microsecond = 0

end PC.Time
