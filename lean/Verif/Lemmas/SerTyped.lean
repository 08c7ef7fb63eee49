import Verif.Spec.SerTyped
import Verif.Lemmas.SerExact

/-
Lemmas about the serialisers of scalars and the schemas that have no serialiser of their own.
-/

namespace PC.Infer
open PC.Filter (FVal)

variable {α : Type}

theorem onFallback_warns {W : World α} {a : α} (h : W.shape a ≠ .none) {x : Extra α} (hc : x.check = .none)
    (name : Text) (st : St) : onFallback W name x a st = (.ok (), st.warned name) := by
  simp [onFallback, isNone_ne h, hc, St.warned]

theorem onFallback_refuses {W : World α} {a : α} (h : W.shape a ≠ .none) {x : Extra α} (hc : x.check ≠ .none)
    (name : Text) (st : St) : onFallback W name x a st = (.error .unexpected, st) := by
  simp [onFallback, isNone_ne h, hc]

/-- The serialiser of a value that is not of its type is the fallback. -/
theorem isNot_json {E : Env α} {l : Leaf} {name : Text} {a : α} (h : IsNot E l name a) (R : Recs α) (x : Extra α)
    (incl excl : Option FVal) : (leafSer E R l).json x a incl excl = fallbackJson E R name x a incl excl := by
  funext st
  cases h with
  | none h => simp [leafSer, noneSer, isNone_ne h]
  | bool h hc => simp [leafSer, simpleJson, hc]
  | int h hc => simp [leafSer, simpleJson, hc]
  | float h hc => simp [leafSer, simpleJson, hc]
  | str h hc => simp [leafSer, strSerJson, hc]
  | bytes h => simp [leafSer, bytesJson, h]
  | datetime h => simp only [leafSer, textJson, h]; rfl
  | date h => simp only [leafSer, textJson, h]; rfl
  | time h => simp only [leafSer, textJson, h]; rfl
  | url h => simp only [leafSer, textJson, h]; rfl
  | multiHostUrl h => simp only [leafSer, textJson, h]; rfl
  | timedelta h => simp [leafSer, timedeltaSer, h]
  | decimal h => simp [leafSer, decimalSer, h]
  | enum h => simp [leafSer, enumSer, h]
  | enumOf h => simp [leafSer, enumSer, h]

theorem isNot_py {E : Env α} {l : Leaf} {name : Text} {a : α} (h : IsNot E l name a) (R : Recs α) (x : Extra α)
    (hm : x.mode = .json ∨ ∀ m, l ≠ .timedelta m) (incl excl : Option FVal) :
    (leafSer E R l).py x a incl excl = fallbackPy E R name x a incl excl := by
  funext st
  cases h with
  | none h => simp [leafSer, noneSer, isNone_ne h]
  | bool h hc => simp [leafSer, simplePy, h]
  | int h hc => simp [leafSer, simplePy, h]
  | float h hc => simp [leafSer, simplePy, h]
  | str h hc => simp [leafSer, strPy, h]
  | bytes h => simp [leafSer, bytesPy, h]
  | datetime h => simp only [leafSer, textPy, h]; rfl
  | date h => simp only [leafSer, textPy, h]; rfl
  | time h => simp only [leafSer, textPy, h]; rfl
  | url h => simp only [leafSer, textPy, h]; rfl
  | multiHostUrl h => simp only [leafSer, textPy, h]; rfl
  | timedelta h =>
    rcases hm with hm | hm
    · simp [leafSer, timedeltaSer, h, hm]
    · exact absurd rfl (hm _)
  | decimal h => simp [leafSer, decimalSer, h]
  | enum h => simp [leafSer, enumSer, h]
  | enumOf h => simp [leafSer, enumSer, h]

theorem isNot_key {E : Env α} {l : Leaf} {name : Text} {a : α} (h : IsNot E l name a) (x : Extra α) :
    leafKey E l x a = fallbackKey E name x a := by
  funext st
  cases h with
  | none h => simp [leafKey, isNone_ne h]
  | bool h hc => simp [leafKey, h]
  | int h hc => simp [leafKey, h]
  | float h hc => simp [leafKey, h]
  | str h hc => simp [leafKey, hc]
  | bytes h => simp [leafKey, h]
  | datetime h => simp only [leafKey, h]; rfl
  | date h => simp only [leafKey, h]; rfl
  | time h => simp only [leafKey, h]; rfl
  | url h => simp only [leafKey, h]; rfl
  | multiHostUrl h => simp only [leafKey, h]; rfl
  | timedelta h => simp [leafKey, h]
  | decimal h => simp [leafKey, h]
  | enum h => simp [leafKey, enumKey, h]
  | enumOf h => simp [leafKey, enumKey, h]

/-- Whether the check of a literal refuses. -/
theorem literalRest_fallback {E : Env α} {l : LiteralInfo} {a : α} {r : LiteralOut}
    (h : literalRest E l a = .ok r) :
    r = .fallback ↔ ¬ ((∃ t, E.asStr a = some (.utf8 t) ∧ t ∈ l.strs) ∨ ∃ n, l.others = some n ∧ E.among n a = .ok true) := by
  unfold literalRest literalOthers at h
  cases hs : E.asStr a with
  | none =>
    rw [hs] at h
    cases ho : l.others with
    | none =>
      rw [ho] at h
      simp at h
      simp [← h]
    | some n =>
      rw [ho] at h
      dsimp only at h
      cases hn : E.among n a with
      | error e => rw [hn] at h; simp at h
      | ok b =>
        rw [hn] at h
        cases b <;> simp at h <;> simp [← h, hn]
  | some s =>
    rw [hs] at h
    cases s with
    | lone q =>
      by_cases he : l.strs.isEmpty = true
      · rw [if_pos he] at h
        cases ho : l.others with
        | none =>
          rw [ho] at h
          simp at h
          simp [← h]
        | some n =>
          rw [ho] at h
          dsimp only at h
          cases hn : E.among n a with
          | error e => rw [hn] at h; simp at h
          | ok b =>
            rw [hn] at h
            cases b <;> simp at h <;> simp [← h, hn]
      · rw [if_neg he] at h
        simp at h
    | utf8 t =>
      by_cases hm : t ∈ l.strs
      · have he : l.strs.isEmpty = false := by
          cases hl : l.strs with
          | nil => rw [hl] at hm; cases hm
          | cons => rfl
        simp [he, hm] at h
        simp [← h, hm]
      · have hc : l.strs.contains t = false := by simpa using hm
        simp only [hc, Bool.false_eq_true, if_false, ite_self] at h
        cases ho : l.others with
        | none =>
          rw [ho] at h
          simp at h
          simp [← h, hm]
        | some n =>
          rw [ho] at h
          dsimp only at h
          cases hn : E.among n a with
          | error e => rw [hn] at h; simp at h
          | ok b =>
            rw [hn] at h
            cases b <;> simp at h <;> simp [← h, hn, hm]

theorem literalCheck_fallback {E : Env α} {l : LiteralInfo} {x : Extra α} (hc : x.check ≠ .none) {a : α}
    {r : LiteralOut} (h : literalCheck E l x a = .ok r) : r = .fallback ↔ ¬ Expected E l a := by
  unfold literalCheck at h
  rw [if_pos hc] at h
  have hrest : ∀ (_ : ¬ ∃ i, E.extractI64 a = some i ∧ i ∈ l.ints ∧ E.isType .bool a = .no)
      (_ : literalRest E l a = .ok r), r = .fallback ↔ ¬ Expected E l a := by
    intro hn hr
    rw [literalRest_fallback hr, Expected]
    constructor
    · intro h h'
      exact h'.elim hn h
    · intro h h'
      exact h (.inr h')
  by_cases hb : (!l.ints.isEmpty && E.isType .bool a = .no) = true
  · rw [if_pos hb] at h
    have hb' : E.isType .bool a = .no := by simp at hb; exact hb.2
    cases hi : E.extractI64 a with
    | none =>
      rw [hi] at h
      exact hrest (by simp [hi]) h
    | some i =>
      rw [hi] at h
      dsimp only at h
      by_cases hm : i ∈ l.ints
      · simp [hm] at h
        subst h
        simp [Expected, hi, hm, hb']
      · have hm' : l.ints.contains i = false := by simpa using hm
        rw [hm'] at h
        exact hrest (by simp [hi, hm]) h
  · rw [if_neg hb] at h
    refine hrest ?_ h
    rintro ⟨i, hi, hm, hno⟩
    apply hb
    simp only [hno]
    cases hl : l.ints with
    | nil => rw [hl] at hm; cases hm
    | cons => simp

/-! ### Schemas without serialiser -/

theorem lowerLast_append (s : Src α) : ∀ ss : List (Src α), Src.lowerLast (ss ++ [s]) = s.lower
  | [] => by simp [Src.lowerLast]
  | [t] => by simp [Src.lowerLast]
  | t :: u :: ss => by
    have := lowerLast_append s (u :: ss)
    simpa [Src.lowerLast] using this

mutual
theorem lower_panic : ∀ s : Src α, s.lower = .panic → EmptyChain s
  | .base _, h => by cases h
  | .chain steps, h => lowerLast_panic steps h
  | .customError s, h => .customError (lower_panic s h)
  | .call Option.none, h => by cases h
  | .call (some s), h => .call (lower_panic s h)
  | .laxOrStrict _ s, h => .strict (lower_panic s h)
  | .arguments, h => by cases h
  | .isInstance, h => by cases h
  | .isSubclass, h => by cases h
  | .callable, h => by cases h
  | .withDefault s, h => .default (lower_panic s h)
theorem lowerLast_panic : ∀ ss : List (Src α), Src.lowerLast ss = .panic → EmptyChain (.chain ss)
  | [], _ => .here
  | [s], h => .last (ss := []) (lower_panic s h)
  | t :: s :: ss, h => by
    have := lowerLast_panic (s :: ss) h
    generalize hl : s :: ss = l at this
    cases this with
    | here => cases hl
    | last h => exact .last (ss := t :: _) h
end

theorem emptyChain_panics {s : Src α} (h : EmptyChain s) : s.lower = .panic := by
  induction h with
  | here => simp [Src.lower, Src.lowerLast]
  | last h ih => rw [Src.lower, lowerLast_append, ih]
  | _ h ih => simpa [Src.lower] using ih

end PC.Infer
