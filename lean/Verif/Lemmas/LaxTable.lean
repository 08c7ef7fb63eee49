import Verif.Spec.LaxTable
import Verif.Props.Inputs
import Verif.Props.IntParse

/-
Lemmas for what lax mode accepts.
-/

namespace PC.In
open PC.Num PC.IntParse PC.Float

theorem lax_ok {β : Type} (c : Checked β) (v : β) (e : Exactness) :
    lax c = .ok (v, e) ↔ c = .ok v ∧ e = .lax := by
  cases c <;> simp [lax, eq_comm]

theorem intOut_ok (c : Checked Int) (v : IntOut) (e : Exactness) :
    intOut c = .ok (v, e) ↔ ∃ n, c = .ok n ∧ v = .int n ∧ e = .lax := by
  cases c <;> simp [intOut, eq_comm]

theorem extractI64_iff (n : Int) (i : Int64) : extractI64 n = some i ↔ -2 ^ 63 ≤ n ∧ n < 2 ^ 63 ∧ i.toInt = n := by
  constructor
  · intro h
    have hi := extractI64_some h
    unfold extractI64 at h
    split at h
    · rename_i hr
      have h1 : (-2 ^ 63 : Int) ≤ n := hr.1
      have h2 : n ≤ (2 ^ 63 - 1 : Int) := hr.2
      exact ⟨h1, by omega, hi⟩
    · cases h
  · rintro ⟨h1, h2, rfl⟩
    unfold extractI64
    rw [if_pos ⟨h1, by show _ ≤ (2 ^ 63 - 1 : Int); omega⟩, Int64.ofInt_toInt]

theorem intAsBool_ok (n : Int) (b : Bool) : intAsBool n = .ok b ↔ n = if b then 1 else 0 := by
  unfold intAsBool
  by_cases h0 : n = 0
  · subst h0; cases b <;> simp
  · by_cases h1 : n = 1
    · subst h1; cases b <;> simp
    · cases b <;> simp [h0, h1]

theorem asBool_i64 (n : Int) (h1 : -2 ^ 63 < n) (h2 : n < 2 ^ 63) (b : Bool) :
    (EitherInt.i64 (Int64.ofInt n)).asBool = some b ↔ n = if b then 1 else 0 := by
  have hn : (Int64.ofInt n).toInt = n :=
    Int64.toInt_ofInt_of_le (by simpa using Int.le_of_lt h1) (by simpa using h2)
  have e0 : Int64.ofInt n = 0 ↔ n = 0 :=
    ⟨fun h => by rw [← hn, h]; rfl, fun h => by rw [h]; rfl⟩
  have e1 : Int64.ofInt n = 1 ↔ n = 1 :=
    ⟨fun h => by rw [← hn, h]; rfl, fun h => by rw [h]; rfl⟩
  unfold EitherInt.asBool
  dsimp only
  by_cases h0 : n = 0
  · rw [if_pos (e0.2 h0), h0]; cases b <;> simp
  · rw [if_neg (fun h => h0 (e0.1 h))]
    by_cases h1 : n = 1
    · rw [if_pos (e1.2 h1), h1]; cases b <;> simp
    · rw [if_neg (fun h => h1 (e1.1 h))]; cases b <;> simp [h0, h1]

theorem boolOfNumber_ok (x : PyObj) (b : Bool) (e : Exactness) : boolOfNumber x = .ok (b, e) ↔
    e = .lax ∧ (x.index = some (if b then 1 else 0) ∨
      (∀ n, x.index = some n → ¬ (-2 ^ 63 ≤ n ∧ n < 2 ^ 63)) ∧
        ∃ f, x.float = some f ∧ f.value = some (if b then 1 else 0)) := by
  unfold boolOfNumber
  cases hx : x.index.bind extractI64 with
  | some i =>
    dsimp only
    rw [lax_ok, intAsBool_ok]
    cases hi : x.index with
    | none => rw [hi] at hx; cases hx
    | some n =>
      rw [hi] at hx
      obtain ⟨a, b', c⟩ := (extractI64_iff n i).1 hx
      rw [c]
      constructor
      · rintro ⟨h, rfl⟩; exact ⟨rfl, .inl (by rw [h])⟩
      · rintro ⟨rfl, h | h⟩
        · exact ⟨Option.some.inj h, rfl⟩
        · exact absurd ⟨a, b'⟩ (h.1 n rfl)
  | none =>
    dsimp only
    have hno : ∀ n, x.index = some n → ¬ (-2 ^ 63 ≤ n ∧ n < 2 ^ 63) := by
      intro n hn hr
      rw [hn] at hx
      have : extractI64 n = some (Int64.ofInt n) := (extractI64_iff n _).2 ⟨hr.1, hr.2, by
        exact Int64.toInt_ofInt_of_le (by simpa using hr.1) (by simpa using hr.2)⟩
      rw [Option.bind_some, this] at hx
      cases hx
    have hnot : ¬ x.index = some (if b then 1 else 0) := by
      intro h
      exact hno _ h (by cases b <;> decide)
    cases hf : x.float with
    | none =>
      constructor
      · intro h; cases h
      · rintro ⟨_, h | ⟨_, f, h, _⟩⟩
        · exact absurd h hnot
        · cases h
    | some f =>
      dsimp only
      cases hfi : floatAsInt f with
      | ok n =>
        obtain ⟨hv, h1, h2⟩ := (float_as_int_exact f n).1 hfi
        dsimp only
        have key : (∃ b', (EitherInt.i64 (Int64.ofInt n)).asBool = some b' ∧ b' = b) ↔ f.value = some (if b then 1 else 0) := by
          constructor
          · rintro ⟨_, h, rfl⟩
            rw [hv, (asBool_i64 n h1 h2 _).1 h]
            rename_i b'
            cases b' <;> rfl
          · intro h
            refine ⟨b, (asBool_i64 n h1 h2 b).2 ?_, rfl⟩
            rw [hv] at h
            cases b
            · exact Rat.intCast_inj.1 (Option.some.inj h)
            · exact Rat.intCast_inj.1 (Option.some.inj h)
        cases hb : (EitherInt.i64 (Int64.ofInt n)).asBool with
        | none =>
          rw [hb] at key
          constructor
          · intro h; cases h
          · rintro ⟨_, h | ⟨_, g, h, hg⟩⟩
            · exact absurd h hnot
            · cases h
              obtain ⟨_, h, _⟩ := key.2 hg
              cases h
        | some b' =>
          rw [hb] at key
          constructor
          · intro h
            cases h
            exact ⟨rfl, .inr ⟨hno, f, rfl, key.1 ⟨_, rfl, rfl⟩⟩⟩
          · rintro ⟨rfl, h | ⟨_, g, h, hg⟩⟩
            · exact absurd h hnot
            · cases h
              obtain ⟨_, h, rfl⟩ := key.2 hg
              cases h
              rfl
      | err t =>
        constructor
        · intro h; cases h
        · rintro ⟨_, h | ⟨_, g, h, hg⟩⟩
          · exact absurd h hnot
          · cases h
            have : floatAsInt f = .ok (if b then 1 else 0) := (float_as_int_exact f _).2
              ⟨by rw [hg]; cases b <;> rfl, by cases b <;> decide, by cases b <;> decide⟩
            rw [hfi] at this
            cases this
      | panic =>
        constructor
        · intro h; cases h
        · rintro ⟨_, h | ⟨_, g, h, hg⟩⟩
          · exact absurd h hnot
          · cases h
            have : floatAsInt f = .ok (if b then 1 else 0) := (float_as_int_exact f _).2
              ⟨by rw [hg]; cases b <;> rfl, by cases b <;> decide, by cases b <;> decide⟩
            rw [hfi] at this
            cases this

theorem maybeAsString_error (k : Kind) (u t : ErrType) (h : maybeAsString k u = .error t) :
    t = u ∨ t = .other "string_unicode" := by
  unfold maybeAsString at h
  split at h <;> first
    | cases h
    | skip
  all_goals first
    | exact .inl rfl
    | exact .inr rfl

end PC.In
