import Verif.Spec.ErrorNew
import Verif.Props.Report

/-
Lemmas for C108.
-/

namespace PC.Report
open PC.Infer (Text)
open PC.JsonText (Doc)

theorem asText_iff (E : Env) (o : Obj) (t : Text) : asText E o = some t ↔ GivesText E o t := by
  unfold GivesText
  cases o <;> simp [asText]

theorem asF64_iff (E : Env) (o : Obj) (f : PC.Float.F64) : asF64 E o = some f ↔ GivesFloat E o f := by
  unfold GivesFloat
  cases o <;> simp [asF64]

theorem asInt_iff (E : Env) (r : Int → Bool) (o : Obj) (i : Int) :
    asInt E r o = some i ↔ GivesInt E o i ∧ r i = true := by
  unfold GivesInt
  cases o with
  | int j =>
    simp only [asInt, Obj.int.injEq, reduceCtorEq, false_and, exists_false, or_false]
    by_cases h : r j = true
    · rw [if_pos h]
      constructor
      · intro hj; injection hj with hj; subst hj; exact ⟨rfl, h⟩
      · rintro ⟨rfl, _⟩; rfl
    · rw [if_neg h]
      constructor
      · intro hj; cases hj
      · rintro ⟨rfl, hr⟩; exact absurd hr h
  | other n =>
    simp only [asInt, Option.filter_eq_some_iff, reduceCtorEq, false_or, Obj.other.injEq, exists_eq_left']
  | none => simp [asInt]
  | str t => simp [asInt]
  | float f => simp [asInt]

theorem asI64_eq (E : Env) (o : Obj) : asI64 E o = asInt E isI64 o := by cases o <;> rfl

theorem isI64_iff (i : Int) : isI64 i = true ↔ -9223372036854775808 ≤ i ∧ i ≤ 9223372036854775807 := by
  unfold isI64
  rw [Bool.and_eq_true, decide_eq_true_iff, decide_eq_true_iff]
  constructor <;> rintro ⟨h1, h2⟩ <;> constructor <;> omega

theorem isI32_iff (i : Int) : isI32 i = true ↔ -2147483648 ≤ i ∧ i ≤ 2147483647 := by
  unfold isI32
  rw [Bool.and_eq_true, decide_eq_true_iff, decide_eq_true_iff]
  constructor <;> rintro ⟨h1, h2⟩ <;> constructor <;> omega

theorem isU64_iff (i : Int) : isU64 i = true ↔ 0 ≤ i ∧ i < 18446744073709551616 := by
  unfold isU64
  rw [Bool.and_eq_true, decide_eq_true_iff, decide_eq_true_iff]
  constructor <;> rintro ⟨h1, h2⟩ <;> constructor <;> omega

theorem asU64_iff (E : Env) (o : Obj) (n : Nat) :
    (asInt E isU64 o).map Int.toNat = some n ↔ GivesInt E o n ∧ n < 18446744073709551616 := by
  rw [Option.map_eq_some_iff]
  constructor
  · rintro ⟨i, hi, rfl⟩
    obtain ⟨h1, h2⟩ := (asInt_iff ..).1 hi
    obtain ⟨h3, h4⟩ := (isU64_iff i).1 h2
    rw [Int.toNat_of_nonneg h3]
    exact ⟨h1, by omega⟩
  · rintro ⟨h1, h2⟩
    exact ⟨n, (asInt_iff ..).2 ⟨h1, (isU64_iff _).2 ⟨by omega, by omega⟩⟩, by simp⟩

theorem asI64_none (E : Env) (o : Obj) : asI64 E o = Option.none ↔
    ∀ i, GivesInt E o i → i < -9223372036854775808 ∨ 9223372036854775807 < i := by
  rw [asI64_eq]
  constructor
  · intro h i hi
    by_cases hr : isI64 i = true
    · have := (asInt_iff E isI64 o i).2 ⟨hi, hr⟩
      rw [h] at this; cases this
    · rw [isI64_iff] at hr; omega
  · intro h
    cases hx : asInt E isI64 o with
    | none => rfl
    | some i =>
      obtain ⟨h1, h2⟩ := (asInt_iff ..).1 hx
      have := h i h1
      rw [isI64_iff] at h2
      omega

theorem fieldFromContext_iff (E : Env) (ctx : Option Dict) (k : Text) (ty : Ty) (v : Val) :
    fieldFromContext E ctx k ty = .ok v ↔
      ∃ d o, ctx = some d ∧ getItem d (.str k) = some o ∧ ty.extract E o = some v := by
  unfold fieldFromContext
  cases ctx with
  | none => simp
  | some d =>
    dsimp only
    cases hg : getItem d (.str k) with
    | none => simp [hg]
    | some o =>
      dsimp only
      cases he : ty.extract E o with
      | none => simp [hg, he]
      | some w => simp [hg, he]

theorem fieldFromContext_error (E : Env) (ctx : Option Dict) (k : Text) (ty : Ty) (x : Exc)
    (h : fieldFromContext E ctx k ty = .error x) : x = .typeError k := by
  unfold fieldFromContext at h
  repeat' split at h
  all_goals first
    | (cases h; rfl)
    | cases h

theorem excShown_iff (x : Exc) (t : Text) : x.text = t ↔ ExcShown x t := by
  constructor
  · rintro rfl; cases x <;> constructor
  · intro h; cases h <;> rfl

end PC.Report
