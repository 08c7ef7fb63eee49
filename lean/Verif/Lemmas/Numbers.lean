import Verif.Spec.Numbers

/-
Lemmas about integers in their several representations.
-/

namespace PC.Num

theorem extractI64_some {n : Int} {i : Int64} (h : extractI64 n = some i) : i.toInt = n := by
  unfold extractI64 at h
  by_cases hc : i64Min ≤ n ∧ n ≤ i64Max
  · rw [if_pos hc] at h
    cases h
    unfold i64Min i64Max at hc
    exact Int64.toInt_ofInt_of_le (by omega) (by omega)
  · rw [if_neg hc] at h; cases h

theorem asInt_val (e : EitherInt) : e.asInt.val = e.val := by
  cases e with
  | i64 i => rfl
  | big b => rfl
  | u64 u =>
    simp only [EitherInt.asInt]
    cases h : extractI64 (u.toNat : Int) with
    | none => rfl
    | some i => exact extractI64_some h
  | py n =>
    simp only [EitherInt.asInt, EitherInt.extractInt]
    cases h : extractI64 n with
    | none => rfl
    | some i => exact extractI64_some h

theorem cmp_val (a b : RInt) : a.cmp b = compare a.val b.val := by
  cases a <;> cases b <;> rfl

theorem gt_iff (a b : RInt) : a.gt b = true ↔ b.val < a.val := by
  simp [RInt.gt, cmp_val, Int.compare_eq_gt]

theorem lt_iff (a b : RInt) : a.lt b = true ↔ a.val < b.val := by
  simp [RInt.lt, cmp_val, Int.compare_eq_lt]

theorem ge_iff (a b : RInt) : a.ge b = true ↔ b.val ≤ a.val := by
  simp [RInt.ge, cmp_val, Int.compare_eq_gt]; omega

theorem le_iff (a b : RInt) : a.le b = true ↔ a.val ≤ b.val := by
  simp [RInt.le, cmp_val, Int.compare_eq_lt]; omega

theorem beq_zero_iff (a : RInt) : a.beq (.big 0) = true ↔ a.val = 0 := by
  simp [RInt.beq, cmp_val, RInt.val]

/-- When does the remainder panic? -/
theorem rem_none_iff (a b : RInt) : a.rem b = none ↔
    b.val = 0 ∨ (a = .i64 Int64.minValue ∧ b = .i64 (-1)) := by
  cases a with
  | i64 i =>
    cases b with
    | i64 j =>
      have hz : j = 0 ↔ j.toInt = 0 := by
        rw [← Int64.toInt_inj]; exact Iff.rfl
      simp only [RInt.rem]
      by_cases hc : j = 0 ∨ (i = Int64.minValue ∧ j = -1)
      · rw [if_pos hc]
        simp only [true_iff]
        rcases hc with hc | ⟨h1, h2⟩
        · exact .inl (hz.1 hc)
        · exact .inr ⟨by rw [h1], by rw [h2]⟩
      · rw [if_neg hc]
        simp only [reduceCtorEq, false_iff]
        intro h
        rcases h with h | ⟨h1, h2⟩
        · exact hc (.inl (hz.2 h))
        · cases h1; cases h2; exact hc (.inr ⟨rfl, rfl⟩)
    | big b =>
      unfold RInt.rem
      by_cases hc : b = 0 <;> simp [hc, RInt.val]
  | big a =>
    cases b with
    | i64 j =>
      unfold RInt.rem
      by_cases hc : j.toInt = 0 <;> simp [hc, RInt.val]
    | big b =>
      unfold RInt.rem
      by_cases hc : b = 0 <;> simp [hc, RInt.val]

theorem rem_some {a b r : RInt} (h : a.rem b = some r) : r.val = a.val.tmod b.val := by
  cases a <;> cases b <;> simp only [RInt.rem] at h <;> split at h <;> cases h <;>
    first
      | rfl
      | exact Int64.toInt_mod _ _

theorem upper_none (c : ConstrainedInt) (n : RInt) : c.upper n = none ↔
    (∀ b, c.le.map RInt.val = some b → n.val ≤ b) ∧ (∀ b, c.lt.map RInt.val = some b → n.val < b) := by
  have hlt : ConstrainedInt.upper.lt' c n = none ↔
      ∀ b, c.lt.map RInt.val = some b → n.val < b := by
    unfold ConstrainedInt.upper.lt'
    cases c.lt with
    | none => simp
    | some b =>
      by_cases h : n.ge b = true
      · simp [h]; exact (ge_iff n b).1 h
      · simp only [h]
        have := mt (ge_iff n b).2 h
        simp; omega
  unfold ConstrainedInt.upper
  cases hle : c.le with
  | none => simpa using hlt
  | some b =>
    by_cases h : n.gt b = true
    · have := (gt_iff n b).1 h
      simp [h]; intro h2; omega
    · have := mt (gt_iff n b).2 h
      simp only [h]
      simp
      rw [hlt]
      simp only [Option.map_eq_some_iff, forall_exists_index, and_imp, forall_apply_eq_imp_iff₂]
      constructor
      · intro h2; exact ⟨by omega, h2⟩
      · exact fun h2 => h2.2

theorem lower_none (c : ConstrainedInt) (n : RInt) : c.lower n = none ↔
    (∀ b, c.ge.map RInt.val = some b → b ≤ n.val) ∧ (∀ b, c.gt.map RInt.val = some b → b < n.val) := by
  have hgt : ConstrainedInt.lower.gt' c n = none ↔
      ∀ b, c.gt.map RInt.val = some b → b < n.val := by
    unfold ConstrainedInt.lower.gt'
    cases c.gt with
    | none => simp
    | some b =>
      by_cases h : n.le b = true
      · simp [h]; exact (le_iff n b).1 h
      · simp only [h]
        have := mt (le_iff n b).2 h
        simp; omega
  unfold ConstrainedInt.lower
  cases hge : c.ge with
  | none => simpa using hgt
  | some b =>
    by_cases h : n.lt b = true
    · have := (lt_iff n b).1 h
      simp [h]; intro h2; omega
    · have := mt (lt_iff n b).2 h
      simp only [h]
      simp
      rw [hgt]
      simp only [Option.map_eq_some_iff, forall_exists_index, and_imp, forall_apply_eq_imp_iff₂]
      constructor
      · intro h2; exact ⟨by omega, h2⟩
      · exact fun h2 => h2.2

theorem upper_some {c : ConstrainedInt} {n : RInt} {t : ErrType} (h : c.upper n = some t) :
    (t = .other "less_than_equal" ∧ ∃ b, c.le = some b ∧ b.val < n.val) ∨
    (t = .other "less_than" ∧ ∃ b, c.lt = some b ∧ b.val ≤ n.val) := by
  have hlt : ConstrainedInt.upper.lt' c n = some t →
      t = .other "less_than" ∧ ∃ b, c.lt = some b ∧ b.val ≤ n.val := by
    unfold ConstrainedInt.upper.lt'
    cases hc : c.lt with
    | none => intro h; cases h
    | some b =>
      by_cases hg : n.ge b = true
      · simp only [hg, if_true]; intro h; cases h; exact ⟨rfl, b, rfl, (ge_iff n b).1 hg⟩
      · simp only [hg]; intro h; cases h
  unfold ConstrainedInt.upper at h
  cases hle : c.le with
  | none => rw [hle] at h; exact .inr (hlt h)
  | some b =>
    rw [hle] at h
    by_cases hg : n.gt b = true
    · simp only [hg, if_true] at h; cases h; exact .inl ⟨rfl, b, rfl, (gt_iff n b).1 hg⟩
    · simp only [hg] at h; exact .inr (hlt h)

theorem lower_some {c : ConstrainedInt} {n : RInt} {t : ErrType} (h : c.lower n = some t) :
    (t = .other "greater_than_equal" ∧ ∃ b, c.ge = some b ∧ n.val < b.val) ∨
    (t = .other "greater_than" ∧ ∃ b, c.gt = some b ∧ n.val ≤ b.val) := by
  have hgt : ConstrainedInt.lower.gt' c n = some t →
      t = .other "greater_than" ∧ ∃ b, c.gt = some b ∧ n.val ≤ b.val := by
    unfold ConstrainedInt.lower.gt'
    cases hc : c.gt with
    | none => intro h; cases h
    | some b =>
      by_cases hg : n.le b = true
      · simp only [hg, if_true]; intro h; cases h; exact ⟨rfl, b, rfl, (le_iff n b).1 hg⟩
      · simp only [hg]; intro h; cases h
  unfold ConstrainedInt.lower at h
  cases hge : c.ge with
  | none => rw [hge] at h; exact .inr (hgt h)
  | some b =>
    rw [hge] at h
    by_cases hg : n.lt b = true
    · simp only [hg, if_true] at h; cases h; exact .inl ⟨rfl, b, rfl, (lt_iff n b).1 hg⟩
    · simp only [hg] at h; exact .inr (hgt h)

theorem bounds_ok (c : ConstrainedInt) (e : EitherInt) (n : RInt) :
    c.bounds e n = .ok e ↔ c.upper n = none ∧ c.lower n = none := by
  unfold ConstrainedInt.bounds
  cases c.upper n with
  | some t => simp
  | none => cases c.lower n <;> simp

theorem bounds_cases (c : ConstrainedInt) (e : EitherInt) (n : RInt) :
    c.bounds e n = .ok e ∨ ∃ t, c.bounds e n = .err t := by
  unfold ConstrainedInt.bounds
  cases c.upper n with
  | some t => exact .inr ⟨t, rfl⟩
  | none =>
    cases c.lower n with
    | some t => exact .inr ⟨t, rfl⟩
    | none => exact .inl rfl

theorem constraint_val (e : Option EitherInt) :
    (constraint e).map RInt.val = e.map EitherInt.val := by
  cases e with
  | none => rfl
  | some e => simp [constraint, asInt_val]

end PC.Num
