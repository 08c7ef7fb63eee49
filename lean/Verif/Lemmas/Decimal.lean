import Verif.Spec.Decimal
import Mathlib.Tactic.Linarith
import Mathlib.Tactic.FieldSimp
import Mathlib.Tactic.Ring
import Mathlib.Tactic.Positivity
import Mathlib.Tactic.Push
import Mathlib.Algebra.Order.Field.Power

/-
Lemmas about decimals.
-/

namespace PC.Decimal

theorem numDigits_le {c n : Nat} (hc : c ≠ 0) : numDigits c ≤ n ↔ c < 10 ^ n := by
  rw [numDigits, Nat.succ_le_iff]
  exact Nat.log_lt_iff_lt_pow (by decide) hc

theorem pow_pos10 (n : Nat) : (0 : ℚ) < 10 ^ n := by positivity

/-- The exponent is not negative, or it is. -/
theorem exp_cases (e : Int) : (∃ k : Nat, e = k) ∨ ∃ k : Nat, 0 < k ∧ e = -k := by
  rcases le_or_gt 0 e with h | h
  · exact .inl ⟨e.toNat, by omega⟩
  · exact .inr ⟨(-e).toNat, by omega, by omega⟩

theorem info_nonneg (c k : Nat) : digitsInfo c (k : Int) = (0, numDigits c + k) := by
  rw [digitsInfo, if_pos (by omega)]; simp

theorem info_neg (c : Nat) {k : Nat} (hk : 0 < k) : digitsInfo c (-(k : Int)) = (k, max (numDigits c) k) := by
  rw [digitsInfo, if_neg (by omega)]; simp

/-- `c / 10^k` times `10^p` is an integer: the fraction has at most `p` places if `c` does not end in zero. -/
theorem whole_of_int {c k p : Nat} (hc : c % 10 ≠ 0) {n : ℤ} (h : (c : ℚ) / 10 ^ k * 10 ^ p = n) : k ≤ p := by
  by_contra hp
  obtain ⟨j, rfl⟩ : ∃ j, k = p + 1 + j := ⟨k - p - 1, by omega⟩
  have h2 : (c : ℚ) = n * 10 * 10 ^ j := by
    have := pow_pos10 p
    rw [← h]
    field_simp
    ring
  have h3 : (c : ℤ) = n * 10 * 10 ^ j := by exact_mod_cast h2
  have : (10 : ℤ) ∣ c := ⟨n * 10 ^ j, by rw [h3]; ring⟩
  omega

section
variable {c : Nat} {e : Int}

theorem places_of_le {p : Nat} (h : (digitsInfo c e).1 ≤ p) : Places p (c * 10 ^ e) := by
  rcases exp_cases e with ⟨k, rfl⟩ | ⟨k, hk, rfl⟩
  · exact ⟨c * 10 ^ k * 10 ^ p, by push_cast; rw [zpow_natCast]⟩
  · rw [info_neg c hk] at h
    obtain ⟨j, rfl⟩ : ∃ j, p = k + j := ⟨p - k, by dsimp only at h; omega⟩
    refine ⟨c * 10 ^ j, ?_⟩
    have := pow_pos10 k
    rw [zpow_neg, zpow_natCast]
    push_cast
    field_simp
    ring

theorem places_iff {p : Nat} (hc : c % 10 ≠ 0) : Places p (c * 10 ^ e) ↔ (digitsInfo c e).1 ≤ p := by
  refine ⟨fun ⟨n, h⟩ => ?_, places_of_le⟩
  rcases exp_cases e with ⟨k, rfl⟩ | ⟨k, hk, rfl⟩
  · rw [info_nonneg]; exact Nat.zero_le _
  · rw [info_neg c hk]
    rw [zpow_neg, zpow_natCast, ← div_eq_mul_inv] at h
    exact whole_of_int hc h

theorem whole_iff {w : Nat} (hc : c ≠ 0) : (c * 10 ^ e : ℚ) < 10 ^ w ↔ (digitsInfo c e).2 - (digitsInfo c e).1 ≤ w := by
  rcases exp_cases e with ⟨k, rfl⟩ | ⟨k, hk, rfl⟩
  · rw [info_nonneg, zpow_natCast]
    have h1 : ((c : ℚ) * 10 ^ k < 10 ^ w) ↔ c * 10 ^ k < 10 ^ w := by exact_mod_cast Iff.rfl
    rw [h1]
    dsimp only
    constructor
    · intro h
      by_contra hw
      have h2 : 10 ^ w ≤ 10 ^ (numDigits c - 1 + k) := Nat.pow_le_pow_right (by decide) (by omega)
      have h3 : 10 ^ (numDigits c - 1) ≤ c := by
        rw [numDigits, Nat.add_sub_cancel]; exact Nat.pow_log_le_self _ hc
      have h4 : 10 ^ (numDigits c - 1 + k) ≤ c * 10 ^ k := by rw [pow_add]; exact Nat.mul_le_mul_right _ h3
      omega
    · intro h
      have h2 : c < 10 ^ numDigits c := (numDigits_le hc).1 le_rfl
      have h3 : c * 10 ^ k < 10 ^ (numDigits c + k) := by
        rw [pow_add]; exact Nat.mul_lt_mul_of_pos_right h2 (Nat.pow_pos (by decide))
      exact lt_of_lt_of_le h3 (Nat.pow_le_pow_right (by decide) (by omega))
  · rw [info_neg c hk, zpow_neg, zpow_natCast, ← div_eq_mul_inv, div_lt_iff₀ (pow_pos10 k), ← pow_add]
    have h1 : ((c : ℚ) < 10 ^ (w + k)) ↔ c < 10 ^ (w + k) := by exact_mod_cast Iff.rfl
    rw [h1, ← numDigits_le hc]
    dsimp only
    omega

theorem digits_of_le {m : Nat} (hc : c ≠ 0) (h : (digitsInfo c e).2 ≤ m) : Digits m (c * 10 ^ e) := by
  rcases exp_cases e with ⟨k, rfl⟩ | ⟨k, hk, rfl⟩
  · refine ⟨c * 10 ^ k, 0, Nat.zero_le _, ?_, by push_cast; rw [zpow_natCast]; ring⟩
    rw [abs_of_nonneg (by positivity)]
    have h2 : (c * 10 ^ (k : ℤ) : ℚ) < 10 ^ m := (whole_iff hc).2 (by rw [info_nonneg] at h ⊢; exact h)
    rw [zpow_natCast] at h2
    exact_mod_cast h2
  · rw [info_neg c hk] at h
    dsimp only at h
    refine ⟨c, k, by omega, ?_, ?_⟩
    · rw [abs_of_nonneg (by positivity)]
      exact_mod_cast (numDigits_le hc).1 (by omega : numDigits c ≤ m)
    · have := pow_pos10 k
      rw [zpow_neg, zpow_natCast]
      push_cast
      field_simp

theorem digits_iff {m : Nat} (hc : c % 10 ≠ 0) : Digits m (c * 10 ^ e) ↔ (digitsInfo c e).2 ≤ m := by
  have hc0 : c ≠ 0 := by rintro rfl; exact hc rfl
  refine ⟨fun ⟨n, j, hj, hn, h⟩ => ?_, digits_of_le hc0⟩
  have hpos : (0 : ℚ) ≤ c * 10 ^ e := by positivity
  have hle : (c * 10 ^ e : ℚ) * 10 ^ j < 10 ^ m := by
    rw [h]
    have : n < 10 ^ m := lt_of_le_of_lt (le_abs_self n) hn
    exact_mod_cast this
  rcases exp_cases e with ⟨k, rfl⟩ | ⟨k, hk, rfl⟩
  · have h1 : (1 : ℚ) ≤ 10 ^ j := one_le_pow₀ (by norm_num)
    have h2 : (c * 10 ^ (k : ℤ) : ℚ) < 10 ^ m := lt_of_le_of_lt (le_mul_of_one_le_right hpos h1) hle
    have h3 := (whole_iff hc0).1 h2
    rw [info_nonneg] at h3 ⊢
    exact h3
  · rw [zpow_neg, zpow_natCast, ← div_eq_mul_inv] at h hle
    have hkj := whole_of_int hc h
    rw [info_neg c hk]
    dsimp only
    refine max_le ?_ (by omega)
    rw [numDigits_le hc0]
    obtain ⟨i, rfl⟩ : ∃ i, j = k + i := ⟨j - k, by omega⟩
    have h1 : (c : ℚ) / 10 ^ k * 10 ^ (k + i) = c * 10 ^ i := by
      have := pow_pos10 k
      field_simp
      ring
    rw [h1] at hle
    have h2 : (1 : ℚ) ≤ 10 ^ i := one_le_pow₀ (by norm_num)
    have h3 : (c : ℚ) < 10 ^ m := lt_of_le_of_lt (le_mul_of_one_le_right (by positivity) h2) hle
    exact_mod_cast h3

end

theorem strip_spec (c : Nat) (e : Int) (hc : c ≠ 0) : (strip c e).1 % 10 ≠ 0 ∧
    ((strip c e).1 * 10 ^ (strip c e).2 : ℚ) = c * 10 ^ e := by
  induction c using Nat.strong_induction_on generalizing e with
  | _ c ih =>
    rw [strip, dif_neg hc]
    split
    · rename_i h
      have h10 : c / 10 ≠ 0 := by omega
      obtain ⟨h1, h2⟩ := ih (c / 10) (by omega) (e + 1) h10
      refine ⟨h1, ?_⟩
      rw [h2]
      have : (c : ℚ) = ((c / 10 : Nat) : ℚ) * 10 := by
        have : c = c / 10 * 10 := by omega
        exact_mod_cast this
      rw [this, zpow_add₀ (by norm_num)]
      ring
    · exact ⟨‹_›, rfl⟩

theorem fix_holds {ctx : Context} {c : Nat} {e : Int} (h : ctx.Holds c e) : fix ctx c e = some (c, e) := by
  obtain ⟨h1, h2, h3⟩ := h
  have h4 : ((numDigits c : Int)) ≤ ctx.prec := by exact_mod_cast h1
  simp only [fix]
  rw [if_neg (by omega), if_neg (by simp only [not_lt, max_le_iff]; exact ⟨by omega, h2⟩)]

/-- The normal form has the same value and does not end in zero. -/
theorem normalize_holds {ctx : Context} {c : Nat} {e : Int} (h : ctx.Holds c e) (hc : c ≠ 0) : ∃ c' e',
    normalize ctx c e = some (c', e') ∧ c' % 10 ≠ 0 ∧ (c' * 10 ^ e' : ℚ) = c * 10 ^ e := by
  obtain ⟨h1, h2⟩ := strip_spec c e hc
  exact ⟨_, _, by rw [normalize, if_neg hc, fix_holds h]; rfl, h1, h2⟩

theorem places_neg {p : Nat} {x : ℚ} : Places p (-x) ↔ Places p x := by
  constructor <;> rintro ⟨n, h⟩ <;> exact ⟨-n, by push_cast; rw [← h]; ring⟩

theorem digits_neg {m : Nat} {x : ℚ} : Digits m (-x) ↔ Digits m x := by
  constructor <;> rintro ⟨n, k, hk, hn, h⟩ <;> exact ⟨-n, k, hk, by rwa [abs_neg], by push_cast; rw [← h]; ring⟩

theorem finValue_cases (s : Bool) (c : Nat) (e : Int) :
    finValue s c e = c * 10 ^ e ∨ finValue s c e = -(c * 10 ^ e) := by
  cases s
  · left; simp [finValue]
  · right; simp [finValue]

theorem places_value {p : Nat} {s : Bool} {c : Nat} {e : Int} : Places p (finValue s c e) ↔ Places p (c * 10 ^ e) := by
  rcases finValue_cases s c e with h | h <;> rw [h]
  exact places_neg

theorem digits_value {m : Nat} {s : Bool} {c : Nat} {e : Int} : Digits m (finValue s c e) ↔ Digits m (c * 10 ^ e) := by
  rcases finValue_cases s c e with h | h <;> rw [h]
  exact digits_neg

theorem whole_value {w : Nat} {s : Bool} {c : Nat} {e : Int} : Whole w (finValue s c e) ↔ (c * 10 ^ e : ℚ) < 10 ^ w := by
  have : (0 : ℚ) ≤ c * 10 ^ e := by positivity
  rcases finValue_cases s c e with h | h <;> rw [h, Whole]
  · rw [abs_of_nonneg this]
  · rw [abs_neg, abs_of_nonneg this]

/-- The checks of digits, one by one. -/
theorem checks_holds {ctx : Context} {c : Nat} {e : Int} (h : ctx.Holds c e) (hc : c ≠ 0) (s : Bool) :
    let n := (normalize ctx c e).getD (c, e)
    (∀ m, m < (digitsInfo c e).2 ∧ m < (digitsInfo n.1 n.2).2 ↔ ¬ Digits m (finValue s c e)) ∧
    (∀ p, p < (digitsInfo c e).1 ∧ p < (digitsInfo n.1 n.2).1 ↔ ¬ Places p (finValue s c e)) ∧
    (∀ w, w < (digitsInfo c e).2 - (digitsInfo c e).1 ∧ w < (digitsInfo n.1 n.2).2 - (digitsInfo n.1 n.2).1 ↔
      ¬ Whole w (finValue s c e)) := by
  obtain ⟨c', e', h1, h2, h3⟩ := normalize_holds h hc
  have hc' : c' ≠ 0 := by rintro rfl; exact h2 rfl
  rw [h1]
  dsimp only [Option.getD_some]
  refine ⟨fun m => ?_, fun p => ?_, fun w => ?_⟩
  · rw [digits_value, ← h3, digits_iff h2]
    refine ⟨fun h => not_le.2 h.2, fun h => ⟨?_, not_le.1 h⟩⟩
    by_contra hm
    exact h ((digits_iff h2).1 (h3 ▸ digits_of_le hc (not_lt.1 hm)))
  · rw [places_value, ← h3, places_iff h2]
    refine ⟨fun h => not_le.2 h.2, fun h => ⟨?_, not_le.1 h⟩⟩
    by_contra hm
    exact h ((places_iff h2).1 (h3 ▸ places_of_le (not_lt.1 hm)))
  · rw [whole_value]
    refine ⟨fun h => by rw [whole_iff hc]; exact not_le.2 h.1, fun h => ⟨?_, ?_⟩⟩
    · rw [whole_iff hc] at h; exact not_le.1 h
    · rw [← h3, whole_iff hc'] at h; exact not_le.1 h

theorem exceeds_iff {l : Option Nat} {x y : Nat} : exceeds l x y = true ↔ ∃ m, l = some m ∧ m < x ∧ m < y := by
  cases l <;> simp [exceeds]

theorem maxWhole_iff {v : DecimalV} {w : Nat} :
    v.maxWhole = some w ↔ ∃ m p, v.maxDigits = some m ∧ v.decimalPlaces = some p ∧ w = m - p := by
  unfold DecimalV.maxWhole
  cases v.decimalPlaces <;> cases v.maxDigits <;> simp [eq_comm]

/-! ### Rounding -/

theorem roundEvenQ_int (n : ℤ) : roundEvenQ n = n := by
  simp [roundEvenQ]

theorem roundEvenQ_near (x : ℚ) : |x - roundEvenQ x| ≤ 1 / 2 := by
  have h1 := Int.floor_le x
  have h2 := Int.lt_floor_add_one x
  rw [roundEvenQ]
  split
  · rw [abs_le]; constructor <;> linarith
  · split
    · push_cast
      rw [abs_le]; constructor <;> linarith
    · split
      · rw [abs_le]; constructor <;> linarith
      · push_cast
        rw [abs_le]; constructor <;> linarith

theorem zpow_pos10 (n : ℤ) : (0 : ℚ) < 10 ^ n := by positivity

/-- A quotient that has no more digits than the precision is not changed. -/
theorem roundQ_exact {ctx : Context} {q : ℚ} {n j : ℤ} (hq : q = n * 10 ^ j) (hn : |n| < 10 ^ ctx.prec) (hj : ctx.etiny ≤ j)
    (hm : |q| < 10 ^ (ctx.emax + 1)) : roundQ ctx q = some q := by
  rw [roundQ]
  split
  · rename_i h; rw [h]
  · rename_i h0
    have hL : lastPlace ctx q ≤ j := by
      rw [lastPlace]
      refine max_le ?_ hj
      have hlt : |q| < ((10 : ℕ) : ℚ) ^ ((ctx.prec : ℤ) + j) := by
        push_cast
        rw [hq, abs_mul, abs_of_pos (zpow_pos10 j), zpow_add₀ (by norm_num), zpow_natCast]
        refine mul_lt_mul_of_pos_right ?_ (zpow_pos10 j)
        exact_mod_cast hn
      have := (Int.lt_zpow_iff_log_lt (by decide) (abs_pos.2 h0)).1 hlt
      omega
    obtain ⟨i, hi⟩ : ∃ i : ℕ, j = lastPlace ctx q + i := ⟨(j - lastPlace ctx q).toNat, by omega⟩
    have hint : q / 10 ^ lastPlace ctx q = ((n * 10 ^ i : ℤ) : ℚ) := by
      rw [div_eq_iff (zpow_pos10 _).ne']
      push_cast
      conv_lhs => rw [hq, hi]
      rw [zpow_add₀ (by norm_num), zpow_natCast]
      ring
    have hr : roundEvenQ (q / 10 ^ lastPlace ctx q) * (10 : ℚ) ^ lastPlace ctx q = q := by
      rw [hint, roundEvenQ_int, ← hint, div_mul_cancel₀ _ (zpow_pos10 _).ne']
    dsimp only
    rw [hr, if_pos hm]

theorem roundQ_near {ctx : Context} {q r : ℚ} (h : roundQ ctx q = some r) :
    |q - r| ≤ max (|q| * 10 ^ (1 - ctx.prec : ℤ)) (10 ^ ctx.etiny) / 2 := by
  rw [roundQ] at h
  split at h
  · rename_i h0
    cases h
    rw [h0]
    simp only [sub_self, abs_zero, zero_mul]
    have := zpow_pos10 ctx.etiny
    rw [max_eq_right this.le]
    linarith
  · rename_i h0
    dsimp only at h
    split at h
    · cases h
      have hL := zpow_pos10 (lastPlace ctx q)
      have h1 := roundEvenQ_near (q / 10 ^ lastPlace ctx q)
      have h2 : q - roundEvenQ (q / 10 ^ lastPlace ctx q) * (10 : ℚ) ^ lastPlace ctx q =
          (q / 10 ^ lastPlace ctx q - roundEvenQ (q / 10 ^ lastPlace ctx q)) * 10 ^ lastPlace ctx q := by
        rw [sub_mul, div_mul_cancel₀ _ hL.ne']
      rw [h2, abs_mul, abs_of_pos hL]
      have h3 : (10 : ℚ) ^ lastPlace ctx q ≤ max (|q| * 10 ^ (1 - ctx.prec : ℤ)) (10 ^ ctx.etiny) := by
        rw [lastPlace]
        rcases max_choice (Int.log 10 |q| - ctx.prec + 1) ctx.etiny with h | h
        · rw [h]
          refine le_max_of_le_left ?_
          have h4 := Int.zpow_log_le_self (b := 10) (by decide) (abs_pos.2 h0)
          push_cast at h4
          rw [show Int.log 10 |q| - ctx.prec + 1 = Int.log 10 |q| + (1 - ctx.prec) by ring, zpow_add₀ (by norm_num)]
          exact mul_le_mul_of_nonneg_right h4 (zpow_pos10 _).le
        · rw [h]
          exact le_max_right _ _
      nlinarith
    · cases h

theorem den_one {r : ℚ} : r.den = 1 ↔ ∃ k : ℤ, r = k :=
  ⟨fun h => ⟨r.num, (Rat.den_eq_one_iff r).1 h |>.symm⟩, fun ⟨k, h⟩ => by rw [h]; rfl⟩

/-! ### Bounds -/

theorem cmp_spec {d b : Dec} (hd : d.isNan = false) (hb : b.isNan = false) : ∃ o, cmp d b = some o ∧
    (o = .lt ↔ Less d b) ∧ (o = .eq ↔ Same d b) ∧ (o = .gt ↔ Less b d) := by
  cases d with
  | nan _ => cases hd
  | inf s =>
    cases b with
    | nan _ => cases hb
    | inf s' => cases s <;> cases s' <;> exact ⟨_, rfl, by simp [Less, Same]⟩
    | fin s' c e => cases s <;> exact ⟨_, rfl, by simp [Less, Same]⟩
  | fin s c e =>
    cases b with
    | nan _ => cases hb
    | inf s' => cases s' <;> exact ⟨_, rfl, by simp [Less, Same]⟩
    | fin s' c' e' => exact ⟨_, rfl, by simp [Less, Same, compare_gt_iff_gt, compare_lt_iff_lt]⟩

/-- One bound on a decimal that is not NaN. -/
theorem bound_ok {b : Option Dec} {pass : Ordering → Bool} {t : String} {d : Dec} {next : Res} {P : Dec → Prop}
    (hd : d.isNan = false) (hb : ∀ x, b = some x → x.isNan = false)
    (hp : ∀ x o, (o = .lt ↔ Less d x) → (o = .eq ↔ Same d x) → (o = .gt ↔ Less x d) → (pass o = true ↔ P x)) (d' : Dec) :
    bound b pass t d next = .ok d' ↔ (∀ x, b = some x → P x) ∧ next = .ok d' := by
  cases b with
  | none => simp [bound]
  | some x =>
    obtain ⟨o, h1, h2, h3, h4⟩ := cmp_spec hd (hb x rfl)
    have := hp x o h2 h3 h4
    rw [bound, if_neg (by simp [hd]), h1]
    dsimp only
    by_cases ho : pass o = true
    · rw [if_pos ho]
      simp [this.1 ho]
    · rw [if_neg ho]
      simp only [reduceCtorEq, Option.some.injEq, forall_eq', false_iff, not_and]
      exact fun h => absurd (this.2 h) ho

theorem bounds_ok {v : DecimalV} (hv : v.Proper) {d : Dec} (hd : d.isNan = false) (d' : Dec) :
    checkBounds v d = .ok d' ↔ InBounds v d ∧ d = d' := by
  rw [checkBounds, bound_ok (P := fun b => Less d b ∨ Same d b) hd (fun x h => hv x (.inl h)),
    bound_ok (P := fun b => Less d b) hd (fun x h => hv x (.inr (.inl h))),
    bound_ok (P := fun b => Less b d ∨ Same d b) hd (fun x h => hv x (.inr (.inr (.inl h)))),
    bound_ok (P := fun b => Less b d) hd (fun x h => hv x (.inr (.inr (.inr h)))), InBounds]
  · simp only [Res.ok.injEq, and_assoc]
  · intro x o _ _ h3; rw [← h3]; cases o <;> simp
  · intro x o _ h2 h3; rw [← h2, ← h3]; cases o <;> simp
  · intro x o h1 _ _; rw [← h1]; cases o <;> simp
  · intro x o h1 h2 _; rw [← h1, ← h2]; cases o <;> simp

end PC.Decimal
