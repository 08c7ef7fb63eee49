import Verif.Spec.Floats
import Verif.Lemmas.Numbers

/-
Lemmas about doubles.
-/

namespace PC.Float
open PC.Num

theorem pow2_ne (k : Nat) : (2 ^ k : Nat) ≠ 0 := Nat.pos_iff_ne_zero.1 (Nat.two_pow_pos k)

theorem pow2_pos (k : Nat) : (0 : Int) < 2 ^ k := Int.pow_pos (by decide)

theorem mkRat_lt {a c : Int} {b d : Nat} (hb : b ≠ 0) (hd : d ≠ 0) :
    mkRat a b < mkRat c d ↔ a * d < c * b := by
  obtain ⟨m, hm, h1, h2⟩ := Rat.mkRat_num_den (n' := (mkRat a b).num) (d' := (mkRat a b).den)
    (z' := (mkRat a b).den_nz) (c := (mkRat a b).reduced) hb rfl
  obtain ⟨n, hn, h3, h4⟩ := Rat.mkRat_num_den (n' := (mkRat c d).num) (d' := (mkRat c d).den)
    (z' := (mkRat c d).den_nz) (c := (mkRat c d).reduced) hd rfl
  rw [Rat.lt_iff]
  generalize (mkRat a b).num = p at *
  generalize (mkRat a b).den = q at *
  generalize (mkRat c d).num = r at *
  generalize (mkRat c d).den = s at *
  subst h1; subst h2; subst h3; subst h4
  have e1 : p * ↑m * ↑(s * n) = (p * s) * ((m : Int) * n) := by
    rw [Int.natCast_mul]
    simp only [Int.mul_assoc, Int.mul_left_comm, Int.mul_comm]
  have e2 : r * ↑n * ↑(q * m) = (r * q) * ((m : Int) * n) := by
    rw [Int.natCast_mul]
    simp only [Int.mul_assoc, Int.mul_left_comm, Int.mul_comm]
  rw [e1, e2]
  have hpos : (0 : Int) < (m : Int) * n := Int.mul_pos (by omega) (by omega)
  exact (Int.mul_lt_mul_right hpos).symm

theorem mkRat_le {a c : Int} {b d : Nat} (hb : b ≠ 0) (hd : d ≠ 0) :
    mkRat a b ≤ mkRat c d ↔ a * d ≤ c * b := by
  rw [← Rat.not_lt, mkRat_lt hd hb, Int.not_lt]

theorem cmp_fin_lt (a b : Int) (k l : Nat) :
    compare (a * 2 ^ l) (b * 2 ^ k) = .lt ↔ mkRat a (2 ^ k) < mkRat b (2 ^ l) := by
  rw [mkRat_lt (pow2_ne k) (pow2_ne l), Int.compare_eq_lt]
  simp

theorem cmp_fin_gt (a b : Int) (k l : Nat) :
    compare (a * 2 ^ l) (b * 2 ^ k) = .gt ↔ mkRat b (2 ^ l) < mkRat a (2 ^ k) := by
  rw [mkRat_lt (pow2_ne l) (pow2_ne k), Int.compare_eq_gt]
  simp

/-- The comparison of the code is that of numbers. -/
theorem cmp_lt_iff (x y : F64) : x.cmp y = some .lt ↔ Lt x y := by
  cases x <;> cases y <;> simp [F64.cmp, Lt, F64.value]
  exact cmp_fin_lt _ _ _ _

theorem cmp_gt_iff (x y : F64) : x.cmp y = some .gt ↔ Lt y x := by
  cases x <;> cases y <;> simp [F64.cmp, Lt, F64.value]
  exact cmp_fin_gt _ _ _ _

theorem cmp_le_iff (x y : F64) : (x.cmp y = some .lt ∨ x.cmp y = some .eq) ↔ Le x y := by
  cases x <;> cases y <;> simp [F64.cmp, Le, F64.value]
  rename_i a k b l
  rw [mkRat_le (pow2_ne k) (pow2_ne l)]
  simp only [Int.compare_eq_lt, Int.natCast_pow, Int.cast_ofNat_Int]
  omega

theorem cmp_ge_iff (x y : F64) : (x.cmp y = some .gt ∨ x.cmp y = some .eq) ↔ Le y x := by
  cases x <;> cases y <;> simp [F64.cmp, Le, F64.value]
  rename_i a k b l
  rw [mkRat_le (pow2_ne l) (pow2_ne k)]
  simp only [Int.compare_eq_gt, Int.natCast_pow, Int.cast_ofNat_Int]
  omega

theorem bound_none {b : Option F64} {pass : Ordering → Bool} {t : String} {x : F64} :
    bound b pass t x = none ↔ ∀ c, b = some c → ∃ o, x.cmp c = some o ∧ pass o = true := by
  cases b with
  | none => simp [bound]
  | some c =>
    simp only [bound]
    cases h : x.cmp c with
    | none => simp [h]
    | some o => by_cases hp : pass o = true <;> simp [h, hp]

end PC.Float
