import Mathlib.Tactic.Common
import Verif.Spec.JsonText

/-
A JSON text has one value: a reader finds it.
-/

namespace PC.JsonText
open PC.Float (F64)
open PC.Infer (Text Json)

/-! ### Strings -/

theorem hex4_length {t : Text} {n : Nat} (h : Hex4 t n) : t.length = 4 := by
  obtain ⟨a, b, c, d, x, y, z, w, rfl, _⟩ := h; rfl

theorem hex4_unique {t : Text} {n m : Nat} (h : Hex4 t n) (h' : Hex4 t m) : n = m := by
  obtain ⟨a, b, c, d, x, y, z, w, rfl, h1, h2, h3, h4, rfl⟩ := h
  obtain ⟨a', b', c', d', x', y', z', w', he, h1', h2', h3', h4', rfl⟩ := h'
  simp only [List.cons.injEq, and_true] at he
  obtain ⟨rfl, rfl, rfl, rfl⟩ := he
  rw [h1] at h1'; rw [h2] at h2'; rw [h3] at h3'; rw [h4] at h4'
  cases h1'; cases h2'; cases h3'; cases h4'; rfl

theorem char_ext {c c' : Char} (h : c.toNat = c'.toNat) : c = c' := by
  apply Char.ext
  exact UInt32.toNat_inj.1 h

theorem char_not_surrogate (c : Char) : ¬ (0xd800 ≤ c.toNat ∧ c.toNat < 0xe000) := by
  rintro ⟨h1, h2⟩
  have hv := c.valid
  have : c.val.toNat = c.toNat := rfl
  rcases hv with h | ⟨h, _⟩
  · have : c.val.toNat < 0xd800 := h
    omega
  · have : 0xdfff < c.val.toNat := h
    omega

theorem short_unique {e c c' : Char} (h : (e, c) ∈ shortEscapes) (h' : (e, c') ∈ shortEscapes) : c = c' := by
  simp only [shortEscapes, List.mem_cons, Prod.mk.injEq, List.not_mem_nil, or_false] at h h'
  rcases h with ⟨rfl, rfl⟩ | ⟨rfl, rfl⟩ | ⟨rfl, rfl⟩ | ⟨rfl, rfl⟩ | ⟨rfl, rfl⟩ | ⟨rfl, rfl⟩ | ⟨rfl, rfl⟩ | ⟨rfl, rfl⟩ <;>
    simp_all (config := { decide := true })

theorem short_not_u {c : Char} (h : ('u', c) ∈ shortEscapes) : False := by
  simp [shortEscapes] at h

/-- Where a string ends, and what it stands for, is settled by the text. -/
theorem chars_unique {u t : Text} (h : Chars u t) : ∀ {u' t' r r' : Text}, Chars u' t' → u ++ '"' :: r = u' ++ '"' :: r' →
    t = t' ∧ r = r' := by
  induction h with
  | nil =>
    intro u' t' r r' h' he
    cases h' with
    | nil => simpa using he
    | plain h1 _ _ _ => simp only [List.nil_append, List.cons_append, List.cons.injEq] at he; exact absurd he.1.symm h1
    | short _ _ => simp at he
    | code _ _ => simp at he
    | pair _ _ _ _ _ _ _ _ => simp at he
  | plain h1 h2 h3 _ ih =>
    intro u' t' r r' h' he
    cases h' with
    | nil => simp only [List.nil_append, List.cons_append, List.cons.injEq] at he; exact absurd he.1 h1
    | plain h1' h2' _ h4 =>
      simp only [List.cons_append, List.cons.injEq] at he
      obtain ⟨rfl, h⟩ := ih h4 he.2
      exact ⟨by rw [he.1], h⟩
    | short _ _ => simp only [List.cons_append, List.cons.injEq] at he; exact absurd he.1 h2
    | code _ _ => simp only [List.cons_append, List.cons.injEq] at he; exact absurd he.1 h2
    | pair _ _ _ _ _ _ _ _ => simp only [List.cons_append, List.cons.injEq] at he; exact absurd he.1 h2
  | short h1 _ ih =>
    intro u' t' r r' h' he
    cases h' with
    | nil => simp at he
    | plain h1' h2' _ h4 => simp only [List.cons_append, List.cons.injEq] at he; exact absurd he.1.symm h2'
    | short h1' h4 =>
      simp only [List.cons_append, List.cons.injEq, true_and] at he
      obtain ⟨rfl, he⟩ := he
      obtain ⟨rfl, h⟩ := ih h4 he
      exact ⟨by rw [short_unique h1 h1'], h⟩
    | code _ _ =>
      simp only [List.cons_append, List.cons.injEq, true_and] at he
      exact (short_not_u (he.1 ▸ h1)).elim
    | pair _ _ _ _ _ _ _ _ =>
      simp only [List.cons_append, List.cons.injEq, true_and] at he
      exact (short_not_u (he.1 ▸ h1)).elim
  | @code hx c s t h1 _ ih =>
    intro u' t' r r' h' he
    cases h' with
    | nil => simp at he
    | plain h1' h2' _ h4 => simp only [List.cons_append, List.cons.injEq] at he; exact absurd he.1.symm h2'
    | short h1' h4 =>
      simp only [List.cons_append, List.cons.injEq, true_and] at he
      exact (short_not_u (he.1 ▸ h1')).elim
    | code h1' h4 =>
      simp only [List.cons_append, List.cons.injEq, true_and, List.append_assoc] at he
      obtain ⟨rfl, he2⟩ := List.append_inj he (by rw [hex4_length h1, hex4_length h1'])
      obtain ⟨rfl, h⟩ := ih h4 he2
      exact ⟨by rw [char_ext (hex4_unique h1 h1')], h⟩
    | pair h1' _ h3 h4 _ _ _ _ =>
      simp only [List.cons_append, List.cons.injEq, true_and, List.append_assoc] at he
      obtain ⟨rfl, he⟩ := List.append_inj he (by rw [hex4_length h1, hex4_length h1'])
      have := hex4_unique h1 h1'
      exact (char_not_surrogate c (by omega)).elim
  | @pair hx lx hi lo c s t h1 h2 h3 h4 h5 h6 h7 _ ih =>
    intro u' t' r r' h' he
    cases h' with
    | nil => simp at he
    | plain h1' h2' _ h4 => simp only [List.cons_append, List.cons.injEq] at he; exact absurd he.1.symm h2'
    | short h1' h4 =>
      simp only [List.cons_append, List.cons.injEq, true_and] at he
      exact (short_not_u (he.1 ▸ h1')).elim
    | @code _ c' _ _ h1' h4 =>
      simp only [List.cons_append, List.cons.injEq, true_and, List.append_assoc] at he
      obtain ⟨rfl, he⟩ := List.append_inj he (by rw [hex4_length h1, hex4_length h1'])
      have := hex4_unique h1 h1'
      exact (char_not_surrogate c' (by omega)).elim
    | pair h1' h2' h3' h4' h5' h6' h7' h8 =>
      simp only [List.cons_append, List.cons.injEq, true_and, List.append_assoc] at he
      obtain ⟨rfl, he2⟩ := List.append_inj he (by rw [hex4_length h1, hex4_length h1'])
      simp only [List.cons.injEq, true_and] at he2
      obtain ⟨rfl, he3⟩ := List.append_inj he2 (by rw [hex4_length h2, hex4_length h2'])
      obtain ⟨rfl, h⟩ := ih h8 he3
      have e1 := hex4_unique h1 h1'
      have e2 := hex4_unique h2 h2'
      subst e1; subst e2
      exact ⟨by rw [char_ext (h7.trans h7'.symm)], h⟩

/-! ### A reader -/

/-- White space is skipped. -/
def isWs (c : Char) : Bool := c == ' ' || c == '\t' || c == '\n' || c == '\r'

def skipWs (s : Text) : Text := s.dropWhile isWs

/-- The characters of numbers. -/
def isNum (c : Char) : Bool := c.isDigit || c == '-' || c == '+' || c == '.' || c == 'e' || c == 'E'

def isFloat (c : Char) : Bool := c == '.' || c == 'e' || c == 'E'

open Classical in
/-- Reading after the opening quote. -/
noncomputable def pString (s : Text) : Option (Text × Text) :=
  if h : ∃ p : Text × Text × Text, s = p.1 ++ '"' :: p.2.2 ∧ Chars p.1 p.2.1 then some (h.choose.2.1, h.choose.2.2) else none

def intOf : Text → Int
  | '-' :: u => -decimal u
  | u => decimal u

def pNumber (read : Text → F64) (s : Text) : Json × Text :=
  let tok := s.takeWhile isNum
  (if tok.any isFloat then .float (read tok) else .int (intOf tok), s.dropWhile isNum)

mutual
/-- A value at the beginning of `s`, and what follows it. -/
noncomputable def pValue (read : Text → F64) : Nat → Text → Option (Json × Text)
  | 0, _ => none
  | _ + 1, [] => none
  | n + 1, c :: r =>
    if c = 'n' then some (.null, r.drop 3)
    else if c = 't' then some (.bool true, r.drop 3)
    else if c = 'f' then some (.bool false, r.drop 4)
    else if c = 'N' then some (.float .nan, r.drop 2)
    else if c = 'I' then some (.float .posInf, r.drop 7)
    else if c = '-' ∧ r.head? = some 'I' then some (.float .negInf, r.drop 8)
    else if c = '"' then (pString r).map fun p => (.str p.1, p.2)
    else if c = '[' then
      if (skipWs r).head? = some ']' then some (.arr [], (skipWs r).tail)
      else (pItems read n r).map fun p => (.arr p.1, p.2)
    else if c = '{' then
      if (skipWs r).head? = some '}' then some (.obj [], (skipWs r).tail)
      else (pMembers read n r).map fun p => (.obj p.1, p.2)
    else some (pNumber read (c :: r))

/-- The items up to the closing bracket. -/
noncomputable def pItems (read : Text → F64) : Nat → Text → Option (List Json × Text)
  | 0, _ => none
  | n + 1, s =>
    match pValue read n (skipWs s) with
    | none => none
    | some (v, r) =>
      match skipWs r with
      | ',' :: r => (pItems read n r).map fun p => (v :: p.1, p.2)
      | ']' :: r => some ([v], r)
      | _ => none

/-- The members up to the closing bracket. -/
noncomputable def pMembers (read : Text → F64) : Nat → Text → Option (List (Text × Json) × Text)
  | 0, _ => none
  | n + 1, s =>
    match skipWs s with
    | '"' :: r =>
      match pString r with
      | none => none
      | some (k, r) =>
        match skipWs r with
        | ':' :: r =>
          match pValue read n (skipWs r) with
          | none => none
          | some (v, r) =>
            match skipWs r with
            | ',' :: r => (pMembers read n r).map fun p => ((k, v) :: p.1, p.2)
            | '}' :: r => some ([(k, v)], r)
            | _ => none
        | _ => none
    | _ => none
end

theorem pString_eq {u t : Text} (h : Chars u t) (r : Text) : pString (u ++ '"' :: r) = some (t, r) := by
  unfold pString
  rw [dif_pos ⟨(u, t, r), rfl, h⟩]
  have hc := (⟨(u, t, r), rfl, h⟩ : ∃ p : Text × Text × Text, u ++ '"' :: r = p.1 ++ '"' :: p.2.2 ∧ Chars p.1 p.2.1).choose_spec
  obtain ⟨h1, h2⟩ := chars_unique h hc.2 hc.1
  rw [← h1, ← h2]

theorem isWs_iff {c : Char} : isWs c = true ↔ c = ' ' ∨ c = '\t' ∨ c = '\n' ∨ c = '\r' := by
  simp [isWs, or_assoc]

theorem skip_ws {a : Text} (h : Ws a) (s : Text) : skipWs (a ++ s) = skipWs s := by
  induction a with
  | nil => rfl
  | cons c a ih =>
    have hc : isWs c = true := isWs_iff.2 (h c (by simp))
    show List.dropWhile isWs (c :: (a ++ s)) = _
    rw [List.dropWhile_cons, if_pos hc]
    exact ih fun d hd => h d (by simp [hd])

theorem skip_of_head {c : Char} {s : Text} (h : isWs c = false) : skipWs (c :: s) = c :: s := by
  simp [skipWs, h]

theorem skip_skip (s : Text) : skipWs (skipWs s) = skipWs s := by
  induction s with
  | nil => rfl
  | cons c s ih =>
    cases h : isWs c with
    | true => simpa [skipWs, List.dropWhile_cons, h] using ih
    | false => rw [skip_of_head h, skip_of_head h]

/-! ### Numbers -/

theorem digit_isNum {c : Char} (h : Digit c) : isNum c = true ∧ isFloat c = false ∧ c ≠ '-' := by
  obtain ⟨h1, h2⟩ := h
  have h1' : 48 ≤ c.toNat := h1
  have h2' : c.toNat ≤ 57 := h2
  have hd : c.isDigit = true := by
    simp only [Char.isDigit, Bool.and_eq_true, decide_eq_true_eq]
    exact ⟨h1, h2⟩
  refine ⟨by simp [isNum, hd], ?_, ?_⟩
  · simp only [isFloat, Bool.or_eq_false_iff, beq_eq_false_iff_ne]
    refine ⟨⟨?_, ?_⟩, ?_⟩ <;> rintro rfl <;> revert h1' h2' <;> decide
  · rintro rfl; revert h1'; decide

theorem natural_facts {t : Text} (h : Natural t) : (∀ c ∈ t, isNum c = true) ∧ (∀ c ∈ t, isFloat c = false) ∧
    (∃ c u, t = c :: u ∧ Digit c) := by
  obtain ⟨h1, h2, _⟩ := h
  refine ⟨fun c hc => (digit_isNum (h2 c hc)).1, fun c hc => (digit_isNum (h2 c hc)).2.1, ?_⟩
  cases t with
  | nil => exact absurd rfl h1
  | cons c u => exact ⟨c, u, rfl, h2 c (by simp)⟩

/-- What follows a number is no part of it. -/
def NumEnd (r : Text) : Prop := ∀ c, r.head? = some c → isNum c = false

theorem takeWhile_num {t r : Text} (h : ∀ c ∈ t, isNum c = true) (hr : NumEnd r) :
    (t ++ r).takeWhile isNum = t ∧ (t ++ r).dropWhile isNum = r := by
  induction t with
  | nil =>
    cases r with
    | nil => exact ⟨rfl, rfl⟩
    | cons c r => simp [hr c rfl]
  | cons c t ih =>
    obtain ⟨h1, h2⟩ := ih fun d hd => h d (by simp [hd])
    simp [h c (by simp), h1, h2]

/-- The first character of a number. -/
def numStart (c : Char) : Prop := Digit c ∨ c = '-'

theorem int_facts {t : Text} {i : Int} (h : IntText t i) : (∀ c ∈ t, isNum c = true) ∧ t.any isFloat = false ∧
    intOf t = i ∧ ∃ c u, t = c :: u ∧ numStart c ∧ (c = '-' → u ≠ [] ∧ u.head? ≠ some 'I') := by
  rcases h with ⟨h, rfl⟩ | ⟨u, rfl, h, rfl⟩
  · obtain ⟨h1, h2, c, u, rfl, hc⟩ := natural_facts h
    have hm := (digit_isNum hc).2.2
    refine ⟨h1, by simpa using h2, ?_, c, u, rfl, Or.inl hc, fun h => absurd h hm⟩
    unfold intOf
    split
    · rename_i he; cases he; exact absurd rfl hm
    · rfl
  · obtain ⟨h1, h2, c, v, rfl, hc⟩ := natural_facts h
    refine ⟨?_, ?_, rfl, '-', _, rfl, Or.inr rfl, fun _ => ⟨List.cons_ne_nil _ _, fun h => ?_⟩⟩
    · intro d hd
      rcases List.mem_cons.1 hd with rfl | hd
      · rfl
      · exact h1 d hd
    · rw [List.any_cons]
      have : isFloat '-' = false := by decide
      rw [this, Bool.false_or]
      simpa using h2
    · cases h
      exact absurd (show 'I'.toNat ≤ '9'.toNat from hc.2) (by decide)

theorem frac_facts {t : Text} (h : Frac t) : (∀ c ∈ t, isNum c = true) ∧ t.any isFloat = true := by
  obtain ⟨u, rfl, _, hu⟩ := h
  refine ⟨fun c hc => ?_, by simp [isFloat]⟩
  rcases List.mem_cons.1 hc with rfl | hc
  · rfl
  · exact (digit_isNum (hu c hc)).1

theorem exp_facts {t : Text} (h : Exp t) : (∀ c ∈ t, isNum c = true) ∧ t.any isFloat = true := by
  obtain ⟨e, s, u, rfl, he, hs, _, hu⟩ := h
  refine ⟨fun c hc => ?_, by rcases he with rfl | rfl <;> simp [isFloat]⟩
  simp only [List.cons_append, List.mem_cons, List.mem_append] at hc
  rcases hc with rfl | hc | hc
  · rcases he with rfl | rfl <;> rfl
  · rcases hs with rfl | rfl | rfl
    · cases hc
    · rw [List.mem_singleton.1 hc]; rfl
    · rw [List.mem_singleton.1 hc]; rfl
  · exact (digit_isNum (hu c hc)).1

theorem float_facts {t : Text} (h : FloatText t) : (∀ c ∈ t, isNum c = true) ∧ t.any isFloat = true ∧
    ∃ c u, t = c :: u ∧ numStart c ∧ (c = '-' → u ≠ [] ∧ u.head? ≠ some 'I') := by
  obtain ⟨m, n, fr, ex, rfl, hm, hn, hf, he, hor⟩ := h
  obtain ⟨h1, h2, c, v, rfl, hc⟩ := natural_facts hn
  have hcI : c ≠ 'I' := by
    rintro rfl
    exact absurd (show 'I'.toNat ≤ '9'.toNat from hc.2) (by decide)
  refine ⟨fun d hd => ?_, ?_, ?_⟩
  · simp only [List.mem_append] at hd
    rcases hd with ((hd | hd) | hd) | hd
    · rcases hm with rfl | rfl
      · cases hd
      · rw [List.mem_singleton.1 hd]; rfl
    · exact h1 d hd
    · rcases hf with rfl | hf
      · cases hd
      · exact (frac_facts hf).1 d hd
    · rcases he with rfl | he
      · cases hd
      · exact (exp_facts he).1 d hd
  · simp only [List.any_append, Bool.or_eq_true]
    rcases hor with h | h
    · exact Or.inl (Or.inr (frac_facts h).2)
    · exact Or.inr (exp_facts h).2
  · rcases hm with rfl | rfl
    · exact ⟨c, v ++ fr ++ ex, by simp, Or.inl hc, fun h => absurd h (digit_isNum hc).2.2⟩
    · exact ⟨'-', c :: v ++ fr ++ ex, by simp, Or.inr rfl, fun _ => ⟨by simp, fun h => hcI (by simpa using h)⟩⟩

/-! ### Reading a value -/

theorem numStart_ne {c : Char} (h : numStart c) : c ≠ 'n' ∧ c ≠ 't' ∧ c ≠ 'f' ∧ c ≠ 'N' ∧ c ≠ 'I' ∧ c ≠ '"' ∧ c ≠ '[' ∧
    c ≠ '{' ∧ c ≠ ']' ∧ c ≠ '}' ∧ isWs c = false := by
  rcases h with ⟨h1, h2⟩ | rfl
  · have h1' : 48 ≤ c.toNat := h1
    have h2' : c.toNat ≤ 57 := h2
    refine ⟨?_, ?_, ?_, ?_, ?_, ?_, ?_, ?_, ?_, ?_, ?_⟩
    iterate 10 (rintro rfl; revert h1' h2'; decide)
    rw [← Bool.not_eq_true, isWs_iff]
    rintro (rfl | rfl | rfl | rfl) <;> revert h1' h2' <;> decide
  · decide

/-- The first character of a value is not white space and closes nothing. -/
theorem value_head {ext : Prop} {read : Text → F64} {t : Text} {v : Json} (h : Value ext read t v) :
    ∃ c u, t = c :: u ∧ isWs c = false ∧ c ≠ ']' ∧ c ≠ '}' := by
  cases h with
  | null => exact ⟨'n', _, rfl, by decide⟩
  | true => exact ⟨'t', _, rfl, by decide⟩
  | false => exact ⟨'f', _, rfl, by decide⟩
  | nan _ => exact ⟨'N', _, rfl, by decide⟩
  | posInf _ => exact ⟨'I', _, rfl, by decide⟩
  | negInf _ => exact ⟨'-', _, rfl, by decide⟩
  | int h =>
    obtain ⟨_, _, _, c, u, rfl, hc, _⟩ := int_facts h
    obtain ⟨_, _, _, _, _, _, _, _, h1, h2, h3⟩ := numStart_ne hc
    exact ⟨c, u, rfl, h3, h1, h2⟩
  | float h =>
    obtain ⟨_, _, c, u, rfl, hc, _⟩ := float_facts h
    obtain ⟨_, _, _, _, _, _, _, _, h1, h2, h3⟩ := numStart_ne hc
    exact ⟨c, u, rfl, h3, h1, h2⟩
  | str h =>
    obtain ⟨u, rfl, _⟩ := h
    exact ⟨'"', _, rfl, by decide⟩
  | emptyArr _ => exact ⟨'[', _, rfl, by decide⟩
  | arr _ => exact ⟨'[', _, rfl, by decide⟩
  | emptyObj _ => exact ⟨'{', _, rfl, by decide⟩
  | obj _ => exact ⟨'{', _, rfl, by decide⟩

theorem skip_value {ext : Prop} {read : Text → F64} {t : Text} {v : Json} (h : Value ext read t v) (r : Text) :
    skipWs (t ++ r) = t ++ r := by
  obtain ⟨c, u, rfl, hc, _⟩ := value_head h
  exact skip_of_head hc

theorem pNumber_step {read : Text → F64} {c : Char} {u r : Text} (n : Nat) (hc : numStart c)
    (hI : c = '-' → u ≠ [] ∧ u.head? ≠ some 'I') :
    pValue read (n + 1) (c :: (u ++ r)) = some (pNumber read (c :: (u ++ r))) := by
  obtain ⟨h1, h2, h3, h4, h5, h6, h7, h8, _⟩ := numStart_ne hc
  have h9 : ¬ (c = '-' ∧ (u ++ r).head? = some 'I') := by
    rintro ⟨h, h'⟩
    cases u with
    | nil => exact (hI h).1 rfl
    | cons d u => exact (hI h).2 h'
  simp only [pValue, if_neg h1, if_neg h2, if_neg h3, if_neg h4, if_neg h5, if_neg h6, if_neg h7, if_neg h8, if_neg h9]

theorem numEnd_cons {c : Char} {r : Text} (h : isNum c = false) : NumEnd (c :: r) := by
  rintro _ ⟨⟩; exact h

theorem numEnd_ws {b : Text} (h : Ws b) {r : Text} (hr : NumEnd r) : NumEnd (b ++ r) := by
  cases b with
  | nil => exact hr
  | cons c b =>
    refine numEnd_cons ?_
    rcases h c (by simp) with rfl | rfl | rfl | rfl <;> decide

theorem pItems_skip (read : Text → F64) (n : Nat) (s : Text) : pItems read n (skipWs s) = pItems read n s := by
  cases n with
  | zero => rfl
  | succ n => simp only [pItems, skip_skip]

theorem items_start {ext : Prop} {read : Text → F64} {s : Text} {v : Json} {vs : List Json} (h : Items ext read s v vs)
    (r : Text) : (skipWs (s ++ r)).head? ≠ some ']' := by
  cases h with
  | one ha hv hb =>
    rw [List.append_assoc, List.append_assoc, skip_ws ha, skip_value hv]
    obtain ⟨c, u, rfl, _, h1, _⟩ := value_head hv
    intro h; exact h1 (by simpa using h)
  | more ha hv hb _ =>
    rw [List.append_assoc, List.append_assoc, List.append_assoc, skip_ws ha, skip_value hv]
    obtain ⟨c, u, rfl, _, h1, _⟩ := value_head hv
    intro h; exact h1 (by simpa using h)

theorem members_start {ext : Prop} {read : Text → F64} {s : Text} {e : Text × Json} {es : List (Text × Json)}
    (h : Members ext read s e es) (r : Text) : (skipWs (s ++ r)).head? ≠ some '}' := by
  cases h with
  | one ha hq _ _ _ _ =>
    obtain ⟨u, rfl, _⟩ := hq
    simp only [List.append_assoc, List.cons_append]
    rw [skip_ws ha, skip_of_head (by decide)]
    simp
  | more ha hq _ _ _ _ _ =>
    obtain ⟨u, rfl, _⟩ := hq
    simp only [List.append_assoc, List.cons_append]
    rw [skip_ws ha, skip_of_head (by decide)]
    simp

mutual
theorem pValue_eq {ext : Prop} {read : Text → F64} : {t : Text} → {v : Json} → Value ext read t v →
    ∃ n, ∀ m, n ≤ m → ∀ r, NumEnd r → pValue read m (t ++ r) = some (v, r)
  | _, _, .null => ⟨1, fun m hm r _ => by
      obtain ⟨m, rfl⟩ : ∃ k, m = k + 1 := ⟨m - 1, by omega⟩
      rfl⟩
  | _, _, .true => ⟨1, fun m hm r _ => by
      obtain ⟨m, rfl⟩ : ∃ k, m = k + 1 := ⟨m - 1, by omega⟩
      rfl⟩
  | _, _, .false => ⟨1, fun m hm r _ => by
      obtain ⟨m, rfl⟩ : ∃ k, m = k + 1 := ⟨m - 1, by omega⟩
      rfl⟩
  | _, _, .nan _ => ⟨1, fun m hm r _ => by
      obtain ⟨m, rfl⟩ : ∃ k, m = k + 1 := ⟨m - 1, by omega⟩
      rfl⟩
  | _, _, .posInf _ => ⟨1, fun m hm r _ => by
      obtain ⟨m, rfl⟩ : ∃ k, m = k + 1 := ⟨m - 1, by omega⟩
      rfl⟩
  | _, _, .negInf _ => ⟨1, fun m hm r _ => by
      obtain ⟨m, rfl⟩ : ∃ k, m = k + 1 := ⟨m - 1, by omega⟩
      rfl⟩
  | _, _, .int h => ⟨1, fun m hm r hr => by
      obtain ⟨m, rfl⟩ : ∃ k, m = k + 1 := ⟨m - 1, by omega⟩
      obtain ⟨h1, h2, h3, c, u, rfl, hc, hI⟩ := int_facts h
      obtain ⟨e1, e2⟩ := takeWhile_num h1 hr
      rw [List.cons_append, pNumber_step m hc hI, ← List.cons_append]
      simp only [pNumber, e1, e2, h2, h3]
      rfl⟩
  | _, _, .float h => ⟨1, fun m hm r hr => by
      obtain ⟨m, rfl⟩ : ∃ k, m = k + 1 := ⟨m - 1, by omega⟩
      obtain ⟨h1, h2, c, u, rfl, hc, hI⟩ := float_facts h
      obtain ⟨e1, e2⟩ := takeWhile_num h1 hr
      rw [List.cons_append, pNumber_step m hc hI, ← List.cons_append]
      simp only [pNumber, e1, e2, h2]
      rfl⟩
  | _, _, .str h => ⟨1, fun m hm r _ => by
      obtain ⟨m, rfl⟩ : ∃ k, m = k + 1 := ⟨m - 1, by omega⟩
      obtain ⟨u, rfl, hu⟩ := h
      show (pString (u ++ ['"'] ++ r)).map _ = _
      rw [List.append_assoc]
      show (pString (u ++ '"' :: r)).map _ = _
      rw [pString_eq hu]; rfl⟩
  | _, _, .emptyArr (w := w) h => ⟨1, fun m hm r _ => by
      obtain ⟨m, rfl⟩ : ∃ k, m = k + 1 := ⟨m - 1, by omega⟩
      have e : skipWs (w ++ [']'] ++ r) = ']' :: r := by
        rw [List.append_assoc, skip_ws h]; exact skip_of_head (by decide)
      show (if (skipWs (w ++ [']'] ++ r)).head? = some ']' then some (_, (skipWs (w ++ [']'] ++ r)).tail) else _) = _
      rw [e]; rfl⟩
  | _, _, .emptyObj (w := w) h => ⟨1, fun m hm r _ => by
      obtain ⟨m, rfl⟩ : ∃ k, m = k + 1 := ⟨m - 1, by omega⟩
      have e : skipWs (w ++ ['}'] ++ r) = '}' :: r := by
        rw [List.append_assoc, skip_ws h]; exact skip_of_head (by decide)
      show (if (skipWs (w ++ ['}'] ++ r)).head? = some '}' then some (_, (skipWs (w ++ ['}'] ++ r)).tail) else _) = _
      rw [e]; rfl⟩
  | _, _, .arr (s := s) h => by
      obtain ⟨n, hn⟩ := pItems_eq h
      refine ⟨n + 1, fun m hm r _ => ?_⟩
      obtain ⟨m, rfl⟩ : ∃ k, m = k + 1 := ⟨m - 1, by omega⟩
      have e : s ++ [']'] ++ r = s ++ ']' :: r := by simp
      show (if (skipWs (s ++ [']'] ++ r)).head? = some ']' then _ else (pItems read m (s ++ [']'] ++ r)).map _) = _
      rw [e, if_neg (items_start h _), hn m (by omega)]; rfl
  | _, _, .obj (s := s) h => by
      obtain ⟨n, hn⟩ := pMembers_eq h
      refine ⟨n + 1, fun m hm r _ => ?_⟩
      obtain ⟨m, rfl⟩ : ∃ k, m = k + 1 := ⟨m - 1, by omega⟩
      have e : s ++ ['}'] ++ r = s ++ '}' :: r := by simp
      show (if (skipWs (s ++ ['}'] ++ r)).head? = some '}' then _ else (pMembers read m (s ++ ['}'] ++ r)).map _) = _
      rw [e, if_neg (members_start h _), hn m (by omega)]; rfl
termination_by structural _ _ h => h

theorem pItems_eq {ext : Prop} {read : Text → F64} : {s : Text} → {v : Json} → {vs : List Json} → Items ext read s v vs →
    ∃ n, ∀ m, n ≤ m → ∀ r, pItems read m (s ++ ']' :: r) = some (v :: vs, r)
  | _, _, _, .one (a := a) (t := t) (v := v) (b := b) ha hv hb => by
      obtain ⟨n, hn⟩ := pValue_eq hv
      refine ⟨n + 1, fun m hm r => ?_⟩
      obtain ⟨m, rfl⟩ : ∃ k, m = k + 1 := ⟨m - 1, by omega⟩
      have e : skipWs (a ++ t ++ b ++ ']' :: r) = t ++ (b ++ ']' :: r) := by
        simp only [List.append_assoc]
        rw [skip_ws ha, skip_value hv]
      have e2 : skipWs (b ++ ']' :: r) = ']' :: r := by rw [skip_ws hb]; exact skip_of_head (by decide)
      have hN : NumEnd (b ++ ']' :: r) := numEnd_ws hb (numEnd_cons (by decide))
      simp only [pItems, e, hn m (by omega) _ hN, e2]
  | _, _, _, .more (a := a) (t := t) (v := v) (b := b) (s := s) (w := w) (vs := vs) ha hv hb hs => by
      obtain ⟨n, hn⟩ := pValue_eq hv
      obtain ⟨k, hk⟩ := pItems_eq hs
      refine ⟨n + k + 1, fun m hm r => ?_⟩
      obtain ⟨m, rfl⟩ : ∃ k, m = k + 1 := ⟨m - 1, by omega⟩
      have e : skipWs (a ++ t ++ b ++ ',' :: s ++ ']' :: r) = t ++ (b ++ ',' :: (s ++ ']' :: r)) := by
        simp only [List.append_assoc, List.cons_append]
        rw [skip_ws ha, skip_value hv]
      have e2 : skipWs (b ++ ',' :: (s ++ ']' :: r)) = ',' :: (s ++ ']' :: r) := by
        rw [skip_ws hb]; exact skip_of_head (by decide)
      have hN : NumEnd (b ++ ',' :: (s ++ ']' :: r)) := numEnd_ws hb (numEnd_cons (by decide))
      simp only [pItems, e, hn m (by omega) _ hN, e2, hk m (by omega)]
      rfl
termination_by structural _ _ _ h => h

theorem pMembers_eq {ext : Prop} {read : Text → F64} : {s : Text} → {e : Text × Json} → {es : List (Text × Json)} →
    Members ext read s e es → ∃ n, ∀ m, n ≤ m → ∀ r, pMembers read m (s ++ '}' :: r) = some (e :: es, r)
  | _, _, _, .one (a := a) (q := q) (k := k) (b := b) (c := c) (t := t) (v := v) (d := d) ha hq hb hc hv hd => by
      obtain ⟨n, hn⟩ := pValue_eq hv
      refine ⟨n + 1, fun m hm r => ?_⟩
      obtain ⟨m, rfl⟩ : ∃ k, m = k + 1 := ⟨m - 1, by omega⟩
      obtain ⟨u, rfl, hu⟩ := hq
      have e : skipWs (a ++ ('"' :: u ++ ['"']) ++ b ++ ':' :: c ++ t ++ d ++ '}' :: r) =
          '"' :: (u ++ '"' :: (b ++ ':' :: (c ++ (t ++ (d ++ '}' :: r))))) := by
        simp only [List.append_assoc, List.cons_append, List.nil_append]
        rw [skip_ws ha, skip_of_head (by decide)]
      have e2 : skipWs (b ++ ':' :: (c ++ (t ++ (d ++ '}' :: r)))) = ':' :: (c ++ (t ++ (d ++ '}' :: r))) := by
        rw [skip_ws hb]; exact skip_of_head (by decide)
      have e3 : skipWs (c ++ (t ++ (d ++ '}' :: r))) = t ++ (d ++ '}' :: r) := by rw [skip_ws hc, skip_value hv]
      have e4 : skipWs (d ++ '}' :: r) = '}' :: r := by rw [skip_ws hd]; exact skip_of_head (by decide)
      have hN : NumEnd (d ++ '}' :: r) := numEnd_ws hd (numEnd_cons (by decide))
      simp only [pMembers, e, pString_eq hu, e2, e3, hn m (by omega) _ hN, e4]
  | _, _, _, .more (a := a) (q := q) (k := k) (b := b) (c := c) (t := t) (v := v) (d := d) (s := s) (e := e') (es := es)
      ha hq hb hc hv hd hs => by
      obtain ⟨n, hn⟩ := pValue_eq hv
      obtain ⟨l, hl⟩ := pMembers_eq hs
      refine ⟨n + l + 1, fun m hm r => ?_⟩
      obtain ⟨m, rfl⟩ : ∃ k, m = k + 1 := ⟨m - 1, by omega⟩
      obtain ⟨u, rfl, hu⟩ := hq
      have e : skipWs (a ++ ('"' :: u ++ ['"']) ++ b ++ ':' :: c ++ t ++ d ++ ',' :: s ++ '}' :: r) =
          '"' :: (u ++ '"' :: (b ++ ':' :: (c ++ (t ++ (d ++ ',' :: (s ++ '}' :: r)))))) := by
        simp only [List.append_assoc, List.cons_append, List.nil_append]
        rw [skip_ws ha, skip_of_head (by decide)]
      have e2 : skipWs (b ++ ':' :: (c ++ (t ++ (d ++ ',' :: (s ++ '}' :: r))))) =
          ':' :: (c ++ (t ++ (d ++ ',' :: (s ++ '}' :: r)))) := by
        rw [skip_ws hb]; exact skip_of_head (by decide)
      have e3 : skipWs (c ++ (t ++ (d ++ ',' :: (s ++ '}' :: r)))) = t ++ (d ++ ',' :: (s ++ '}' :: r)) := by
        rw [skip_ws hc, skip_value hv]
      have e4 : skipWs (d ++ ',' :: (s ++ '}' :: r)) = ',' :: (s ++ '}' :: r) := by
        rw [skip_ws hd]; exact skip_of_head (by decide)
      have hN : NumEnd (d ++ ',' :: (s ++ '}' :: r)) := numEnd_ws hd (numEnd_cons (by decide))
      simp only [pMembers, e, pString_eq hu, e2, e3, hn m (by omega) _ hN, e4, hl m (by omega)]
      rfl
termination_by structural _ _ _ h => h
end

/-- A text denotes one document at most. -/
theorem denotes_unique {ext ext' : Prop} {read : Text → F64} {s : Text} {v w : Json} (h : Denotes ext read s v)
    (h' : Denotes ext' read s w) : v = w := by
  obtain ⟨a, t, b, rfl, ha, hv, hb⟩ := h
  obtain ⟨a', t', b', he, ha', hw, hb'⟩ := h'
  obtain ⟨n, hn⟩ := pValue_eq hv
  obtain ⟨k, hk⟩ := pValue_eq hw
  have end_ws : ∀ {x : Text}, Ws x → NumEnd x := fun {x} h => by
    have := numEnd_ws h (r := []) (by rintro _ ⟨⟩)
    rwa [List.append_nil] at this
  have e : skipWs (a ++ t ++ b) = t ++ b := by rw [List.append_assoc, skip_ws ha, skip_value hv]
  have e' : skipWs (a' ++ t' ++ b') = t' ++ b' := by rw [List.append_assoc, skip_ws ha', skip_value hw]
  rw [he, e'] at e
  have h1 := hn (n + k) (by omega) b (end_ws hb)
  have h2 := hk (n + k) (by omega) b' (end_ws hb')
  rw [← e, h2] at h1
  exact (Prod.ext_iff.1 (Option.some.inj h1)).1.symm

end PC.JsonText
