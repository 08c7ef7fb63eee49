import Verif.Spec.Uuid
import Mathlib.Tactic.IntervalCases
import Mathlib.Data.List.Induction

namespace PC.Uuid
open PC.In

theorem rfc_iff (n : Nat) : rfc4122 n = true ↔ byteAt n 8 / 64 = 2 := by
  simp only [rfc4122, byteAt, beq_iff_eq]; omega

theorem versionNum_eq (n : Nat) : versionNum n = byteAt n 6 / 16 := by
  simp only [versionNum, byteAt]; omega

theorem isVersion_iff (n k : Nat) : IsVersion n k ↔ versionNum n = k ∧ rfc4122 n = true := by
  rw [IsVersion, rfc_iff, versionNum_eq]

theorem pyVersion_iff (n k : Nat) : pyVersion n = some k ↔ IsVersion n k := by
  rw [isVersion_iff, pyVersion]
  cases h : rfc4122 n <;> simp

/-! ### Text -/

theorem hexDigit_facts (d : Nat) (h : d < 16) :
    hexDigit d ≠ '-' ∧ IsHex (hexDigit d) ∧
      (if (hexDigit d).toNat < 58 then (hexDigit d).toNat - 48 else (hexDigit d).toNat - 87) = d := by
  interval_cases d <;> (refine ⟨by decide, ?_, by decide⟩; unfold IsHex; decide)

theorem hexDigits_length (k n : Nat) : (hexDigits k n).length = k := by
  induction k generalizing n with
  | zero => rfl
  | succ k ih => simp [hexDigits, ih]

theorem hexDigits_mem (k n : Nat) : ∀ c ∈ hexDigits k n, c ≠ '-' ∧ IsHex c := by
  induction k generalizing n with
  | zero => simp [hexDigits]
  | succ k ih =>
    intro c hc
    simp only [hexDigits, List.mem_append, List.mem_singleton] at hc
    rcases hc with hc | rfl
    · exact ih _ c hc
    · have := hexDigit_facts (n % 16) (by omega)
      exact ⟨this.1, this.2.1⟩

theorem filter_hexDigits (k n : Nat) : (hexDigits k n).filter (· ≠ '-') = hexDigits k n := by
  rw [List.filter_eq_self]
  intro c hc
  simpa using (hexDigits_mem k n c hc).1

theorem foldl_hexDigits (k n a : Nat) :
    (hexDigits k n).foldl
      (fun n c => 16 * n + (if c.toNat < 58 then c.toNat - 48 else c.toNat - 87)) a
      = 16 ^ k * a + n % 16 ^ k := by
  induction k generalizing n with
  | zero => simp [hexDigits, Nat.mod_one]
  | succ k ih =>
    rw [hexDigits, List.foldl_append, ih]
    simp only [List.foldl_cons, List.foldl_nil]
    rw [(hexDigit_facts (n % 16) (by omega)).2.2, pow_succ, Nat.mul_comm (16 ^ k) 16,
      Nat.mod_mul]
    rw [Nat.mul_add, Nat.mul_assoc]; omega

set_option linter.unusedSimpArgs false in
theorem hexValue_print {n : Nat} (h : n < 2 ^ 128) : hexValue (print n) = n := by
  unfold hexValue print
  simp only [List.filter_append, List.filter_cons, filter_hexDigits, List.foldl_append,
    foldl_hexDigits, List.cons_append]
  simp only [ne_eq, not_true_eq_false, decide_false, Bool.false_eq_true, if_false,
    filter_hexDigits, List.filter_append, List.foldl_append, foldl_hexDigits]
  norm_num at h ⊢
  omega

theorem print_length (n : Nat) : (print n).length = 36 := by
  simp [print, hexDigits_length]

theorem print_hyphens (n i : Nat) :
    (print n)[i]? = some '-' ↔ i = 8 ∨ i = 13 ∨ i = 18 ∨ i = 23 := by
  by_cases hi : i < 36
  · have hd : ∀ m, hexDigit (m % 16) ≠ '-' := fun m => (hexDigit_facts (m % 16) (by omega)).1
    simp only [print, hexDigits, List.nil_append, List.cons_append]
    interval_cases i <;> simp [hd]
  · rw [List.getElem?_eq_none (by rw [print_length]; omega)]
    constructor
    · intro h; cases h
    · intro h; omega

theorem print_digits (n : Nat) : ∀ c ∈ print n, c = '-' ∨ IsHex c := by
  intro c hc
  simp only [print, List.mem_append, List.mem_cons] at hc
  have h := fun k m hm => (hexDigits_mem k m c hm).2
  rcases hc with (((hc | hc | hc) | hc | hc) | hc | hc) | hc | hc <;>
    first | exact Or.inl hc | exact Or.inr (h _ _ hc)

/-! ### Bytes -/

/-- The number that bytes stand for, the most significant first. -/
def bytesValue (b : List UInt8) : Nat := b.foldl (fun n x => 256 * n + x.toNat) 0

theorem bytesValue_snoc (b : List UInt8) (x : UInt8) :
    bytesValue (b ++ [x]) = 256 * bytesValue b + x.toNat := by
  simp [bytesValue, List.foldl_append]

theorem bytesValue_lt (b : List UInt8) : bytesValue b < 256 ^ b.length := by
  induction b using List.reverseRecOn with
  | nil => simp [bytesValue]
  | append_singleton b x ih =>
    rw [bytesValue_snoc, List.length_append, List.length_singleton, pow_succ]
    have := x.toNat_lt
    omega

theorem bytesValue_get (b : List UInt8) (j : Nat) (h : j < b.length) :
    b[j].toNat = bytesValue b / 256 ^ (b.length - 1 - j) % 256 := by
  induction b using List.reverseRecOn with
  | nil => simp at h
  | append_singleton b x ih =>
    have hx := x.toNat_lt
    rw [bytesValue_snoc]
    simp only [List.length_append, List.length_singleton] at h ⊢
    by_cases hj : j < b.length
    · rw [List.getElem_append_left hj, ih hj,
        show b.length + 1 - 1 - j = (b.length - 1 - j) + 1 by omega, pow_succ,
        Nat.mul_comm _ 256, ← Nat.div_div_eq_div_mul,
        show (256 * bytesValue b + x.toNat) / 256 = bytesValue b by omega]
    · have : j = b.length := by omega
      subst this
      simp

theorem bytesValue_unique (b : List UInt8) (n : Nat) (hn : n < 256 ^ b.length)
    (h : ∀ (j : Nat) (hj : j < b.length), b[j].toNat = n / 256 ^ (b.length - 1 - j) % 256) :
    n = bytesValue b := by
  induction b using List.reverseRecOn generalizing n with
  | nil => simp [bytesValue] at hn ⊢; omega
  | append_singleton b x ih =>
    rw [bytesValue_snoc]
    have hl : n % 256 = x.toNat := by
      have := h b.length (by simp)
      simp at this
      exact this.symm
    have hr : n / 256 = bytesValue b := by
      apply ih
      · rw [List.length_append, List.length_singleton, pow_succ] at hn
        omega
      · intro j hj
        have := h j (by simp; omega)
        rw [List.getElem_append_left hj] at this
        rw [this, List.length_append, List.length_singleton,
          show b.length + 1 - 1 - j = (b.length - 1 - j) + 1 by omega, pow_succ,
          Nat.mul_comm _ 256, ← Nat.div_div_eq_div_mul]
    omega

theorem fromSlice_iff (b : List UInt8) (n : Nat) :
    fromSlice b = some n ↔
      b.length = 16 ∧ n < 2 ^ 128 ∧ ∀ j (h : j < b.length), b[j].toNat = byteAt n j := by
  unfold fromSlice
  by_cases hb : b.length = 16
  · rw [if_pos hb]
    have e : (256 : Nat) ^ b.length = 2 ^ 128 := by rw [hb]; norm_num
    constructor
    · intro h
      have hv : bytesValue b = n := Option.some.inj h
      subst hv
      refine ⟨hb, e ▸ bytesValue_lt b, fun j h => ?_⟩
      rw [bytesValue_get b j h, hb]; rfl
    · rintro ⟨-, hn, h⟩
      have := bytesValue_unique b n (by rw [e]; exact hn) (fun j hj => by
        rw [h j hj, hb]; rfl)
      exact congrArg some this.symm
  · rw [if_neg hb]
    constructor
    · intro h; cases h
    · intro h; exact absurd h.1 hb

/-! ### Reading -/

theorem ofBytes_iff (E : Env) (b : List UInt8) (n : Nat) :
    ofBytes E b = .ok n ↔
      (∃ s, E.decode b = some s ∧ E.parse s = some n) ∨
      ((∀ s, E.decode b = some s → E.parse s = none) ∧ fromSlice b = some n) := by
  unfold ofBytes
  cases hd : E.decode b with
  | none =>
    simp only [Option.bind_none]
    cases hf : fromSlice b <;> simp
  | some s =>
    simp only [Option.bind_some]
    cases hp : E.parse s with
    | none => cases hf : fromSlice b <;> simp [hp]
    | some m => simp [hp]

/-- `get_uuid` without its check of the version. -/
def rawUuid (E : Env) (input : Input) : Except ErrType Nat :=
  match input.str E.json with
  | .ok (.unencodable, _) => .error (.other "string_unicode")
  | .ok (.text s, _) =>
    match E.parse s with
    | some n => .ok n
    | none => .error (.other "uuid_parsing")
  | .error _ =>
    match input.bytes E.encode with
    | .error _ => .error (.other "uuid_type")
    | .ok (b, _) => ofBytes E b

theorem raw_text {E : Env} {input : Input} {s : List Char} {e : Exactness} {n : Nat}
    (hs : input.str E.json = .ok (.text s, e)) :
    rawUuid E input = .ok n ↔ E.parse s = some n := by
  unfold rawUuid
  rw [hs]
  dsimp only
  cases E.parse s <;> simp

theorem raw_bytes {E : Env} {input : Input} {b : List UInt8} {t : ErrType} {e : Exactness} {n : Nat}
    (hs : input.str E.json = .error t) (hb : input.bytes E.encode = .ok (b, e)) :
    rawUuid E input = .ok n ↔ ofBytes E b = .ok n := by
  unfold rawUuid
  rw [hs, hb]

theorem spells_of_text {E : Env} {i : Input} {s : List Char} {n : Nat} (h : IsText i s)
    (hu : ∀ s', IsText i s' → s' = s) (hb : ∀ b, ¬ IsBytes i b) :
    Spells E i n ↔ E.parse s = some n := by
  constructor
  · intro hsp
    cases hsp with
    | text ht hp => rw [← hu _ ht]; exact hp
    | bytesText hb' => exact absurd hb' (hb _)
    | bytes hb' => exact absurd hb' (hb _)
  · exact fun hp => .text h hp

theorem spells_of_bytes {E : Env} {i : Input} {b : List UInt8} {n : Nat} (h : IsBytes i b)
    (hu : ∀ b', IsBytes i b' → b' = b) (ht : ∀ s, ¬ IsText i s) :
    Spells E i n ↔ ofBytes E b = .ok n := by
  rw [ofBytes_iff, fromSlice_iff]
  constructor
  · intro hsp
    cases hsp with
    | text ht' => exact absurd ht' (ht _)
    | bytesText hb hd hp => rw [hu _ hb] at hd; exact Or.inl ⟨_, hd, hp⟩
    | bytes hb hno hl hn hj => have := hu _ hb; subst this; exact Or.inr ⟨hno, hl, hn, hj⟩
  · rintro (⟨s, hd, hp⟩ | ⟨hno, hl, hn, hj⟩)
    · exact .bytesText h hd hp
    · exact .bytes h hno hl hn hj

theorem spells_of_neither {E : Env} {i : Input} {n : Nat} (hb : ∀ b, ¬ IsBytes i b)
    (ht : ∀ s, ¬ IsText i s) : ¬ Spells E i n := by
  intro h
  cases h with
  | text h => exact ht _ h
  | bytesText h => exact hb _ h
  | bytes h => exact hb _ h

theorem raw_iff (E : Env) (input : Input) (hp : input.Plain) (n : Nat) :
    rawUuid E input = .ok n ↔ Spells E input n := by
  cases input with
  | json x =>
    cases x with
    | str s =>
      rw [raw_text (s := s) (e := .strict) rfl,
        spells_of_text .json (fun s' h => by cases h; rfl) (fun b h => by cases h)]
    | _ =>
      exact iff_of_false (by simp [rawUuid, Input.str, Input.bytes, Json.validateStr,
        Json.validateBytes]) (spells_of_neither (fun b h => by cases h) (fun s h => by cases h))
  | string x =>
    cases x with
    | mapping =>
      exact iff_of_false (by simp [rawUuid, Input.str, Input.bytes])
        (spells_of_neither (fun b h => by cases h) (fun s h => by cases h))
    | string s =>
      cases s with
      | none =>
        exact iff_of_false (by simp [rawUuid, Input.str])
          (spells_of_neither (fun b h => by cases h) (fun s h => by cases h))
      | some s =>
        rw [raw_text (s := s) (e := .strict) rfl,
          spells_of_text .strings (fun s' h => by cases h; rfl) (fun b h => by cases h)]
  | py inst x =>
    cases inst with
    | some o => exact absurd hp id
    | none =>
      have text : ∀ s, (x.kind = .str (some s) ∨ x.kind = .strSub (some s)) →
          (rawUuid E (.py none x) = .ok n ↔ Spells E (.py none x) n) := by
        intro s hk
        have h1 : ∃ e, (Input.py none x).str E.json = .ok (.text s, e) := by
          rcases hk with hk | hk <;> exact ⟨_, by simp only [Input.str, PyObj.validateStr, hk]; rfl⟩
        obtain ⟨e, h1⟩ := h1
        rw [raw_text h1]
        refine (spells_of_text ?_ ?_ ?_).symm
        · rcases hk with hk | hk
          · exact .str hk
          · exact .strSub hk
        · intro s' h
          cases h with
          | str h => rcases hk with hk | hk <;> rw [hk] at h <;> cases h; rfl
          | strSub h => rcases hk with hk | hk <;> rw [hk] at h <;> cases h; rfl
        · intro b h
          cases h with
          | bytes h => rcases hk with hk | hk <;> rw [hk] at h <;> cases h
          | bytesSub h => rcases hk with hk | hk <;> rw [hk] at h <;> cases h
      have bytes : ∀ b t, (x.kind = .bytes b t ∨ x.kind = .bytesSub b t) →
          (rawUuid E (.py none x) = .ok n ↔ Spells E (.py none x) n) := by
        intro b t hk
        have h1 : ∃ e, (Input.py none x).str E.json = .error e := by
          rcases hk with hk | hk <;> exact ⟨_, by simp only [Input.str, PyObj.validateStr, hk]; rfl⟩
        have h2 : ∃ e, (Input.py none x).bytes E.encode = .ok (b, e) := by
          rcases hk with hk | hk <;>
            exact ⟨_, by simp only [Input.bytes, PyObj.validateBytes, hk]; rfl⟩
        obtain ⟨e, h1⟩ := h1
        obtain ⟨e', h2⟩ := h2
        rw [raw_bytes h1 h2]
        refine (spells_of_bytes ?_ ?_ ?_).symm
        · rcases hk with hk | hk
          · exact .bytes hk
          · exact .bytesSub hk
        · intro s' h
          cases h with
          | bytes h => rcases hk with hk | hk <;> rw [hk] at h <;> cases h; rfl
          | bytesSub h => rcases hk with hk | hk <;> rw [hk] at h <;> cases h; rfl
        · intro b h
          cases h with
          | str h => rcases hk with hk | hk <;> rw [hk] at h <;> cases h
          | strSub h => rcases hk with hk | hk <;> rw [hk] at h <;> cases h
      cases hk : x.kind with
      | str s =>
        cases s with
        | some s => exact text s (Or.inl hk)
        | none =>
          refine iff_of_false (by simp [rawUuid, Input.str, PyObj.validateStr, hk])
            (spells_of_neither (fun b h => ?_) (fun s h => ?_)) <;>
            cases h <;> rename_i h <;> rw [hk] at h <;> cases h
      | strSub s =>
        cases s with
        | some s => exact text s (Or.inr hk)
        | none =>
          refine iff_of_false (by simp [rawUuid, Input.str, Input.bytes, PyObj.validateStr,
              PyObj.validateBytes, hk])
            (spells_of_neither (fun b h => ?_) (fun s h => ?_)) <;>
            cases h <;> rename_i h <;> rw [hk] at h <;> cases h
      | bytes b t => exact bytes b t (Or.inl hk)
      | bytesSub b t => exact bytes b t (Or.inr hk)
      | _ =>
        refine iff_of_false (by simp [rawUuid, Input.str, Input.bytes, PyObj.validateStr,
            PyObj.validateBytes, hk])
          (spells_of_neither (fun b h => ?_) (fun s h => ?_)) <;>
          cases h <;> rename_i h <;> rw [hk] at h <;> cases h

theorem getUuid_iff (v : UuidV) (E : Env) (input : Input) (hp : input.Plain) (n : Nat) :
    v.getUuid E input = .ok n ↔
      Spells E input n ∧ ∀ k, v.version = some k → versionNum n = k := by
  rw [← raw_iff E input hp]
  change (match rawUuid E input with
    | .error t => Except.error t
    | .ok n =>
      match v.version with
      | some k => if versionNum n ≠ k then .error (.other "uuid_version") else .ok n
      | none => .ok n) = .ok n ↔ _
  cases rawUuid E input with
  | error t => simp
  | ok m =>
    dsimp only
    cases v.version with
    | none => simp
    | some k =>
      dsimp only
      by_cases hk : versionNum m = k
      · rw [if_neg (by simpa using hk)]
        simp only [Except.ok.injEq, Option.some.injEq]
        constructor
        · rintro rfl; exact ⟨rfl, fun _ h => h ▸ hk⟩
        · exact fun h => h.1
      · rw [if_pos hk]
        simp only [reduceCtorEq, Except.ok.injEq, Option.some.injEq, false_iff]
        rintro ⟨rfl, h⟩
        exact hk (h k rfl)

end PC.Uuid
