import Verif.Model.BytesVal
import Verif.Props.Bytes

/-
Bytes schemas.
-/

namespace PC.BytesVal
open PC.In
open PC.Bytes (Mode deserialize Spells urlSafe standard hexByte lower ReadsUtf8 bytesToString serializeBytes)

/-- The bytes a text spells: its UTF-8 form, or those it is the base64 or hexadecimal form of. -/
def Reads (m : Mode) (s : List Char) (b : List UInt8) : Prop :=
  match m with
  | .utf8 => b = Trunc.encode s
  | .base64 => Spells urlSafe b s ∨ Spells standard b s
  | .hex => (Trunc.encode s).map lower = b.flatMap hexByte

/-- The bytes an input stands for: Python bytes are what they are, and if not `strict` bytearrays too and strings as text;
strings in JSON and in `validate_strings` are text always. -/
inductive Stands (m : Mode) (strict : Bool) : Inp → List UInt8 → Prop
  | bytes {x : PyObj} {len : Option Nat} {b : List UInt8} {t : Option (List Char)} (h : x.kind = .bytes b t) :
    Stands m strict (.py x len) b
  | bytesSub {x : PyObj} {len : Option Nat} {b : List UInt8} {t : Option (List Char)} (h : x.kind = .bytesSub b t) :
    Stands m strict (.py x len) b
  | bytearray {x : PyObj} {len : Option Nat} {b : List UInt8} {t : Option (List Char)} (hs : strict = false)
    (h : x.kind = .bytearray b t) : Stands m strict (.py x len) b
  | str {x : PyObj} {len : Option Nat} {s : List Char} {b : List UInt8} (hs : strict = false)
    (h : x.kind = .str (some s) ∨ x.kind = .strSub (some s)) (hb : Reads m s b) : Stands m strict (.py x len) b
  | json {s : List Char} {b : List UInt8} (hb : Reads m s b) : Stands m strict (.json (.str s)) b
  | key {s : List Char} {b : List UInt8} (hb : Reads m s b) : Stands m strict (.key s) b
  | string {s : List Char} {b : List UInt8} (hb : Reads m s b) : Stands m strict (.string (some s)) b

/-- `len(x)` of an instance of a subclass of `bytes` is the number of its bytes. -/
def Honest : Inp → Prop
  | .py x len => ∀ b t, x.kind = .bytesSub b t → len = some b.length
  | _ => True

/-- The number of bytes is within the limits. -/
def BytesV.Within (v : BytesV) (n : Nat) : Prop :=
  (∀ m, v.minLength = some m → m ≤ n) ∧ ∀ m, v.maxLength = some m → n ≤ m

theorem deserialize_iff (m : Mode) (s : List Char) (b : List UInt8) : deserialize m s = .ok b ↔ Reads m s b := by
  cases m with
  | utf8 => simp [deserialize, Reads, eq_comm]
  | base64 => exact (Bytes.base64_exact s b).1
  | hex => exact (Bytes.hex_exact s b).1

theorem map_ok {r : Except ErrType (List UInt8)} {f : List UInt8 → List UInt8 × Exactness} {b : List UInt8}
    (hf : ∀ b, (f b).1 = b) : (∃ ex, r.map f = .ok (b, ex)) ↔ r = .ok b := by
  cases r with
  | error e => simp [Except.map]
  | ok a =>
    have := hf a
    constructor
    · rintro ⟨ex, h⟩
      simp only [Except.map, Except.ok.injEq] at h
      rw [h] at this
      rw [show b = a from this]
    · intro h
      cases h
      refine ⟨(f b).2, ?_⟩
      simp only [Except.map, Except.ok.injEq]
      exact Prod.ext this rfl

theorem read_iff (m : Mode) (strict : Bool) (inp : Inp) (b : List UInt8) :
    (∃ ex, read m strict inp = .ok (b, ex)) ↔ Stands m strict inp b := by
  constructor
  · intro h
    cases inp with
    | py x len =>
      simp only [read] at h
      obtain ⟨ex, h⟩ := h
      cases hk : x.kind with
      | bytes c t => simp only [PyObj.validateBytes, hk, Except.ok.injEq, Prod.mk.injEq] at h; exact .bytes (h.1 ▸ hk)
      | bytesSub c t => simp only [PyObj.validateBytes, hk, Except.ok.injEq, Prod.mk.injEq] at h; exact .bytesSub (h.1 ▸ hk)
      | bytearray c t =>
        cases strict with
        | true => simp [PyObj.validateBytes, hk] at h
        | false =>
          simp [PyObj.validateBytes, hk] at h
          exact .bytearray rfl (h.1 ▸ hk)
      | str s =>
        cases strict with
        | true => simp [PyObj.validateBytes, hk] at h
        | false =>
          cases s with
          | none => simp [PyObj.validateBytes, hk] at h
          | some s =>
            simp only [PyObj.validateBytes, hk] at h
            exact .str rfl (.inl hk) ((deserialize_iff m s b).1 ((map_ok (fun _ => rfl)).1 ⟨ex, h⟩))
      | strSub s =>
        cases strict with
        | true => simp [PyObj.validateBytes, hk] at h
        | false =>
          cases s with
          | none => simp [PyObj.validateBytes, hk] at h
          | some s =>
            simp only [PyObj.validateBytes, hk] at h
            exact .str rfl (.inr hk) ((deserialize_iff m s b).1 ((map_ok (fun _ => rfl)).1 ⟨ex, h⟩))
      | _ => simp [PyObj.validateBytes, hk] at h
    | json x =>
      cases x with
      | str s => exact .json ((deserialize_iff m s b).1 ((map_ok (fun _ => rfl)).1 h))
      | _ => simp [read, Json.validateBytes] at h
    | key s => exact .key ((deserialize_iff m s b).1 ((map_ok (fun _ => rfl)).1 h))
    | string s =>
      cases s with
      | none => simp [read] at h
      | some s => exact .string ((deserialize_iff m s b).1 ((map_ok (fun _ => rfl)).1 h))
    | mapping => simp [read] at h
  · intro h
    cases h with
    | bytes h => exact ⟨.exact, by simp [read, PyObj.validateBytes, h]⟩
    | bytesSub h => exact ⟨.strict, by simp [read, PyObj.validateBytes, h]⟩
    | bytearray hs h => exact ⟨.lax, by simp [read, PyObj.validateBytes, h, hs]⟩
    | str hs h hb =>
      have hd := (deserialize_iff _ _ _).2 hb
      refine ⟨.lax, ?_⟩
      rcases h with h | h <;> simp [read, PyObj.validateBytes, h, hs, hd, Except.map]
    | json hb => exact ⟨.strict, by simp [read, Json.validateBytes, (deserialize_iff _ _ _).2 hb, Except.map]⟩
    | key hb => exact ⟨.strict, by simp [read, (deserialize_iff _ _ _).2 hb, Except.map]⟩
    | string hb => exact ⟨.strict, by simp [read, (deserialize_iff _ _ _).2 hb, Except.map]⟩

theorem length_honest {m : Mode} {strict : Bool} {inp : Inp} {b : List UInt8} {ex : Exactness} (hh : Honest inp)
    (h : read m strict inp = .ok (b, ex)) : length inp b = some b.length := by
  cases inp with
  | py x len =>
    unfold length
    dsimp only
    split
    · rfl
    · rename_i c t hk
      simp only [read, PyObj.validateBytes, hk, Except.ok.injEq, Prod.mk.injEq] at h
      rw [hh c t hk, h.1]
    · rfl
  | _ => rfl

theorem within_iff (v : BytesV) (n : Nat) :
    v.Within n ↔ v.minLength.any (n < ·) = false ∧ v.maxLength.any (· < n) = false := by
  unfold BytesV.Within
  cases v.minLength <;> cases v.maxLength <;> simp

/-! ### C94 -/

/-- C94. A bytes schema accepts an input as the bytes `b` exactly if it stands for them, and the number of bytes is within
the limits. (The strictness of the call, if given, is that of the schema.) Instances of subclasses of `bytes` must have the
length they have. -/
theorem bytes_accepted_exact_partial (v : BytesV) (strict : Option Bool) (inp : Inp) (hh : Honest inp) (b : List UInt8) :
    (∃ ex, v.validate strict inp = .ok (b, ex))
      ↔ Stands v.mode (strict.getD v.strict) inp b ∧ v.Within b.length := by
  rw [← read_iff, within_iff]
  constructor
  · rintro ⟨ex, h⟩
    unfold BytesV.validate at h
    cases hr : read v.mode (strict.getD v.strict) inp with
    | error e => rw [hr] at h; cases h
    | ok p =>
      obtain ⟨c, ex'⟩ := p
      rw [hr] at h
      dsimp only at h
      rw [length_honest hh hr] at h
      dsimp only at h
      cases h1 : v.minLength.any (c.length < ·) with
      | true => rw [h1] at h; cases h
      | false =>
        cases h2 : v.maxLength.any (· < c.length) with
        | true => rw [h1, h2] at h; cases h
        | false =>
          rw [h1, h2] at h
          cases h
          exact ⟨⟨ex, rfl⟩, h1, h2⟩
  · rintro ⟨⟨ex, h⟩, h1, h2⟩
    refine ⟨ex, ?_⟩
    unfold BytesV.validate
    rw [h]
    dsimp only
    rw [length_honest hh h]
    simp only [h1, h2]
    rfl

/-- C94. Bytes outside the limits are refused for the limit they break. -/
theorem bytes_limit_errors (v : BytesV) (strict : Option Bool) (inp : Inp) (hh : Honest inp) (b : List UInt8)
    (hs : Stands v.mode (strict.getD v.strict) inp b) :
    (∀ m, v.minLength = some m → b.length < m → v.validate strict inp = .error (.line (.other "bytes_too_short")))
      ∧ (∀ m, v.maxLength = some m → m < b.length → (∀ l, v.minLength = some l → l ≤ b.length) →
          v.validate strict inp = .error (.line (.other "bytes_too_long"))) := by
  obtain ⟨ex, h⟩ := (read_iff _ _ _ _).2 hs
  refine ⟨fun m hm hl => ?_, fun m hm hl hmin => ?_⟩
  · unfold BytesV.validate
    rw [h]
    dsimp only
    rw [length_honest hh h]
    simp [hm, hl]
  · unfold BytesV.validate
    rw [h]
    dsimp only
    rw [length_honest hh h]
    have h1 : v.minLength.any (b.length < ·) = false := by
      cases hv : v.minLength with
      | none => rfl
      | some l => simpa using hmin l hv
    simp [h1, hm, hl]

/-- C94. The limits are about bytes, not characters: of hexadecimal text in JSON each byte takes two characters, and text
read as UTF-8 counts the bytes of its UTF-8 form. -/
theorem limits_count_bytes (v : BytesV) (strict : Option Bool) (s : List Char) (b : List UInt8) (ex : Exactness)
    (h : v.validate strict (.json (.str s)) = .ok (b, ex)) :
    (v.mode = .hex → (∀ m, v.minLength = some m → 2 * m ≤ (Trunc.encode s).length)
        ∧ ∀ m, v.maxLength = some m → (Trunc.encode s).length ≤ 2 * m)
      ∧ (v.mode = .utf8 → (∀ m, v.minLength = some m → m ≤ (Trunc.encode s).length)
        ∧ ∀ m, v.maxLength = some m → (Trunc.encode s).length ≤ m) := by
  obtain ⟨hs, h1, h2⟩ := (bytes_accepted_exact_partial v strict (.json (.str s)) trivial b).1 ⟨ex, h⟩
  cases hs with
  | json hb =>
    refine ⟨fun hm => ?_, fun hm => ?_⟩
    · rw [hm] at hb
      have hl := congrArg List.length hb
      have h3 : (b.flatMap hexByte).length = 2 * b.length := by
        clear hb hl h1 h2 h
        induction b with
        | nil => rfl
        | cons x xs ih => simp only [List.flatMap_cons, List.length_append, ih, hexByte, List.length_cons, List.length_nil]; omega
      rw [List.length_map, h3] at hl
      exact ⟨fun m hm => by have := h1 m hm; omega, fun m hm => by have := h2 m hm; omega⟩
    · rw [hm] at hb
      simp only [Reads] at hb
      subst hb
      exact ⟨h1, h2⟩

/-- C94. What was accepted, written to JSON in the mode of the schema, is accepted again as the same bytes. -/
theorem bytes_revalidate (fromUtf8 : List UInt8 → Option (List Char)) (hu : ReadsUtf8 fromUtf8) (v : BytesV)
    (strict strict' : Option Bool) (inp : Inp) (hh : Honest inp) (b : List UInt8) (ex : Exactness)
    (h : v.validate strict inp = .ok (b, ex)) (t : List Char)
    (ht : bytesToString fromUtf8 v.mode b = some t ∨ serializeBytes fromUtf8 v.mode b = some t) :
    v.validate strict' (.json (.str t)) = .ok (b, .strict) := by
  obtain ⟨_, hw⟩ := (bytes_accepted_exact_partial v strict inp hh b).1 ⟨ex, h⟩
  have hr := (Bytes.bytes_round_trip fromUtf8 hu v.mode b t ht).1
  obtain ⟨h1, h2⟩ := (within_iff v _).1 hw
  unfold BytesV.validate
  simp only [read, hr, length, h1, h2]
  rfl

/-- An instance of a subclass of `bytes` with three bytes. -/
def threeBytes : PyObj := ⟨⟨.bytesSub [1, 2, 3] none, none, none, none⟩, none⟩

/-- C94, what is missing: a subclass of `bytes` whose `__len__` lies passes the limits. -/
theorem length_of_subclass_trusted :
    (⟨false, .utf8, none, some 2⟩ : BytesV).validate none (.py threeBytes (some 0)) = .ok ([1, 2, 3], .strict)
      ∧ ¬ (⟨false, .utf8, none, some 2⟩ : BytesV).Within 3 := by
  refine ⟨rfl, fun h => ?_⟩
  have := h.2 2 rfl
  omega

example : Honest (.py threeBytes (some 3)) ∧ Stands .hex true (.py threeBytes (some 3)) [1, 2, 3]
    ∧ Stands .hex true (.json (.str "0A0b".toList)) [10, 11]
    ∧ (⟨true, .hex, some 2, some 2⟩ : BytesV).validate none (.json (.str "0A0b".toList)) = .ok ([10, 11], .strict)
    ∧ (⟨true, .hex, some 2, some 2⟩ : BytesV).validate none (.json (.str "0A0b0C".toList))
      = .error (.line (.other "bytes_too_long"))
    ∧ (⟨true, .hex, some 2, some 2⟩ : BytesV).validate none (.json (.str "0A".toList))
      = .error (.line (.other "bytes_too_short")) := by
  refine ⟨fun b t h => ?_, .bytesSub rfl, .json ?_, by cbv, by cbv, by cbv⟩
  · cases h; rfl
  · show List.map lower (Trunc.encode "0A0b".toList) = _
    decide

end PC.BytesVal
