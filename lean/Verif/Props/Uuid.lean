import Verif.Lemmas.Uuid

/-
C86: a UUID schema accepts exactly the UUIDs of its version, however they are spelled, and what
it writes is read back.
-/

namespace PC.Uuid
open PC.In

/-! ### A parser that meets the assumptions -/

/-- A parser of the canonical text, for the examples. -/
def sampleParse (s : List Char) : Option Nat :=
  if hexValue s < 2 ^ 128 ∧ print (hexValue s) = s then some (hexValue s) else none

/-- A decoder of ASCII, for the examples. -/
def sampleDecode (b : List UInt8) : Option (List Char) :=
  if b.all (· < 128) then some (b.map fun x => Char.ofNat x.toNat) else none

def sampleEnv : Env where
  parse := sampleParse
  decode := sampleDecode
  encode s := .ok (s.map fun c => c.toNat.toUInt8)
  json := ⟨fun _ => [], fun _ => [], fun _ => .nan⟩

theorem sampleParse_eq {s : List Char} {n : Nat} (h : sampleParse s = some n) :
    n < 2 ^ 128 ∧ print n = s := by
  unfold sampleParse at h
  split at h
  · next hc => cases h; exact hc
  · cases h

theorem sampleParse_print {n : Nat} (h : n < 2 ^ 128) : sampleParse (print n) = some n := by
  unfold sampleParse
  rw [hexValue_print h]
  exact if_pos (And.intro h rfl)

theorem sampleParse_length (s : List Char) (n : Nat) (h : sampleParse s = some n) :
    32 ≤ s.length := by
  have h' := print_length n
  rw [(sampleParse_eq h).2] at h'
  omega

theorem sampleDecode_length (b : List UInt8) (s : List Char) (h : sampleDecode b = some s) :
    s.length ≤ b.length := by
  unfold sampleDecode at h
  split at h
  · cases h; simp
  · cases h

theorem sampleEnv_parse : sampleEnv.parse = sampleParse := rfl
theorem sampleEnv_decode : sampleEnv.decode = sampleDecode := rfl

theorem sampleEnv_good : sampleEnv.Good := by
  constructor
  · intro n h; rw [sampleEnv_parse]; exact sampleParse_print h
  · intro s n h; rw [sampleEnv_parse] at h; exact (sampleParse_eq h).1
  · intro s n h; rw [sampleEnv_parse] at h; exact sampleParse_length s n h
  · intro b s h; rw [sampleEnv_decode] at h; exact sampleDecode_length b s h

/-- A UUID of version 4. -/
def sampleInt : Nat := 0x12345678123446788234567812345678

theorem sampleInt_version : IsVersion sampleInt 4 := by
  unfold IsVersion byteAt sampleInt
  norm_num

def sampleObj : Obj := ⟨sampleInt, .unknown, .ok (pyVersion sampleInt)⟩

theorem sampleObj_standard : sampleObj.Standard := fun k => by
  change Except.ok (pyVersion sampleInt) = Except.ok (some k) ↔ _
  rw [Except.ok.injEq]; exact pyVersion_iff _ _

/-! ### The schema -/

/-- A schema can be built exactly for no version and for the versions 1 and 3 to 8; for any other
the code panics. -/
theorem build_iff (strict : Bool) (version : Option Nat) (v : UuidV) :
    build strict version = some v ↔
      v = ⟨strict, version⟩ ∧ ∀ k, version = some k → k = 1 ∨ (3 ≤ k ∧ k ≤ 8) := by
  unfold build
  split <;> rename_i h <;>
    first
    | (simp only [Option.some.injEq]
       constructor
       · rintro rfl; exact ⟨rfl, fun k hk => by first | cases hk; omega | cases hk⟩
       · exact fun h => h.1.symm)
    | (simp only [reduceCtorEq, Option.some.injEq, forall_eq', false_iff, not_and]
       rintro -
       intro hk
       simp only [imp_false] at *
       omega)

example : build true (some 7) = some ⟨true, some 7⟩ := rfl
example : build true (some 2) = none := rfl

/-! ### Acceptance -/

/-- An instance of `uuid.UUID` is accepted, unchanged, exactly if it is of the version asked for,
whatever the mode. -/
theorem instance_iff (v : UuidV) (E : Env) (it : InputType) (o : Obj) (x : PyObj)
    (st : VState Input) (hr : o.Readable) (hs : o.Standard) (r : Out) :
    (v.validate E it (.py (some o) x) st).1 = .ok r ↔ r = .same o ∧ Wanted v.version o.int := by
  obtain ⟨pv, hpv⟩ := hr
  unfold UuidV.validate Wanted
  rw [show (Input.py (some o) x).inst = some o from rfl]
  dsimp only
  cases hv : v.version with
  | none => simp [eq_comm]
  | some k =>
    dsimp only
    rw [hpv]
    dsimp only
    have hk := hs k
    rw [hpv, Except.ok.injEq] at hk
    by_cases h : pv = some k
    · rw [if_pos h]
      simp only [Except.ok.injEq, Option.some.injEq, forall_eq']
      exact ⟨fun e => ⟨e.symm, hk.1 h⟩, fun e => e.1.symm⟩
    · rw [if_neg h]
      simp only [reduceCtorEq, Option.some.injEq, forall_eq', false_iff, not_and]
      exact fun _ h' => h (hk.2 h')

example : sampleObj.Readable ∧ sampleObj.Standard ∧ Wanted (some 4) sampleObj.int :=
  ⟨⟨_, rfl⟩, sampleObj_standard, fun _ h => by cases h; exact sampleInt_version⟩

/-- Anything else is accepted exactly if it spells a UUID of the version asked for and the
validation is not a strict one of a Python object; the result is a new object for that UUID. -/
theorem plain_iff (v : UuidV) (E : Env) (it : InputType) (input : Input) (st : VState Input)
    (hp : input.Plain) (r : Out) :
    (v.validate E it input st).1 = .ok r ↔
      ¬ (st.strictOr v.strict = true ∧ it = .python) ∧
      ∃ n, Spells E input n ∧ Wanted v.version n ∧
        r = .created ⟨n, .safe, .ok (pyVersion n)⟩ := by
  have hi : input.inst = none := by
    cases input with
    | py inst x => cases inst with
      | none => rfl
      | some o => exact absurd hp id
    | _ => rfl
  unfold UuidV.validate
  dsimp only
  rw [hi]
  dsimp only
  by_cases hs : st.strictOr v.strict = true ∧ it = .python
  · rw [if_pos (by simp [hs.1, hs.2])]
    simp [hs]
  · rw [if_neg (by simpa using hs)]
    simp only [hs, not_false_eq_true, true_and]
    cases hg : v.getUuid E input with
    | error t =>
      simp only [reduceCtorEq, false_iff, not_exists, not_and]
      intro n hn hw
      have := (getUuid_iff v E input hp n).2
        ⟨hn, fun k hk => ((isVersion_iff n k).1 (hw k hk)).1⟩
      rw [hg] at this
      cases this
    | ok m =>
      obtain ⟨hm, hv⟩ := (getUuid_iff v E input hp m).1 hg
      have uniq : ∀ n, Spells E input n → n = m := by
        intro n hn
        have h1 := (raw_iff E input hp n).2 hn
        have h2 := (raw_iff E input hp m).2 hm
        rw [h1] at h2
        cases h2
        rfl
      dsimp only
      cases hver : v.version with
      | none =>
        simp only [Except.ok.injEq]
        constructor
        · rintro rfl
          exact ⟨m, hm, fun k hk => (by cases hk), rfl⟩
        · rintro ⟨n, hn, -, rfl⟩
          rw [uniq n hn]
          rfl
      | some k =>
        dsimp only
        have hk := hv k hver
        by_cases hf : rfc4122 m = true
        · rw [if_neg (by simp [hk, hf])]
          simp only [Except.ok.injEq]
          constructor
          · rintro rfl
            exact ⟨m, hm, fun k' hk' => by cases hk'; exact (isVersion_iff m k).2 ⟨hk, hf⟩, rfl⟩
          · rintro ⟨n, hn, -, rfl⟩
            rw [uniq n hn]
            rfl
        · rw [if_pos (by simp [hf])]
          simp only [reduceCtorEq, false_iff, not_exists, not_and]
          intro n hn hw
          rw [uniq n hn] at hw
          exact absurd ((isVersion_iff m k).1 (hw k rfl)).2 hf

example : Input.Plain (.json (.str (print sampleInt))) ∧
    Spells sampleEnv (.json (.str (print sampleInt))) sampleInt ∧ Wanted (some 4) sampleInt :=
  ⟨trivial, .text .json (sampleEnv_good.parse_print _ (by unfold sampleInt; norm_num)),
    fun _ h => by cases h; exact sampleInt_version⟩

/-- An input spells at most one UUID. -/
theorem spells_unique (E : Env) (input : Input) (hp : input.Plain) (n m : Nat)
    (hn : Spells E input n) (hm : Spells E input m) : n = m := by
  have h1 := (raw_iff E input hp n).2 hn
  rw [(raw_iff E input hp m).2 hm] at h1
  cases h1
  rfl

/-- Whatever a schema with a version accepts reports that version. -/
theorem output_version (v : UuidV) (E : Env) (it : InputType) (input : Input) (st : VState Input)
    (r : Out) (k : Nat) (hv : v.version = some k)
    (h : (v.validate E it input st).1 = .ok r) : r.obj.version = .ok (some k) := by
  by_cases hp : input.Plain
  · obtain ⟨-, n, -, hw, rfl⟩ := (plain_iff v E it input st hp r).1 h
    exact congrArg Except.ok ((pyVersion_iff n k).2 (hw k hv))
  · cases input with
    | py inst x =>
      cases inst with
      | none => exact absurd trivial hp
      | some o =>
        unfold UuidV.validate at h
        rw [show (Input.py (some o) x).inst = some o from rfl] at h
        dsimp only at h
        rw [hv] at h
        dsimp only at h
        cases ho : o.version with
        | error e => rw [ho] at h; cases h
        | ok pv =>
          rw [ho] at h
          dsimp only at h
          split at h
          · next e => cases h; change o.version = _; rw [ho, e]
          · cases h
    | _ => exact absurd trivial hp

/-- A Python object that is none of the classes the code looks at. -/
def plainObj : PyObj := ⟨⟨.other, none, none, none⟩, none⟩

def st0 : VState Input := VState.new {} .init .off

example : ((UuidV.mk true (some 4)).validate sampleEnv .python (.py (some sampleObj) plainObj) st0).1
    = .ok (.same sampleObj) :=
  (instance_iff _ _ _ _ _ _ ⟨_, rfl⟩ sampleObj_standard _).2
    ⟨rfl, fun _ h => by cases h; exact sampleInt_version⟩

/-! ### Writing and reading back -/

/-- What is written is the canonical text of RFC 9562. -/
theorem print_canonical (o : Obj) (s : List Char) (h : uuidToString o = .ok s) :
    Canonical s ∧ hexValue s = o.int := by
  unfold uuidToString at h
  split at h
  · next hl =>
    cases h
    exact ⟨⟨print_length _, print_hyphens _, print_digits _⟩, hexValue_print hl⟩
  · cases h

/-- It is written for every UUID. -/
theorem print_total (o : Obj) : (∃ s, uuidToString o = .ok s) ↔ o.int < 2 ^ 128 := by
  unfold uuidToString
  split <;> simp_all

/-- Different UUIDs are written differently. -/
theorem print_injective (o o' : Obj) (s : List Char) (h : uuidToString o = .ok s)
    (h' : uuidToString o' = .ok s) : o.int = o'.int := by
  rw [← (print_canonical o s h).2, (print_canonical o' s h').2]

example : ∃ s, uuidToString sampleObj = .ok s :=
  (print_total _).2 (by unfold sampleObj sampleInt; norm_num)

/-- The text of a UUID is accepted exactly if the UUID itself is, for JSON and string input in
every mode; and the result is the same UUID. -/
theorem text_agrees (v : UuidV) (E : Env) (hE : E.Good) (it : InputType) (hit : it ≠ .python)
    (o : Obj) (x : PyObj) (st st' : VState Input) (hr : o.Readable) (hs : o.Standard)
    (s : List Char) (h : uuidToString o = .ok s) (input : Input) (hi : IsText input s) :
    ((∃ r, (v.validate E it input st).1 = .ok r) ↔
      ∃ r, (v.validate E .python (.py (some o) x) st').1 = .ok r) ∧
    ∀ r, (v.validate E it input st).1 = .ok r → r.obj.int = o.int := by
  have hp : input.Plain := by cases hi <;> trivial
  have hlt := (print_total o).1 ⟨s, h⟩
  have hsp : Spells E input o.int := by
    refine .text hi ?_
    unfold uuidToString at h
    rw [if_pos hlt] at h
    cases h
    exact hE.parse_print _ hlt
  refine ⟨?_, ?_⟩
  · constructor
    · rintro ⟨r, hr'⟩
      obtain ⟨-, n, hn, hw, -⟩ := (plain_iff v E it input st hp r).1 hr'
      rw [spells_unique E input hp n _ hn hsp] at hw
      exact ⟨_, (instance_iff v E .python o x st' hr hs (.same o)).2 ⟨rfl, hw⟩⟩
    · rintro ⟨r, hr'⟩
      obtain ⟨-, hw⟩ := (instance_iff v E .python o x st' hr hs r).1 hr'
      exact ⟨_, (plain_iff v E it input st hp _).2 ⟨fun hc => hit hc.2, o.int, hsp, hw, rfl⟩⟩
  · intro r hr'
    obtain ⟨-, n, hn, -, rfl⟩ := (plain_iff v E it input st hp r).1 hr'
    exact spells_unique E input hp n _ hn hsp

example : sampleEnv.Good ∧ sampleObj.Standard ∧ IsText (.json (.str (print sampleInt))) (print sampleInt) :=
  ⟨sampleEnv_good, sampleObj_standard, .json⟩

/-- Sixteen bytes in a Python object are read as the UUID of those bytes: none of them is taken
for text. -/
theorem sixteen_bytes (v : UuidV) (E : Env) (hE : E.Good) (st : VState Input) (x : PyObj)
    (b : List UInt8) (hb : IsBytes (.py none x) b) (hl : b.length = 16)
    (hs : st.strictOr v.strict = false) (n : Nat) (hn : n < 2 ^ 128)
    (hj : ∀ j (h : j < b.length), b[j].toNat = byteAt n j) (hw : Wanted v.version n) :
    (v.validate E .python (.py none x) st).1 = .ok (.created ⟨n, .safe, .ok (pyVersion n)⟩) := by
  refine (plain_iff v E .python (.py none x) st trivial _).2 ⟨by simp [hs], n, ?_, hw, rfl⟩
  refine .bytes hb (fun s hd => ?_) hl hn hj
  cases hp : E.parse s with
  | none => rfl
  | some m =>
    have h1 := hE.parse_length s m hp
    have h2 := hE.decode_length b s hd
    omega

example : IsBytes (.py none ⟨⟨.bytes (List.replicate 16 0) none, none, none, none⟩, none⟩)
    (List.replicate 16 0) ∧ (List.replicate 16 (0 : UInt8)).length = 16 ∧
    ∀ j (h : j < (List.replicate 16 (0 : UInt8)).length),
      (List.replicate 16 (0 : UInt8))[j].toNat = byteAt 0 j :=
  ⟨.bytes rfl, rfl, fun j h => by rw [List.getElem_replicate]; simp [byteAt]⟩

/-! ### The state and the errors -/

/-- Only an input that is no instance, validated as Python, is a coercion. -/
theorem state_after (v : UuidV) (E : Env) (it : InputType) (input : Input) (st : VState Input) :
    ((it ≠ .python ∨ ¬ input.Plain) → (v.validate E it input st).2 = st) ∧
    (it = .python → input.Plain → st.strictOr v.strict = false →
      (v.validate E it input st).2 = st.floorExactness .lax) := by
  constructor
  · intro h
    unfold UuidV.validate
    cases hi : input.inst with
    | some o =>
      dsimp only
      repeat' split
      all_goals rfl
    | none =>
      have hp : input.Plain := by
        cases input with
        | py inst x => cases hi; trivial
        | _ => trivial
      have hit : it ≠ .python := h.resolve_right (fun hn => hn hp)
      dsimp only
      rw [if_neg (by simp [hit]), if_neg hit]
      repeat' split
      all_goals rfl
  · rintro rfl hp hs
    unfold UuidV.validate
    have hi : input.inst = none := by
      cases input with
      | py inst x => cases inst with
        | none => rfl
        | some o => exact absurd hp id
      | _ => rfl
    rw [hi]
    dsimp only
    rw [hs, if_neg (by simp), if_pos rfl]
    repeat' split
    all_goals rfl

example : st0.strictOr false = false ∧ Input.Plain (.py none plainObj) := ⟨rfl, trivial⟩

/-- An input that is refused is refused with one error, about the whole input, unless the
`version` of an instance cannot be read. -/
theorem one_error (v : UuidV) (E : Env) (it : InputType) (input : Input) (st : VState Input)
    (hr : ∀ o, input.inst = some o → o.Readable) (e : ValError Input)
    (h : (v.validate E it input st).1 = .error e) : ∃ t, e = .lineErrors [⟨t, .empty, input⟩] := by
  unfold UuidV.validate at h
  cases hi : input.inst with
  | some o =>
    obtain ⟨pv, hpv⟩ := hr o hi
    rw [hi] at h
    dsimp only at h
    cases hv : v.version with
    | none => rw [hv] at h; cases h
    | some k =>
      rw [hv] at h
      dsimp only at h
      rw [hpv] at h
      dsimp only at h
      split at h
      · cases h
      · cases h; exact ⟨_, rfl⟩
  | none =>
    rw [hi] at h
    dsimp only at h
    repeat' split at h
    all_goals first | (cases h; done) | (cases h; exact ⟨_, rfl⟩)

example : ∃ e, ((UuidV.mk true none).validate sampleEnv .python (.py none plainObj) st0).1 = .error e :=
  ⟨_, rfl⟩

/-- The safety of a UUID does not survive: one whose safety is unknown is read back as safe. -/
theorem roundtrip_safety_witness :
    ∃ (o : Obj) (s : List Char) (r : Out), o.Standard ∧ o.isSafe = .unknown ∧
      uuidToString o = .ok s ∧
      ((UuidV.mk false none).validate sampleEnv .json (.json (.str s)) st0).1 = .ok r ∧
      r.obj.int = o.int ∧ r.obj.isSafe = .safe := by
  have hl : sampleInt < 2 ^ 128 := by unfold sampleInt; norm_num
  refine ⟨sampleObj, print sampleInt, _, sampleObj_standard, rfl, ?_,
    (plain_iff _ _ _ (.json (.str (print sampleInt))) _ trivial _).2 ⟨by simp, sampleInt,
      .text .json (sampleEnv_good.parse_print _ hl), (fun _ h => by cases h), rfl⟩, rfl, rfl⟩
  unfold uuidToString
  exact if_pos hl

end PC.Uuid
