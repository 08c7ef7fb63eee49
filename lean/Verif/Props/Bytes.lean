import Verif.Lemmas.Bytes

/-
C44: bytes written to JSON and read back.
-/

namespace PC.Bytes
open PC.In

/-- What is assumed of `std::str::from_utf8`: it reads exactly the UTF-8 encodings. -/
structure ReadsUtf8 (fromUtf8 : List UInt8 → Option (List Char)) : Prop where
  sound : ∀ b t, fromUtf8 b = some t → Trunc.encode t = b
  complete : ∀ t, fromUtf8 (Trunc.encode t) = some t

/-- The assumption is met by the UTF-8 decoder of Lean's library. -/
theorem readsUtf8_lean : ReadsUtf8 (fun b => b.toByteArray.utf8Decode?.map Array.toList) := by
  have hc : ∀ t : List Char, ((Trunc.encode t).toByteArray.utf8Decode?.map Array.toList) = some t := by
    intro t
    have := List.utf8Decode?_utf8Encode (l := t)
    unfold Trunc.encode
    unfold List.utf8Encode at this
    rw [this]; simp
  refine ⟨?_, hc⟩
  intro b t h
  obtain ⟨a, ha, rfl⟩ := Option.map_eq_some_iff.1 h
  have hs : b.toByteArray.utf8Decode?.isSome := by rw [ha]; rfl
  obtain ⟨m, hm⟩ := ByteArray.isSome_utf8Decode?_iff.1 hs
  have hb : b = Trunc.encode m := by
    have := congrArg (fun x : ByteArray => x.data.toList) hm
    simpa [List.utf8Encode, Trunc.encode] using this
  subst hb
  have := hc m
  rw [ha] at this
  cases this
  rfl

/-- **C44.** In each mode, bytes written as a string, in `to_json` or in `to_python` with mode `json`, and
validated again from that string in the same mode give the same bytes: from JSON in any strictness, from a
Python string (exact or of a subclass) in lax mode. -/
theorem bytes_round_trip (fromUtf8 : List UInt8 → Option (List Char)) (hu : ReadsUtf8 fromUtf8) (m : Mode)
    (bs : List UInt8) (t : List Char)
    (ht : bytesToString fromUtf8 m bs = some t ∨ serializeBytes fromUtf8 m bs = some t) :
    Json.validateBytes (deserialize m) (.str t) = .ok (bs, .strict) ∧
    (∀ x : PyObj, x.kind = .str (some t) ∨ x.kind = .strSub (some t) →
      x.validateBytes (deserialize m) false = .ok (bs, .lax)) := by
  have hd : deserialize m t = .ok bs := by
    cases m with
    | utf8 =>
      have h : fromUtf8 bs = some t := by rcases ht with ht | ht <;> exact ht
      simp only [deserialize, hu.sound _ _ h]
    | base64 =>
      have h : t = asciiText (encode64 urlSafe bs) := by rcases ht with ht | ht <;> (cases ht; rfl)
      subst h
      have h2 : decodeEither (encode64 urlSafe bs) = .ok bs :=
        (decodeEither_iff _ _).2 (.inl ((decode64_exact good_urlSafe _ _).2 ⟨0, by simp⟩))
      simp only [deserialize, encode_asciiText _ (encode64_ascii bs), h2]
    | hex =>
      have h : t = asciiText (bs.flatMap hexByte) := by
        rcases ht with ht | ht
        · simp only [bytesToString, foldl_hex, List.nil_append] at ht; cases ht; rfl
        · cases ht; rfl
      subst h
      have h2 : hexDecode (bs.flatMap hexByte) = .ok bs :=
        (hexDecode_iff _ _).2 (lower_hexBytes bs)
      simp only [deserialize, encode_asciiText _ (hexBytes_ascii bs), h2]
  refine ⟨by simp only [Json.validateBytes, hd, Except.map], ?_⟩
  intro x hx
  rcases hx with hx | hx <;> simp [PyObj.validateBytes, hx, hd, Except.map]

/-- **C44.** Both ways of writing agree, and writing fails only in UTF-8 mode, for bytes that are not
UTF-8. -/
theorem bytes_written (fromUtf8 : List UInt8 → Option (List Char)) (hu : ReadsUtf8 fromUtf8) (m : Mode)
    (bs : List UInt8) :
    bytesToString fromUtf8 m bs = serializeBytes fromUtf8 m bs ∧
    (bytesToString fromUtf8 m bs = none ↔ m = .utf8 ∧ ∀ t, Trunc.encode t ≠ bs) := by
  refine ⟨?_, ?_⟩
  · cases m with
    | utf8 => rfl
    | base64 => rfl
    | hex => simp only [bytesToString, serializeBytes, foldl_hex, List.nil_append]
  · cases m with
    | base64 => simp [bytesToString]
    | hex => simp [bytesToString]
    | utf8 =>
      constructor
      · intro h
        refine ⟨rfl, fun t ht => ?_⟩
        subst ht
        have h' : fromUtf8 (Trunc.encode t) = none := h
        rw [hu.complete] at h'; cases h'
      · rintro ⟨-, h⟩
        cases hf : fromUtf8 bs with
        | none => exact hf
        | some t => exact absurd (hu.sound _ _ hf) (h t)

/-- The text is the base64 form of the bytes in the given alphabet, some or all of the padding possibly
left out. -/
def Spells (a : Alphabet) (bs : List UInt8) (t : List Char) : Prop :=
  ∃ j, Trunc.encode t ++ List.replicate j pad = encode64 a bs

/-- **C44.** In base64 mode exactly the base64 forms in the URL-safe or in the standard alphabet (not a
mixture) are accepted, padded or not, as the bytes they stand for; any other text is rejected with the
error for malformed text. -/
theorem base64_exact (t : List Char) (bs : List UInt8) :
    (deserialize .base64 t = .ok bs ↔ Spells urlSafe bs t ∨ Spells standard bs t) ∧
    ((∀ bs, ¬ Spells urlSafe bs t ∧ ¬ Spells standard bs t) →
      deserialize .base64 t = .error (.other "bytes_invalid_encoding")) := by
  have key : ∀ bs, decodeEither (Trunc.encode t) = .ok bs ↔ Spells urlSafe bs t ∨ Spells standard bs t := by
    intro bs
    rw [decodeEither_iff, decode64_exact good_urlSafe, decode64_exact good_standard]
    rfl
  refine ⟨?_, ?_⟩
  · rw [← key bs]
    simp only [deserialize]
    cases decodeEither (Trunc.encode t) with
    | ok x => simp
    | error e => simp
  · intro h
    simp only [deserialize]
    cases hd : decodeEither (Trunc.encode t) with
    | ok x => exact ((key x).1 hd).elim (fun h' => absurd h' (h x).1) (fun h' => absurd h' (h x).2)
    | error e => rfl

/-- **C44.** In hex mode exactly the texts of two hexadecimal digits per byte, of either case, are
accepted; any other text is rejected with the error for malformed text. -/
theorem hex_exact (t : List Char) (bs : List UInt8) :
    (deserialize .hex t = .ok bs ↔ (Trunc.encode t).map lower = bs.flatMap hexByte) ∧
    ((∀ bs : List UInt8, (Trunc.encode t).map lower ≠ bs.flatMap hexByte) →
      deserialize .hex t = .error (.other "bytes_invalid_encoding")) := by
  refine ⟨?_, ?_⟩
  · rw [← hexDecode_iff]
    simp only [deserialize]
    cases hexDecode (Trunc.encode t) with
    | ok x => simp
    | error e => simp
  · intro h
    simp only [deserialize]
    cases hd : hexDecode (Trunc.encode t) with
    | ok x => exact absurd ((hexDecode_iff _ _).1 hd) (h x)
    | error e => rfl

/-- **C44.** Texts in the same alphabet that stand for different bytes are different: decoding never
confuses two byte strings. -/
theorem spells_injective (t : List Char) (a : Alphabet) (ha : a = urlSafe ∨ a = standard) (bs bs' : List UInt8)
    (h : Spells a bs t) (h' : Spells a bs' t) : bs = bs' := by
  have g : Good a := ha.elim (fun e => e ▸ good_urlSafe) (fun e => e ▸ good_standard)
  have h1 := (decode64_exact g _ _).2 h
  have h2 := (decode64_exact g _ _).2 h'
  rw [h1] at h2; cases h2; rfl

/-! Cases that meet the hypotheses: `[251, 255, 0, 10]` is `-_8ACg==` in URL-safe base64 and `+/8ACg==` in
standard base64. -/

example : bytesToString (fun _ => none) .base64 [251, 255, 0, 10] = some "-_8ACg==".toList := by decide
example : bytesToString (fun _ => none) .hex [251, 255, 0, 10] = some "fbff000a".toList := by decide
example : deserialize .base64 "-_8ACg".toList = .ok [251, 255, 0, 10] := by
  rw [(base64_exact _ _).1]; exact .inl ⟨2, by decide⟩
example : deserialize .base64 "+/8ACg=".toList = .ok [251, 255, 0, 10] := by
  rw [(base64_exact _ _).1]; exact .inr ⟨1, by decide⟩
example : deserialize .hex "FBff000A".toList = .ok [251, 255, 0, 10] := by
  rw [(hex_exact _ _).1]; decide

set_option maxRecDepth 100000 in
example : deserialize .base64 "+_8ACg==".toList = .error (.other "bytes_invalid_encoding") := by decide
set_option maxRecDepth 100000 in
example : deserialize .base64 "-_8ACh".toList = .error (.other "bytes_invalid_encoding") := by decide
set_option maxRecDepth 100000 in
example : deserialize .hex "fb0".toList = .error (.other "bytes_invalid_encoding") := by decide

/-! ### The encoding against RFC 4648 -/

/-- The `w` low bits of a number, highest first. -/
def bits (w n : Nat) : List Nat := (List.range w).reverse.map (fun k => n / 2 ^ k % 2)

/-- **C44.** The alphabets are those of RFC 4648, tables 1 and 2, and its pad. -/
theorem alphabets_rfc4648 :
    (List.range 64).map (fun i => Char.ofNat (standard.sym i).toNat) =
      "ABCDEFGHIJKLMNOPQRSTUVWXYZabcdefghijklmnopqrstuvwxyz0123456789+/".toList ∧
    (List.range 64).map (fun i => Char.ofNat (urlSafe.sym i).toNat) =
      "ABCDEFGHIJKLMNOPQRSTUVWXYZabcdefghijklmnopqrstuvwxyz0123456789-_".toList ∧
    Char.ofNat pad.toNat = '=' := by
  refine ⟨?_, ?_, ?_⟩ <;> decide

/-- **C44.** The encoded text: the bits of the bytes, filled up with fewer than six zeros, are read in groups
of six, each written as its symbol; the text is padded to a multiple of four. -/
theorem encode64_bits (a : Alphabet) (bs : List UInt8) :
    ∃ (vals : List Nat) (z j : Nat), encode64 a bs = vals.map a.sym ++ List.replicate j pad ∧
      (∀ v ∈ vals, v < 64) ∧ z < 6 ∧ j < 4 ∧ (vals.length + j) % 4 = 0 ∧
      vals.flatMap (bits 6) = bs.flatMap (fun b => bits 8 b.toNat) ++ List.replicate z 0 := by
  have r6 : (List.range 6).reverse = [5, 4, 3, 2, 1, 0] := by decide
  have r8 : (List.range 8).reverse = [7, 6, 5, 4, 3, 2, 1, 0] := by decide
  fun_induction encode64 a bs with
  | case1 => exact ⟨[], 0, 0, rfl, by simp, by decide, by decide, rfl, rfl⟩
  | case2 x =>
    have hx := x.toNat_lt
    refine ⟨[x.toNat / 4, x.toNat % 4 * 16], 4, 2, rfl, ?_, by decide, by decide, by simp, ?_⟩
    · intro v hv
      simp only [List.mem_cons, List.not_mem_nil, or_false] at hv
      rcases hv with rfl | rfl <;> omega
    · simp only [List.flatMap_cons, List.flatMap_nil, bits, r6, r8, List.map_cons, List.map_nil, List.replicate,
        List.append_nil, List.cons_append, List.nil_append, List.cons.injEq, and_true]
      refine ⟨?_, ?_, ?_, ?_, ?_, ?_, ?_, ?_, ?_, ?_, ?_, ?_⟩ <;> omega
  | case3 x y =>
    have hx := x.toNat_lt
    have hy := y.toNat_lt
    refine ⟨[x.toNat / 4, x.toNat % 4 * 16 + y.toNat / 16, y.toNat % 16 * 4], 2, 1, rfl, ?_, by decide,
      by decide, by simp, ?_⟩
    · intro v hv
      simp only [List.mem_cons, List.not_mem_nil, or_false] at hv
      rcases hv with rfl | rfl | rfl <;> omega
    · simp only [List.flatMap_cons, List.flatMap_nil, bits, r6, r8, List.map_cons, List.map_nil, List.replicate,
        List.append_nil, List.cons_append, List.nil_append, List.cons.injEq, and_true]
      refine ⟨?_, ?_, ?_, ?_, ?_, ?_, ?_, ?_, ?_, ?_, ?_, ?_, ?_, ?_, ?_, ?_, ?_, ?_⟩ <;> omega
  | case4 x y z rest ih =>
    have hx := x.toNat_lt
    have hy := y.toNat_lt
    have hz := z.toNat_lt
    obtain ⟨vals, n, j, e1, e2, e3, e4, e5, e6⟩ := ih
    refine ⟨(x.toNat / 4) :: (x.toNat % 4 * 16 + y.toNat / 16) :: (y.toNat % 16 * 4 + z.toNat / 64)
      :: (z.toNat % 64) :: vals, n, j, by rw [e1]; rfl, ?_, e3, e4, by simp only [List.length_cons]; omega, ?_⟩
    · intro v hv
      simp only [List.mem_cons] at hv
      rcases hv with rfl | rfl | rfl | rfl | hv
      · omega
      · omega
      · omega
      · omega
      · exact e2 v hv
    · rw [List.flatMap_cons, List.flatMap_cons, List.flatMap_cons, List.flatMap_cons, e6]
      simp only [List.flatMap_cons, bits, r6, r8, List.map_cons, List.map_nil,
        List.cons_append, List.nil_append, List.cons.injEq, and_true]
      refine ⟨?_, ?_, ?_, ?_, ?_, ?_, ?_, ?_, ?_, ?_, ?_, ?_, ?_, ?_, ?_, ?_, ?_, ?_, ?_, ?_, ?_, ?_, ?_, ?_⟩ <;> omega

/-- **C44.** The hexadecimal text: two digits for each byte, the value in base sixteen. -/
theorem hex_digits (b : UInt8) : ∃ c d : Char, (hexByte b).map (fun x => Char.ofNat x.toNat) = [c, d] ∧
    c = "0123456789abcdef".toList[b.toNat / 16]?.getD ' ' ∧ d = "0123456789abcdef".toList[b.toNat % 16]?.getD ' ' := by
  have key : ∀ n : Fin 256, (hexByte (UInt8.ofNat n.val)).map (fun x => Char.ofNat x.toNat) =
      ["0123456789abcdef".toList[n.val / 16]?.getD ' ', "0123456789abcdef".toList[n.val % 16]?.getD ' '] := by
    decide +kernel
  have := key ⟨b.toNat, b.toNat_lt⟩
  rw [UInt8.ofNat_toNat] at this
  exact ⟨_, _, this, rfl, rfl⟩

end PC.Bytes
