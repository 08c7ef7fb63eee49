import Verif.Model.Truncate

/-
Facts about UTF-8 encodings and character boundaries.
-/

namespace PC.Trunc

theorem boundary_iff (b : UInt8) : isUtf8CharBoundary b = true ↔ b.toNat < 128 ∨ 192 ≤ b.toNat := by
  have hlt := b.toNat_lt
  simp only [isUtf8CharBoundary, decide_eq_true_eq, ge_iff_le, Int8.le_iff_toInt_le]
  have h1 : (-0x40 : Int8).toInt = -64 := by decide
  have h2 : b.toInt8.toInt = (b.toNat : Int).bmod 256 := by
    show b.toInt8.toBitVec.toInt = _
    rw [UInt8.toBitVec_toInt8, BitVec.toInt_eq_toNat_bmod]; rfl
  rw [h1, h2, Int.bmod_def]
  split <;> omega

theorem encode_append (a b : List Char) : encode (a ++ b) = encode a ++ encode b := by
  simp [encode]

theorem encode_cons (c : Char) (b : List Char) : encode (c :: b) = String.utf8EncodeChar c ++ encode b := by
  simp [encode]

/-- A character takes one to four bytes, of which the first only looks like a boundary. -/
theorem char_bytes (c : Char) :
    1 ≤ (String.utf8EncodeChar c).length ∧ (String.utf8EncodeChar c).length ≤ 4 ∧
    ∀ (i : Nat) b, (String.utf8EncodeChar c)[i]? = some b → (isUtf8CharBoundary b = true ↔ i = 0) := by
  have hv : c.val.toNat < 1114112 := by
    have := c.valid
    rcases this with h | ⟨_, h⟩
    · have : c.val.toNat < 0xd800 := h
      omega
    · exact h
  unfold String.utf8EncodeChar
  dsimp only
  generalize c.val.toNat = v at *
  have nil? : ∀ (i : Nat) (b : UInt8), ([] : List UInt8)[i]? = some b → False := by
    intro i b h; simp at h
  split
  · refine ⟨by simp, by simp, ?_⟩
    rintro (_ | i) b h
    · cases h; simp only [boundary_iff, UInt8.toNat_ofNat', iff_true]; omega
    · exact (nil? i b h).elim
  · split
    · refine ⟨by simp, by simp, ?_⟩
      rintro (_ | _ | i) b h
      iterate 2 (cases h; simp only [boundary_iff, UInt8.toNat_ofNat', iff_true]; omega)
      exact (nil? i b h).elim
    · split
      · refine ⟨by simp, by simp, ?_⟩
        rintro (_ | _ | _ | i) b h
        iterate 3 (cases h; simp only [boundary_iff, UInt8.toNat_ofNat', iff_true]; omega)
        exact (nil? i b h).elim
      · refine ⟨by simp, by simp, ?_⟩
        rintro (_ | _ | _ | _ | i) b h
        iterate 4 (cases h; simp only [boundary_iff, UInt8.toNat_ofNat', iff_true]; omega)
        exact (nil? i b h).elim

/-- The character that contains byte `i`. -/
theorem split_at (s : List Char) (i : Nat) (h : i < (encode s).length) :
    ∃ pre c suf, s = pre ++ c :: suf ∧ (encode pre).length ≤ i ∧
      i < (encode pre).length + (String.utf8EncodeChar c).length := by
  induction s generalizing i with
  | nil => simp [encode] at h
  | cons a s ih =>
    by_cases hi : i < (String.utf8EncodeChar a).length
    · exact ⟨[], a, s, rfl, by simp [encode], by simpa [encode] using hi⟩
    · rw [encode_cons, List.length_append] at h
      obtain ⟨pre, c, suf, rfl, h1, h2⟩ := ih (i - (String.utf8EncodeChar a).length) (by omega)
      refine ⟨a :: pre, c, suf, rfl, ?_, ?_⟩ <;> rw [encode_cons, List.length_append] <;> omega

/-- Within the character that starts after `pre`, the first byte only is a boundary. -/
theorem boundary_at (pre : List Char) (c : Char) (suf : List Char) (j : Nat)
    (h1 : (encode pre).length ≤ j) (h2 : j < (encode pre).length + (String.utf8EncodeChar c).length) :
    ∃ b, (encode (pre ++ c :: suf))[j]? = some b ∧ (isUtf8CharBoundary b = true ↔ j = (encode pre).length) := by
  have hlt : j - (encode pre).length < (String.utf8EncodeChar c).length := by omega
  refine ⟨(String.utf8EncodeChar c)[j - (encode pre).length], ?_, ?_⟩
  · rw [encode_append, encode_cons, List.getElem?_append_right h1, List.getElem?_append_left hlt,
      List.getElem?_eq_getElem hlt]
  · rw [(char_bytes c).2.2 _ _ (List.getElem?_eq_getElem hlt)]; omega

theorem isCharBoundary_split (pre suf : List Char) :
    isCharBoundary (encode (pre ++ suf)) (encode pre).length = true := by
  unfold isCharBoundary
  split
  · rfl
  · cases suf with
    | nil => simp
    | cons c suf =>
      have := (char_bytes c).1
      obtain ⟨b, hb, hi⟩ := boundary_at pre c suf (encode pre).length (Nat.le_refl _) (by omega)
      rw [hb]; exact hi.2 rfl

theorem slice_prefix (pre suf : List Char) :
    strSlice (encode (pre ++ suf)) 0 (encode pre).length = some (encode pre) := by
  have : isCharBoundary (encode (pre ++ suf)) 0 = true := rfl
  simp only [strSlice, this, isCharBoundary_split, byteSlice]
  simp [encode_append]

theorem slice_suffix (pre suf : List Char) :
    strSlice (encode (pre ++ suf)) (encode pre).length (encode (pre ++ suf)).length = some (encode suf) := by
  have := isCharBoundary_split (pre ++ suf) []
  rw [List.append_nil] at this
  simp only [strSlice, isCharBoundary_split, this, byteSlice]
  rw [List.take_length]
  simp [encode_append]

/-- The last element of `l` satisfying `p`. -/
theorem rposition_eq {γ : Type} (p : γ → Bool) (l : List γ) (k : Nat) (a : γ) (hk : l[k]? = some a) (hp : p a = true)
    (hr : ∀ (j : Nat) b, k < j → l[j]? = some b → p b = false) : rposition p l = some k := by
  have hkl : k < l.length := (List.getElem?_eq_some_iff.1 hk).1
  have hka : l[k] = a := (List.getElem?_eq_some_iff.1 hk).2
  have : l.reverse.findIdx? p = some (l.length - 1 - k) := by
    rw [List.findIdx?_eq_some_iff_getElem]
    refine ⟨by simp; omega, ?_, ?_⟩
    · rw [List.getElem_reverse]
      have : l.length - 1 - (l.length - 1 - k) = k := by omega
      simp only [this]
      rw [hka]; exact hp
    · intro j hj
      rw [List.getElem_reverse]
      have := hr (l.length - 1 - j) _ (by omega) (List.getElem?_eq_getElem (by omega))
      simp [this]
  rw [rposition, this]
  simp only [Option.map_some]
  congr 1; omega

theorem getElem?_slice (l : List UInt8) (lo hi j : Nat) :
    ((l.take hi).drop lo)[j]? = if lo + j < hi then l[lo + j]? else none := by
  rw [List.getElem?_drop, List.getElem?_take]

/-- `floor_char_boundary` gives the start of the character containing byte `i`. -/
theorem floor_eq (pre : List Char) (c : Char) (suf : List Char) (i : Nat) (h1 : (encode pre).length ≤ i)
    (h2 : i < (encode pre).length + (String.utf8EncodeChar c).length) :
    floorCharBoundary (encode (pre ++ c :: suf)) i = some (encode pre).length := by
  obtain ⟨hc1, hc4, _⟩ := char_bytes c
  have hlen : i < (encode (pre ++ c :: suf)).length := by
    rw [encode_append, encode_cons, List.length_append, List.length_append]; omega
  have hnot : ¬ (i ≥ (encode (pre ++ c :: suf)).length) := by omega
  simp only [floorCharBoundary, hnot, if_false]
  have hb : byteSlice (encode (pre ++ c :: suf)) (i - 3) (i + 1)
      = some (((encode (pre ++ c :: suf)).take (i + 1)).drop (i - 3)) := by
    simp only [byteSlice]; rw [if_pos (by omega)]
  rw [hb]
  dsimp only
  obtain ⟨b, hbb, hbi⟩ := boundary_at pre c suf (encode pre).length (Nat.le_refl _) (by omega)
  rw [rposition_eq isUtf8CharBoundary _ ((encode pre).length - (i - 3)) b ?_ (hbi.2 rfl) ?_]
  · simp only [Option.map_some]; congr 1; omega
  · rw [getElem?_slice, if_pos (by omega)]
    rw [← hbb]; congr 1; omega
  · intro j b' hj hb'
    rw [getElem?_slice] at hb'
    split at hb'
    · obtain ⟨b'', hb'', hi''⟩ := boundary_at pre c suf (i - 3 + j) (by omega) (by omega)
      rw [hb''] at hb'; cases hb'
      have : ¬ (i - 3 + j = (encode pre).length) := by omega
      rw [← hi''] at this
      simpa using this
    · cases hb'

/-- `ceil_char_boundary` at a boundary. -/
theorem ceil_eq_start (pre suf : List Char) :
    ceilCharBoundary (encode (pre ++ suf)) (encode pre).length = some (encode pre).length := by
  simp only [ceilCharBoundary]
  cases suf with
  | nil => simp [byteSlice]
  | cons c suf =>
    obtain ⟨hc1, hc4, _⟩ := char_bytes c
    have hlen : (encode (pre ++ c :: suf)).length
        = (encode pre).length + ((String.utf8EncodeChar c).length + (encode suf).length) := by
      rw [encode_append, encode_cons, List.length_append, List.length_append]
    obtain ⟨b, hbb, hbi⟩ := boundary_at pre c suf (encode pre).length (Nat.le_refl _) (by omega)
    have hb : byteSlice (encode (pre ++ c :: suf)) (encode pre).length
          (min ((encode pre).length + 4) (encode (pre ++ c :: suf)).length)
        = some (((encode (pre ++ c :: suf)).take (min ((encode pre).length + 4) (encode (pre ++ c :: suf)).length)).drop
            (encode pre).length) := by
      simp only [byteSlice]; rw [if_pos (by omega)]
    rw [hb]
    dsimp only
    have : (((encode (pre ++ c :: suf)).take (min ((encode pre).length + 4) (encode (pre ++ c :: suf)).length)).drop
            (encode pre).length).findIdx? isUtf8CharBoundary = some 0 := by
      have h0 := getElem?_slice (encode (pre ++ c :: suf)) (encode pre).length
        (min ((encode pre).length + 4) (encode (pre ++ c :: suf)).length) 0
      rw [if_pos (by omega)] at h0
      have h0 := h0.trans hbb
      obtain ⟨hlt, he⟩ := List.getElem?_eq_some_iff.1 h0
      rw [List.findIdx?_eq_some_iff_getElem]
      exact ⟨hlt, by rw [he]; exact hbi.2 rfl, fun j hj => absurd hj (by omega)⟩
    rw [this]
    simp

/-- `ceil_char_boundary` inside a character gives the end of that character. -/
theorem ceil_eq_end (pre : List Char) (c : Char) (suf : List Char) (i : Nat) (h1 : (encode pre).length < i)
    (h2 : i < (encode pre).length + (String.utf8EncodeChar c).length) :
    ceilCharBoundary (encode (pre ++ c :: suf)) i
      = some ((encode pre).length + (String.utf8EncodeChar c).length) := by
  obtain ⟨hc1, hc4, _⟩ := char_bytes c
  have hlen : (encode (pre ++ c :: suf)).length
      = (encode pre).length + ((String.utf8EncodeChar c).length + (encode suf).length) := by
    rw [encode_append, encode_cons, List.length_append, List.length_append]
  simp only [ceilCharBoundary]
  have hb : byteSlice (encode (pre ++ c :: suf)) i (min (i + 4) (encode (pre ++ c :: suf)).length)
      = some (((encode (pre ++ c :: suf)).take (min (i + 4) (encode (pre ++ c :: suf)).length)).drop i) := by
    simp only [byteSlice]; rw [if_pos (by omega)]
  rw [hb]
  dsimp only
  -- no boundary before the end of the character
  have hno : ∀ (j : Nat) b, i + j < (encode pre).length + (String.utf8EncodeChar c).length →
      (((encode (pre ++ c :: suf)).take (min (i + 4) (encode (pre ++ c :: suf)).length)).drop i)[j]? = some b →
      isUtf8CharBoundary b = false := by
    intro j b hj hb'
    rw [getElem?_slice] at hb'
    split at hb'
    · obtain ⟨b'', hb'', hi''⟩ := boundary_at pre c suf (i + j) (by omega) hj
      rw [hb''] at hb'; cases hb'
      have : ¬ (i + j = (encode pre).length) := by omega
      rw [← hi''] at this
      simpa using this
    · cases hb'
  cases suf with
  | nil =>
    have hend : min (i + 4) (encode (pre ++ [c])).length
        = (encode pre).length + (String.utf8EncodeChar c).length := by
      rw [hlen]; have : (encode []).length = 0 := rfl
      omega
    have : (((encode (pre ++ [c])).take (min (i + 4) (encode (pre ++ [c])).length)).drop i).findIdx?
        isUtf8CharBoundary = none := by
      rw [List.findIdx?_eq_none_iff]
      intro b hb'
      obtain ⟨j, hj⟩ := List.getElem?_of_mem hb'
      have hlt := (List.getElem?_eq_some_iff.1 hj).1
      simp only [List.length_drop, List.length_take] at hlt
      exact hno j b (by omega) hj
    rw [this]
    dsimp only
    rw [hend]
  | cons d suf =>
    obtain ⟨hd1, hd4, _⟩ := char_bytes d
    have hsplit : pre ++ c :: d :: suf = (pre ++ [c]) ++ d :: suf := by simp
    have hpl : (encode (pre ++ [c])).length = (encode pre).length + (String.utf8EncodeChar c).length := by
      rw [encode_append, List.length_append]; simp [encode]
    obtain ⟨b, hbb, hbi⟩ := boundary_at (pre ++ [c]) d suf (encode (pre ++ [c])).length (Nat.le_refl _) (by omega)
    rw [← hsplit] at hbb
    rw [encode_cons, List.length_append] at hlen
    have : (((encode (pre ++ c :: d :: suf)).take (min (i + 4) (encode (pre ++ c :: d :: suf)).length)).drop i).findIdx?
        isUtf8CharBoundary = some ((encode (pre ++ [c])).length - i) := by
      have h0 := getElem?_slice (encode (pre ++ c :: d :: suf)) i
        (min (i + 4) (encode (pre ++ c :: d :: suf)).length) ((encode (pre ++ [c])).length - i)
      have hii : i + ((encode (pre ++ [c])).length - i) = (encode (pre ++ [c])).length := by omega
      rw [if_pos (by omega), hii, hbb] at h0
      obtain ⟨hlt, he⟩ := List.getElem?_eq_some_iff.1 h0
      rw [List.findIdx?_eq_some_iff_getElem]
      refine ⟨hlt, by rw [he]; exact hbi.2 rfl, fun j hj => ?_⟩
      have hno' := hno j _ (by omega) (List.getElem?_eq_getElem (Nat.lt_trans hj hlt))
      rw [hno']; simp
    rw [this]
    dsimp only
    congr 1; omega

end PC.Trunc
