import Verif.Lemmas.Truncate

/-
C43: the input shown in error messages.
-/

namespace PC.Trunc

/-- C43. A text that fits the limit is shown in full. -/
theorem short_text_in_full (s : List Char) (maxLen : Nat) (h : (encode s).length ≤ maxLen) :
    writeTruncated (encode s) maxLen = some (encode s) := by
  simp only [writeTruncated]; rw [if_neg (by omega)]

example : writeTruncated (encode "héllo".toList) 6 = some (encode "héllo".toList) := by decide

/-- C43. A longer text is shown as a beginning of it, three dots and an end of it. Both are whole
characters of the text, something is left out between them, the beginning takes at most half of the limit
(rounded up) and the end less than that, so that all together is at most three bytes longer than the limit.
Neither could be one character longer. Nothing panics.

Partial: for the limit 0 see `zero_limit_panics`. -/
theorem long_text_truncated_partial (s : List Char) (maxLen : Nat) (h0 : 0 < maxLen) (h : maxLen < (encode s).length) :
    ∃ pre mid suf, s = pre ++ mid ++ suf ∧ mid ≠ [] ∧
      writeTruncated (encode s) maxLen = some (encode pre ++ encode "...".toList ++ encode suf) ∧
      (encode pre ++ encode "...".toList ++ encode suf).length ≤ maxLen + 3 ∧
      2 * (encode pre).length ≤ maxLen + 1 ∧ 2 * (encode suf).length < maxLen ∧
      (∀ c, mid.head? = some c → maxLen < 2 * (encode (pre ++ [c])).length) ∧
      (∀ c, mid.getLast? = some c → maxLen ≤ 2 * (encode (c :: suf)).length) := by
  obtain ⟨pre, c, rest, rfl, hp1, hp2⟩ := split_at s ((maxLen + 1) / 2) (by omega)
  have hlen : (encode (pre ++ c :: rest)).length
      = (encode pre).length + ((String.utf8EncodeChar c).length + (encode rest).length) := by
    rw [encode_append, encode_cons, List.length_append, List.length_append]
  have hc1 := (char_bytes c).1
  generalize hL : (encode (pre ++ c :: rest)).length = L at *
  have hdots : (encode "...".toList).length = 3 := by decide
  have hmid : ¬ ((maxLen + 1) / 2 = 0) := by omega
  have hfl := floor_eq pre c rest _ hp1 hp2
  have hsl := slice_prefix pre (c :: rest)
  -- what is left is that the end is found
  have hend : ∃ pre' mid suf, pre ++ c :: rest = pre' ++ suf ∧ c :: rest = mid ++ suf ∧ mid ≠ [] ∧
      ceilCharBoundary (encode (pre ++ c :: rest)) (L - ((maxLen + 1) / 2 - 1)) = some (encode pre').length ∧
      2 * (encode suf).length < maxLen ∧
      (∀ d, mid.getLast? = some d → maxLen ≤ 2 * (encode (d :: suf)).length) := by
    have key : ∀ (pre' : List Char) (suf : List Char), pre ++ c :: rest = pre' ++ suf →
        (encode pre').length + (encode suf).length = L := by
      intro pre' suf hsplit
      rw [← List.length_append, ← encode_append, ← hsplit, hL]
    -- the end of `pre'` lies beyond the start of `c`
    have sub : ∀ (pre' suf : List Char), pre ++ c :: rest = pre' ++ suf → (encode pre).length < (encode pre').length →
        ∃ mid, c :: rest = mid ++ suf ∧ mid ≠ [] ∧ pre' = pre ++ mid := by
      intro pre' suf hsplit hlt
      rcases List.append_eq_append_iff.1 hsplit with ⟨as, h1, h2⟩ | ⟨bs, h1, h2⟩
      · refine ⟨as, h2, ?_, h1⟩
        rintro rfl
        simp at h1; subst h1; omega
      · exfalso
        rw [h1, encode_append, List.length_append] at hlt; omega
    by_cases hone : (maxLen + 1) / 2 - 1 = 0
    · -- the end is empty
      rw [hone, Nat.sub_zero, ← hL]
      have := ceil_eq_start (pre ++ c :: rest) []
      rw [List.append_nil] at this
      refine ⟨pre ++ c :: rest, c :: rest, [], by simp, by simp, by simp, this, by simp [encode]; omega, ?_⟩
      intro d _
      have := (char_bytes d).1
      rw [encode_cons, List.length_append]; omega
    · have hi : L - ((maxLen + 1) / 2 - 1) < L := by omega
      obtain ⟨p, d, q, hs, hq1, hq2⟩ := split_at (pre ++ c :: rest) (L - ((maxLen + 1) / 2 - 1)) (by omega)
      have hd := char_bytes d
      by_cases hst : (encode p).length = L - ((maxLen + 1) / 2 - 1)
      · obtain ⟨mid, hm1, hm2, hm3⟩ := sub p (d :: q) hs (by omega)
        have hk := key p (d :: q) hs
        refine ⟨p, mid, d :: q, hs, hm1, hm2, ?_, by omega, ?_⟩
        · rw [hs, ← hst]; exact ceil_eq_start p (d :: q)
        · intro e _
          have := (char_bytes e).1
          rw [encode_cons, List.length_append]; omega
      · have hs' : pre ++ c :: rest = (p ++ [d]) ++ q := by rw [hs]; simp
        have hpd : (encode (p ++ [d])).length = (encode p).length + (String.utf8EncodeChar d).length := by
          rw [encode_append, List.length_append]; simp [encode]
        obtain ⟨mid, hm1, hm2, hm3⟩ := sub (p ++ [d]) q hs' (by omega)
        have hk := key (p ++ [d]) q hs'
        refine ⟨p ++ [d], mid, q, hs', hm1, hm2, ?_, by omega, ?_⟩
        · rw [hs, hpd]; exact ceil_eq_end p d q _ (by omega) hq2
        · intro e he
          have hde : e = d := by
            have h1 : (p ++ [d]).getLast? = some d := by simp
            rw [hm3, List.getLast?_append, he] at h1
            simpa using h1
          subst hde
          rw [encode_cons, List.length_append]; omega
  obtain ⟨pre', mid, suf, hsplit, hm1, hm2, hce, hsuf, hmax⟩ := hend
  have hss := slice_suffix pre' suf
  rw [← hsplit, hL] at hss
  refine ⟨pre, mid, suf, by rw [List.append_assoc, ← hm1], hm2, ?_, ?_, by omega, hsuf, ?_, hmax⟩
  · simp only [writeTruncated, hL]
    rw [if_pos (by omega), if_neg hmid]
    simp only [hfl, hsl, hce, hss]
    rfl
  · simp only [List.length_append, hdots]; omega
  · intro e he
    have : e = c := by
      cases mid with
      | nil => cases he
      | cons a mid => simp at he hm1; rw [← he, hm1.1]
    subst this
    rw [encode_append, List.length_append]
    simp [encode] at hp2 ⊢
    omega

/-- Ten letters, each of two bytes, cut to a limit of nine bytes: two letters, dots, two letters. -/
example : writeTruncated (encode "éèéèéèéèéè".toList) 9 = some (encode "éè...éè".toList) := by decide

/-- C43, as used for the input of errors (limit 50): the text shown takes at most 52 bytes. -/
theorem error_input_at_most_52_bytes (s : List Char) :
    ∃ out, writeTruncated (encode s) 50 = some out ∧ out.length ≤ 52 := by
  by_cases h : (encode s).length ≤ 50
  · exact ⟨_, short_text_in_full s 50 h, by omega⟩
  · obtain ⟨pre, mid, suf, _, _, h1, _, h2, h3, _⟩ := long_text_truncated_partial s 50 (by decide) (by omega)
    refine ⟨_, h1, ?_⟩
    have : (encode "...".toList).length = 3 := by decide
    simp only [List.length_append]; omega

/-- The bound is reached. -/
example : (writeTruncated (encode (List.replicate 60 'x')) 50).map List.length = some 52 := by decide

/-- Against C43: with limit 0 any non-empty text panics (no caller uses that limit). -/
theorem zero_limit_panics (s : List Char) (h : s ≠ []) : writeTruncated (encode s) 0 = none := by
  cases s with
  | nil => exact absurd rfl h
  | cons c s =>
    have := (char_bytes c).1
    simp only [writeTruncated]
    rw [if_pos (by rw [encode_cons, List.length_append]; omega)]
    rfl

example : "a".toList ≠ [] := by decide

/-- C43. `floor_char_boundary` never meets the undefined behaviour of `unwrap_unchecked`, and gives the
largest character boundary that is at most the index. -/
theorem floor_is_largest_boundary (s : List Char) (i : Nat) :
    ∃ pre suf, s = pre ++ suf ∧ floorCharBoundary (encode s) i = some (encode pre).length ∧
      (encode pre).length ≤ i ∧ (∀ c, suf.head? = some c → i < (encode (pre ++ [c])).length) := by
  by_cases h : i < (encode s).length
  · obtain ⟨pre, c, suf, rfl, h1, h2⟩ := split_at s i h
    refine ⟨pre, c :: suf, rfl, floor_eq pre c suf i h1 h2, h1, ?_⟩
    intro d hd; simp at hd; subst hd
    rw [encode_append, List.length_append]
    simp [encode] at h2 ⊢; omega
  · refine ⟨s, [], by simp, ?_, by omega, by simp⟩
    simp only [floorCharBoundary]; rw [if_pos (by omega)]

example : floorCharBoundary (encode "aé𝄞".toList) 6 = some 3 := by decide

/-- C43. `ceil_char_boundary` gives the smallest character boundary that is at least the index. -/
theorem ceil_is_smallest_boundary (s : List Char) (i : Nat) (hi : i ≤ (encode s).length) :
    ∃ pre suf, s = pre ++ suf ∧ ceilCharBoundary (encode s) i = some (encode pre).length ∧
      i ≤ (encode pre).length ∧
      (∀ c p, pre = p ++ [c] → (encode p).length < i) := by
  by_cases h : i < (encode s).length
  · obtain ⟨p, c, q, rfl, h1, h2⟩ := split_at s i h
    by_cases he : (encode p).length = i
    · refine ⟨p, c :: q, rfl, ?_, by omega, ?_⟩
      · rw [← he]; exact ceil_eq_start p (c :: q)
      · intro d p' hp
        have := (char_bytes d).1
        rw [hp, encode_append, List.length_append] at he
        simp [encode] at he this
        simp only [encode, List.length_flatMap, String.length_utf8EncodeChar]
        omega
    · have hpc : (encode (p ++ [c])).length = (encode p).length + (String.utf8EncodeChar c).length := by
        rw [encode_append, List.length_append]; simp [encode]
      refine ⟨p ++ [c], q, by simp, ?_, by omega, ?_⟩
      · rw [hpc]; exact ceil_eq_end p c q i (by omega) h2
      · intro d p' hp
        obtain ⟨rfl, _⟩ := List.append_inj' hp rfl
        omega
  · have hi' : i = (encode s).length := by omega
    refine ⟨s, [], by simp, ?_, by omega, ?_⟩
    · have := ceil_eq_start s []
      rw [List.append_nil] at this
      rw [hi']; exact this
    · intro d p hp
      have := (char_bytes d).1
      rw [hi', hp, encode_append, List.length_append]
      simp [encode] at this ⊢
      omega

example : ceilCharBoundary (encode "aé𝄞".toList) 4 = some 7 := by decide

end PC.Trunc
