import Verif.Spec.Url

namespace PC.Url

/-! ### Byte offsets -/

theorem blen_append (a b : Text) : blen (a ++ b) = blen a + blen b := by
  induction a with
  | nil => simp [blen]
  | cons c cs ih => simp [blen, ih, Nat.add_assoc]

theorem utf8Size_pos' (c : Char) : 0 < c.utf8Size := Char.utf8Size_pos c

theorem blen_pos {s : Text} (h : s ≠ []) : 0 < blen s := by
  cases s with
  | nil => exact absurd rfl h
  | cons c cs => have := Char.utf8Size_pos c; simp only [blen]; omega

theorem cut_append (a b : Text) : cut (a ++ b) (blen a) = some (a, b) := by
  induction a with
  | nil => cases b <;> simp [cut, blen]
  | cons c cs ih =>
    have hc := Char.utf8Size_pos c
    obtain ⟨n, hn⟩ : ∃ n, blen (c :: cs) = n + 1 := ⟨c.utf8Size + blen cs - 1, by simp only [blen]; omega⟩
    have hle : c.utf8Size ≤ n + 1 := by rw [← hn]; simp only [blen]; omega
    have hsub : n + 1 - c.utf8Size = blen cs := by rw [← hn]; simp only [blen]; omega
    rw [hn, List.cons_append]
    simp only [cut, if_pos hle, hsub, ih, Option.map_some]

theorem slice_mid (a b c : Text) : slice (a ++ b ++ c) (blen a) (blen a + blen b) = some b := by
  have h1 : cut (a ++ b ++ c) (blen a + blen b) = some (a ++ b, c) := by
    rw [← blen_append]; exact cut_append _ _
  simp only [slice, Nat.le_add_right, if_true, h1, cut_append, Option.map_some]

theorem sliceTo_append (a b : Text) : sliceTo (a ++ b) (blen a) = some a := by
  simp [sliceTo, cut_append]

theorem sliceFrom_append (a b : Text) : sliceFrom (a ++ b) (blen a) = some b := by
  simp [sliceFrom, cut_append]

theorem replaceRange_mid (a b c new : Text) :
    replaceRange (a ++ b ++ c) (blen a) (blen a + blen b) new = some (a ++ new ++ c) := by
  have h1 : cut (a ++ b ++ c) (blen a + blen b) = some (a ++ b, c) := by
    rw [← blen_append]; exact cut_append _ _
  simp only [replaceRange, Nat.le_add_right, if_true, h1, cut_append, Option.map_some]

theorem insertStr_mid (a b t : Text) : insertStr (a ++ b) (blen a) t = some (a ++ t ++ b) := by
  simp [insertStr, cut_append]

/-! ### Characters -/

theorem isSchemeChar_iff (c : Char) : isSchemeChar c = true ↔ SchemeChar c := by
  simp only [isSchemeChar, SchemeChar, Char.isAlphanum, Char.isAlpha, Char.isUpper, Char.isLower, Char.isDigit,
    Bool.or_eq_true, Bool.and_eq_true, decide_eq_true_eq, beq_iff_eq, Char.le_def]
  constructor
  · rintro (((((h | h) | h) | h) | h) | h) <;> simp_all
  · rintro (((h | h) | h) | h | h | h) <;> simp_all

theorem asciiLower_eq (c : Char) : asciiLower c = c.toLower := by
  by_cases h : 'A' ≤ c ∧ c ≤ 'Z'
  · have key : ∀ n, n < 91 → asciiLower (Char.ofNat n) = (Char.ofNat n).toLower := by decide
    have hn : c.toNat < 91 := by
      have := h.2
      rw [Char.le_def, UInt32.le_iff_toNat_le] at this
      exact Nat.lt_succ_of_le this
    have := key c.toNat hn
    rwa [Char.ofNat_toNat] at this
  · have h1 : asciiLower c = c := by
      simp only [asciiLower, Bool.and_eq_true, decide_eq_true_eq, if_neg h]
    have h2 : c.toLower = c := by
      unfold Char.toLower
      rw [dif_neg]
      exact h
    rw [h1, h2]

theorem special_iff (scheme : Text) : schemaIsSpecial (scheme.map asciiLower) = true ↔ Special scheme := by
  have h : scheme.map asciiLower = scheme.map Char.toLower := List.map_congr_left (fun c _ => asciiLower_eq c)
  rw [h]
  simp only [schemaIsSpecial, Special, Bool.or_eq_true, beq_iff_eq, List.mem_cons, List.not_mem_nil, or_false,
    or_assoc]

/-! ### The loops -/

theorem skipSpace_append (sp rest : Text) (pos : Nat) (hsp : ∀ c ∈ sp, c ≤ ' ')
    (hrest : ∀ c, rest.head? = some c → ¬ c ≤ ' ') :
    skipSpace (sp ++ rest) pos = (rest, pos + blen sp) := by
  induction sp generalizing pos with
  | nil =>
    cases rest with
    | nil => simp [skipSpace, blen]
    | cons c cs =>
      have hc := hrest c rfl
      have h1 : c ≠ '\t' := by rintro rfl; exact hc (by decide)
      have h2 : c ≠ '\n' := by rintro rfl; exact hc (by decide)
      have h3 : c ≠ '\r' := by rintro rfl; exact hc (by decide)
      simp [skipSpace, blen, hc, h1, h2, h3]
  | cons c cs ih =>
    have hc : c ≤ ' ' := hsp c (by simp)
    rw [List.cons_append]
    simp only [skipSpace, hc, decide_true, Bool.or_true, if_true]
    rw [ih _ (fun d hd => hsp d (List.mem_cons_of_mem _ hd))]
    simp only [blen, Nat.add_assoc]

theorem colon_size : (':' : Char).utf8Size = 1 := by decide

theorem comma_size : (',' : Char).utf8Size = 1 := by decide

theorem not_schemeChar_colon : isSchemeChar ':' = false := by decide

theorem scanScheme_append (start : Nat) (sch rest : Text) (pos : Nat) (hs : ∀ c ∈ sch, SchemeChar c)
    (hpos : start < pos + blen sch) :
    scanScheme start (sch ++ ':' :: rest) pos = some (pos + blen sch, rest, pos + blen sch + 1) := by
  induction sch generalizing pos with
  | nil =>
    simp only [blen, Nat.add_zero] at hpos
    simp only [List.nil_append, scanScheme, not_schemeChar_colon, Bool.false_eq_true, if_false, beq_self_eq_true,
      if_true, colon_size, Nat.add_sub_cancel, blen, Nat.add_zero]
    rw [if_pos hpos]
  | cons c cs ih =>
    have hc : isSchemeChar c = true := (isSchemeChar_iff c).2 (hs c (by simp))
    rw [List.cons_append]
    simp only [scanScheme, hc, if_true]
    simp only [blen] at hpos
    rw [ih _ (fun d hd => hs d (List.mem_cons_of_mem _ hd)) (by omega)]
    simp only [blen, Nat.add_assoc]

/-- If the loop succeeds there is a scheme and a colon. -/
theorem scanScheme_some (start : Nat) (l : Text) (pos : Nat) (r) (h : scanScheme start l pos = some r) :
    ∃ sch rest, l = sch ++ ':' :: rest ∧ (∀ c ∈ sch, SchemeChar c) ∧ start < pos + blen sch := by
  induction l generalizing pos with
  | nil => simp [scanScheme] at h
  | cons c cs ih =>
    simp only [scanScheme] at h
    by_cases hc : isSchemeChar c = true
    · rw [if_pos hc] at h
      obtain ⟨sch, rest, h1, h2, h3⟩ := ih _ h
      refine ⟨c :: sch, rest, by rw [h1]; rfl, ?_, by simp only [blen]; omega⟩
      intro d hd
      cases hd with
      | head => exact (isSchemeChar_iff c).1 hc
      | tail _ hd => exact h2 d hd
    · rw [if_neg hc] at h
      by_cases hcol : (c == ':') = true
      · rw [if_pos hcol] at h
        have hceq : c = ':' := by simpa using hcol
        subst hceq
        simp only [colon_size, Nat.add_sub_cancel] at h
        by_cases hp : pos > start
        · exact ⟨[], cs, rfl, by simp, by simpa [blen] using hp⟩
        · rw [if_neg hp] at h; exact absurd h (by simp)
      · rw [if_neg hcol] at h; exact absurd h (by simp)

theorem skipSlashes_append (sl rest : Text) (pos : Nat) (hsl : ∀ c ∈ sl, c = '/' ∨ c = '\\')
    (hrest : ∀ c, rest.head? = some c → c ≠ '/' ∧ c ≠ '\\') :
    skipSlashes (sl ++ rest) pos = (rest, pos + blen sl) := by
  induction sl generalizing pos with
  | nil =>
    cases rest with
    | nil => simp [skipSlashes, blen]
    | cons c cs =>
      obtain ⟨h1, h2⟩ := hrest c rfl
      simp [skipSlashes, blen, h1, h2]
  | cons c cs ih =>
    have hc : (c == '/' || c == '\\') = true := by
      rcases hsl c (by simp) with rfl | rfl <;> decide
    rw [List.cons_append]
    simp only [skipSlashes, hc, if_true]
    rw [ih _ (fun d hd => hsl d (List.mem_cons_of_mem _ hd))]
    simp only [blen, Nat.add_assoc]

/-- What the loop over the hosts does with one character. -/
def stops (special : Bool) (c : Char) : Bool := (c == '\\' && special) || c == '/' || c == '?' || c == '#'

theorem stops_iff (scheme : Text) (c : Char) :
    stops (schemaIsSpecial (scheme.map asciiLower)) c = true ↔ Ends scheme c := by
  simp only [stops, Ends, Bool.or_eq_true, Bool.and_eq_true, beq_iff_eq, special_iff]
  constructor
  · rintro (((h | h) | h) | h)
    · exact Or.inr (Or.inr (Or.inr h))
    · exact Or.inl h
    · exact Or.inr (Or.inl h)
    · exact Or.inr (Or.inr (Or.inl h))
  · rintro (h | h | h | h)
    · exact Or.inl (Or.inl (Or.inr h))
    · exact Or.inl (Or.inr h)
    · exact Or.inr h
    · exact Or.inl (Or.inl (Or.inl h))

theorem scanHosts_cons (url : Text) (sp : Bool) (c : Char) (cs : Text) (pos start : Nat) (acc : List Text) :
    scanHosts url sp (c :: cs) pos start acc =
      if stops sp c then .ok (acc, start)
      else if c = ',' then
        if start = pos then .error .emptyHost
        else
          match slice url start pos with
          | none => .error .panic
          | some host => scanHosts url sp cs (pos + 1) (pos + 1) (acc ++ [host])
      else scanHosts url sp cs (pos + c.utf8Size) start acc := by
  by_cases h1 : (c == '\\' && sp) = true
  · simp only [scanHosts, stops, h1, Bool.true_or, if_true]
  · by_cases h2 : (c == '/' || c == '?' || c == '#') = true
    · have : stops sp c = true := by
        simp only [stops, Bool.or_assoc] at h2 ⊢
        rw [h2, Bool.or_true]
      simp only [scanHosts, this, h2, if_true]
      split <;> rfl
    · have : stops sp c = false := by
        simp only [Bool.not_eq_true] at h1 h2
        simp only [stops, Bool.or_assoc] at h2 ⊢
        rw [h2, h1]; rfl
      simp only [Bool.not_eq_true] at h1 h2
      simp only [scanHosts, this, h1, h2, Bool.false_eq_true, if_false]
      by_cases h3 : c = ','
      · subst h3
        simp only [beq_self_eq_true, if_true, comma_size, Nat.add_sub_cancel]
        rfl
      · simp only [beq_eq_false_iff_ne.2 h3, h3, Bool.false_eq_true, if_false]

theorem scanHosts_piece (url : Text) (sp : Bool) (h rest : Text) (pos start : Nat) (acc : List Text)
    (hh : ∀ c ∈ h, c ≠ ',' ∧ stops sp c = false) :
    scanHosts url sp (h ++ rest) pos start acc = scanHosts url sp rest (pos + blen h) start acc := by
  induction h generalizing pos with
  | nil => simp [blen]
  | cons c cs ih =>
    obtain ⟨h1, h2⟩ := hh c (by simp)
    rw [List.cons_append, scanHosts_cons, h2]
    simp only [Bool.false_eq_true, if_false, h1]
    rw [ih _ (fun d hd => hh d (List.mem_cons_of_mem _ hd))]
    simp only [blen, Nat.add_assoc]

theorem hostList_cons (h : Text) (hs : List Text) : hostList (h :: hs) = h ++ ',' :: hostList hs := by
  simp [hostList]

theorem scanHosts_all (url : Text) (sp : Bool) (hosts : List Text) (last tail : Text) (pre : Text) (acc : List Text)
    (hurl : url = pre ++ (hostList hosts ++ last ++ tail))
    (hhosts : ∀ h ∈ hosts, ∀ c ∈ h, c ≠ ',' ∧ stops sp c = false)
    (hlast : ∀ c ∈ last, c ≠ ',' ∧ stops sp c = false)
    (htail : ∀ c, tail.head? = some c → stops sp c = true) :
    scanHosts url sp (hostList hosts ++ last ++ tail) (blen pre) (blen pre) acc =
      if [] ∈ hosts then .error .emptyHost else .ok (acc ++ hosts, blen (pre ++ hostList hosts)) := by
  induction hosts generalizing pre acc with
  | nil =>
    simp only [hostList, List.flatMap_nil, List.nil_append, List.not_mem_nil, if_false, List.append_nil]
    rw [scanHosts_piece _ _ _ _ _ _ _ hlast]
    cases tail with
    | nil => rfl
    | cons c cs =>
      rw [scanHosts_cons, htail c rfl]
      rfl
  | cons h hs ih =>
    have hcur := hhosts h (by simp)
    have e1 : hostList (h :: hs) ++ last ++ tail = h ++ (',' :: (hostList hs ++ last ++ tail)) := by
      rw [hostList_cons]; simp
    rw [e1, scanHosts_piece _ _ _ _ _ _ _ hcur, scanHosts_cons]
    have hst : stops sp ',' = false := by cases sp <;> decide
    rw [hst]
    simp only [Bool.false_eq_true, if_false, if_true]
    by_cases he : h = []
    · subst he
      simp [blen]
    · have hpos := blen_pos he
      have hne : ¬ blen pre = blen pre + blen h := by omega
      have hsl : slice url (blen pre) (blen pre + blen h) = some h := by
        rw [hurl, e1, ← List.append_assoc]; exact slice_mid _ _ _
      simp only [hne, if_false, hsl]
      have hp : blen pre + blen h + 1 = blen (pre ++ h ++ [',']) := by
        rw [blen_append, blen_append]; rfl
      rw [hp, ih (pre ++ h ++ [',']) (acc ++ [h]) (by rw [hurl, e1]; simp)
        (fun g hg => hhosts g (List.mem_cons_of_mem _ hg))]
      have hmem : ([] ∈ h :: hs) ↔ ([] ∈ hs) := by
        constructor
        · intro hm
          cases hm with
          | head => exact absurd rfl he
          | tail _ hm => exact hm
        · exact List.mem_cons_of_mem _
      by_cases hin : [] ∈ hs
      · rw [if_pos hin, if_pos (hmem.2 hin)]
      · rw [if_neg hin, if_neg (fun hm => hin (hmem.1 hm))]
        simp [hostList_cons]

/-! ### Readings -/

theorem takeWhile_split (p : Char → Bool) (l : Text) :
    ∃ a b, l = a ++ b ∧ (∀ c ∈ a, p c = true) ∧ ∀ c, b.head? = some c → p c = false := by
  induction l with
  | nil => exact ⟨[], [], rfl, by simp, by simp⟩
  | cons c cs ih =>
    by_cases hc : p c = true
    · obtain ⟨a, b, h1, h2, h3⟩ := ih
      refine ⟨c :: a, b, by rw [h1]; rfl, ?_, h3⟩
      intro d hd
      cases hd with
      | head => exact hc
      | tail _ hd => exact h2 d hd
    · refine ⟨[], c :: cs, rfl, by simp, ?_⟩
      intro d hd
      simp only [List.head?_cons, Option.some.injEq] at hd
      subst hd
      simpa using hc

theorem splitHosts (sp : Bool) (l : Text) :
    ∃ hosts last tail, l = hostList hosts ++ last ++ tail ∧
      (∀ h ∈ hosts, ∀ c ∈ h, c ≠ ',' ∧ stops sp c = false) ∧ (∀ c ∈ last, c ≠ ',' ∧ stops sp c = false) ∧
      ∀ c, tail.head? = some c → stops sp c = true := by
  induction l with
  | nil => exact ⟨[], [], [], rfl, by simp, by simp, by simp⟩
  | cons c cs ih =>
    by_cases hst : stops sp c = true
    · refine ⟨[], [], c :: cs, rfl, by simp, by simp, ?_⟩
      intro d hd
      simp only [List.head?_cons, Option.some.injEq] at hd
      subst hd; exact hst
    · obtain ⟨hosts, last, tail, h1, h2, h3, h4⟩ := ih
      by_cases hc : c = ','
      · subst hc
        refine ⟨[] :: hosts, last, tail, by rw [h1, hostList_cons]; simp, ?_, h3, h4⟩
        intro h hh
        cases hh with
        | head => simp
        | tail _ hh => exact h2 h hh
      · have hcc : c ≠ ',' ∧ stops sp c = false := ⟨hc, by simpa using hst⟩
        cases hosts with
        | nil =>
          refine ⟨[], c :: last, tail, by rw [h1]; simp [hostList], by simp, ?_, h4⟩
          intro d hd
          cases hd with
          | head => exact hcc
          | tail _ hd => exact h3 d hd
        | cons h hs =>
          refine ⟨(c :: h) :: hs, last, tail, by rw [h1, hostList_cons, hostList_cons]; simp, ?_, h3, h4⟩
          intro g hg
          cases hg with
          | head =>
            intro d hd
            cases hd with
            | head => exact hcc
            | tail _ hd => exact h2 h (by simp) d hd
          | tail _ hg => exact h2 g (List.mem_cons_of_mem _ hg)

end PC.Url
