import Mathlib.Tactic.IntervalCases
import Verif.Lemmas.JsonParse
import Verif.Lemmas.Truncate

/-
What the writer writes.
-/

namespace PC.JsonText
open PC.Float (F64)
open PC.Infer (Text Json)
open PC.Trunc (encode strSlice encode_append encode_cons isCharBoundary_split byteSlice)

theorem write_write (w : W) (a b : List UInt8) : (w.write a).write b = w.write (a ++ b) := by
  simp [W.write]

theorem write_nil (w : W) : w.write [] = w := by simp [W.write]

/-! ### Escapes -/

theorem encode_ascii {c : Char} (h : c.toNat < 128) : String.utf8EncodeChar c = [UInt8.ofNat c.toNat] := by
  unfold String.utf8EncodeChar
  have : c.val.toNat = c.toNat := rfl
  dsimp only
  rw [if_pos (by omega)]
  rfl

theorem encode_high {c : Char} (h : 128 ≤ c.toNat) : ∀ b ∈ String.utf8EncodeChar c, 128 ≤ b.toNat := by
  have hv : c.val.toNat < 1114112 := by
    rcases c.valid with h | ⟨_, h⟩
    · have : c.val.toNat < 0xd800 := h
      omega
    · exact h
  have hc : 128 ≤ c.val.toNat := h
  unfold String.utf8EncodeChar
  dsimp only
  generalize c.val.toNat = v at *
  split
  · omega
  · split
    · intro b hb
      simp only [List.mem_cons, List.not_mem_nil, or_false] at hb
      rcases hb with rfl | rfl <;> simp only [UInt8.toNat_ofNat'] <;> omega
    · split
      · intro b hb
        simp only [List.mem_cons, List.not_mem_nil, or_false] at hb
        rcases hb with rfl | rfl | rfl <;> simp only [UInt8.toNat_ofNat'] <;> omega
      · intro b hb
        simp only [List.mem_cons, List.not_mem_nil, or_false] at hb
        rcases hb with rfl | rfl | rfl | rfl <;> simp only [UInt8.toNat_ofNat'] <;> omega

theorem table_high (n : Nat) (hn : n < 256) (h : 128 ≤ n) : escapeTable.getD n 0 = 0 := by
  interval_cases n <;> rfl

theorem ascii_escape : ∀ n < 128,
    (escapeTable.getD n 0 = 0 ∧ escapeChar (Char.ofNat n) = [Char.ofNat n]) ∨
    (escapeTable.getD n 0 ≠ 0 ∧ (fromEscapeTable (escapeTable.getD n 0) (UInt8.ofNat n)).map charEscape =
      some (encode (escapeChar (Char.ofNat n)))) := by
  intro n hn
  interval_cases n <;> first | exact Or.inl ⟨rfl, rfl⟩ | exact Or.inr ⟨by decide, rfl⟩

theorem escapeChar_high {c : Char} (h : 128 ≤ c.toNat) : escapeChar c = [c] := by
  have ne : ∀ d : Char, d.toNat < 128 → c ≠ d := by rintro d hd rfl; omega
  unfold escapeChar
  rw [if_neg (ne _ (by decide)), if_neg (ne _ (by decide)), if_neg (ne _ (by decide)), if_neg (ne _ (by decide)),
    if_neg (ne _ (by decide)), if_neg (ne _ (by decide)), if_neg (ne _ (by decide)), if_neg (by omega)]

/-- A character is left alone, byte by byte, or it is one byte that is escaped. -/
theorem char_cases (c : Char) :
    ((∀ b ∈ String.utf8EncodeChar c, escapeTable.getD b.toNat 0 = 0) ∧ escapeChar c = [c]) ∨
    (∃ b e, String.utf8EncodeChar c = [b] ∧ escapeTable.getD b.toNat 0 ≠ 0 ∧
      fromEscapeTable (escapeTable.getD b.toNat 0) b = some e ∧ charEscape e = encode (escapeChar c)) := by
  by_cases h : c.toNat < 128
  · have hc : Char.ofNat c.toNat = c := Char.ofNat_toNat c
    have hb : (UInt8.ofNat c.toNat).toNat = c.toNat := by
      rw [UInt8.toNat_ofNat']; omega
    rcases ascii_escape c.toNat h with ⟨h1, h2⟩ | ⟨h1, h2⟩
    · left
      rw [hc] at h2
      refine ⟨fun b hm => ?_, h2⟩
      rw [encode_ascii h, List.mem_singleton] at hm
      rw [hm, hb]; exact h1
    · right
      rw [hc] at h2
      obtain ⟨e, he, h3⟩ := Option.map_eq_some_iff.1 h2
      exact ⟨UInt8.ofNat c.toNat, e, encode_ascii h, by rw [hb]; exact h1, by rw [hb]; exact he, h3⟩
  · left
    refine ⟨fun b hm => table_high _ b.toNat_lt ?_, escapeChar_high (by omega)⟩
    exact encode_high (by omega) b hm

theorem loop_skip (bytes : List UInt8) (start : Nat) (rest : List UInt8) (w : W) : ∀ (bs : List UInt8) (i : Nat),
    (∀ b ∈ bs, escapeTable.getD b.toNat 0 = 0) →
    escapeLoop bytes i start (bs ++ rest) w = escapeLoop bytes (i + bs.length) start rest w := by
  intro bs
  induction bs with
  | nil => intro i _; rfl
  | cons b bs ih =>
    intro i h
    rw [List.cons_append, escapeLoop]
    rw [if_pos (h b (by simp)), ih (i + 1) fun b hb => h b (by simp [hb])]
    congr 1
    simp only [List.length_cons]; omega

theorem slice_mid (pre mid suf : Text) :
    strSlice (encode (pre ++ mid ++ suf)) (encode pre).length (encode (pre ++ mid)).length = some (encode mid) := by
  have h1 := isCharBoundary_split pre (mid ++ suf)
  have h2 := isCharBoundary_split (pre ++ mid) suf
  rw [← List.append_assoc] at h1
  simp only [strSlice, h1, h2, byteSlice]
  simp only [encode_append, List.append_assoc, List.length_append]
  rw [← List.append_assoc (encode pre), ← List.length_append, List.take_left]
  simp

theorem flatMap_plain {mid : Text} (h : ∀ c ∈ mid, escapeChar c = [c]) : mid.flatMap escapeChar = mid := by
  induction mid with
  | nil => rfl
  | cons c mid ih =>
    rw [List.flatMap_cons, h c (by simp), ih fun d hd => h d (by simp [hd])]; rfl

theorem encode_pos {t : Text} (h : t ≠ []) : 0 < (encode t).length := by
  cases t with
  | nil => exact absurd rfl h
  | cons c t =>
    have := (Trunc.char_bytes c).1
    rw [encode_cons, List.length_append]; omega

theorem loop_eq (suf : Text) : ∀ (pre mid : Text) (w : W), (∀ c ∈ mid, escapeChar c = [c]) →
    escapeLoop (encode (pre ++ mid ++ suf)) (encode (pre ++ mid)).length (encode pre).length (encode suf) w =
      some (w.write (encode ((mid ++ suf).flatMap escapeChar))) := by
  induction suf with
  | nil =>
    intro pre mid w hm
    have hs := slice_mid pre mid []
    rw [List.append_nil] at hs ⊢
    rw [List.append_nil, flatMap_plain hm]
    show (if _ then _ else _) = _
    split
    · rename_i h
      have : mid = [] := by
        by_contra hne
        have := encode_pos hne
        rw [encode_append, List.length_append] at h; omega
      subst this
      exact congrArg some (write_nil w).symm
    · rw [hs]; rfl
  | cons c suf ih =>
    intro pre mid w hm
    rw [encode_cons]
    rcases char_cases c with ⟨h1, h2⟩ | ⟨b, e, h1, h2, h3, h4⟩
    · rw [loop_skip _ _ _ _ _ _ h1]
      have := ih pre (mid ++ [c]) w fun d hd => by
        rcases List.mem_append.1 hd with hd | hd
        · exact hm d hd
        · rw [List.mem_singleton.1 hd]; exact h2
      have e1 : pre ++ (mid ++ [c]) ++ suf = pre ++ mid ++ c :: suf := by simp
      have e2 : mid ++ [c] ++ suf = mid ++ c :: suf := by simp
      rw [e1, e2] at this
      rw [← this]
      congr 1
      rw [← List.append_assoc, encode_append (pre ++ mid) [c], List.length_append]
      simp [encode]
    · have hslice := slice_mid pre mid (c :: suf)
      have key := ih (pre ++ mid ++ [c]) [] ((w.write (encode mid)).write (charEscape e)) (by simp)
      have e1 : pre ++ mid ++ [c] ++ [] ++ suf = pre ++ mid ++ c :: suf := by simp
      have e2 : (encode (pre ++ mid ++ [c])).length = (encode (pre ++ mid)).length + 1 := by
        rw [encode_append (pre ++ mid) [c], List.length_append, encode_cons, h1]; rfl
      rw [e1, List.append_nil, e2] at key
      rw [h1, List.singleton_append, escapeLoop]
      rw [if_neg h2]
      have hw : (if (encode pre).length < (encode (pre ++ mid)).length then
          (strSlice (encode (pre ++ mid ++ c :: suf)) (encode pre).length (encode (pre ++ mid)).length).map w.write
          else some w) = some (w.write (encode mid)) := by
        split
        · rw [hslice]; rfl
        · rename_i h
          have : mid = [] := by
            by_contra hne
            have := encode_pos hne
            rw [encode_append, List.length_append] at h; omega
          subst this
          exact congrArg some (write_nil w).symm
      rw [hw]
      dsimp only
      rw [h3]
      dsimp only
      rw [key, write_write, write_write]
      congr 2
      rw [List.flatMap_append (xs := mid), flatMap_plain hm, List.nil_append, List.flatMap_cons, h4, encode_append mid,
        encode_append (escapeChar c)]

theorem encode_singleton {c : Char} (h : c.toNat < 128) : encode [c] = [UInt8.ofNat c.toNat] := by
  rw [encode_cons, encode_ascii h]; rfl

theorem escapedStr_eq (t : Text) (w : W) : escapedStr t w = some (w.write (encode (quote t))) := by
  have h := loop_eq t [] [] (w.write [0x22]) (by simp)
  simp only [List.nil_append, List.append_nil] at h
  unfold escapedStr
  have h0 : (encode ([] : Text)).length = 0 := rfl
  rw [h0] at h
  rw [h, Option.map_some, write_write, write_write]
  congr 2
  have e : encode (quote t) = encode ['"'] ++ (encode (t.flatMap escapeChar) ++ encode ['"']) := by
    rw [← encode_append, ← encode_append]; rfl
  rw [e]
  rfl

/-! ### The layout -/

/-- The formatter is at a depth: the compact one does not count. -/
def At (f : Fmt) (depth : Nat) (w : W) : Prop :=
  match f with
  | .compact => True
  | .pretty _ => w.indent = depth

/-- The formatter has seen an item. -/
def Seen (f : Fmt) (w : W) : Prop :=
  match f with
  | .compact => True
  | .pretty _ => w.hasValue = true

/-- `w'` is `w` after writing a text. -/
def Wrote (w : W) (t : Text) (w' : W) : Prop := w'.out = w.out ++ encode t ∧ w'.indent = w.indent

theorem wrote_write {w : W} {t : Text} : Wrote w t (w.write (encode t)) := ⟨rfl, rfl⟩

theorem Wrote.at {f : Fmt} {depth : Nat} {w w' : W} {t : Text} (h : Wrote w t w') (ha : At f depth w) : At f depth w' := by
  cases f with
  | compact => trivial
  | pretty n => exact h.2.trans ha

theorem Wrote.trans {w w' w'' : W} {t t' : Text} (h : Wrote w t w') (h' : Wrote w' t' w'') : Wrote w (t ++ t') w'' := by
  refine ⟨?_, h'.2.trans h.2⟩
  rw [h'.1, h.1, encode_append, List.append_assoc]

theorem encode_spaces (n : Nat) : encode (List.replicate n ' ') = List.replicate n 0x20 := by
  induction n with
  | zero => rfl
  | succ n ih => rw [List.replicate_succ, encode_cons, ih]; rfl

theorem beginItem_first {f : Fmt} {depth : Nat} {w : W} (h : At f depth w) : Wrote w (newline f depth) (beginItem f true w) := by
  cases f with
  | compact => exact ⟨by simp [beginItem, newline, encode], rfl⟩
  | pretty n =>
    have h : w.indent = depth := h
    refine ⟨?_, rfl⟩
    simp only [beginItem, W.writeIndent, W.write, newline, encode_cons, encode_spaces, h]
    simp [String.utf8EncodeChar]

theorem beginItem_rest {f : Fmt} {depth : Nat} {w : W} (h : At f depth w) :
    Wrote w (',' :: newline f depth) (beginItem f false w) := by
  cases f with
  | compact => exact ⟨by simp [beginItem, newline, encode, W.write]; rfl, rfl⟩
  | pretty n =>
    have h : w.indent = depth := h
    refine ⟨?_, rfl⟩
    simp only [beginItem, W.writeIndent, W.write, newline, encode_cons, encode_spaces, h]
    simp [String.utf8EncodeChar]

theorem beginValue_wrote (f : Fmt) (w : W) : Wrote w (colon f) (beginValue f w) := by
  cases f with
  | compact => exact ⟨rfl, rfl⟩
  | pretty n => exact ⟨rfl, rfl⟩

theorem endItem_wrote (f : Fmt) (w : W) : Wrote w [] (endItem f w) ∧ Seen f (endItem f w) := by
  cases f with
  | compact => exact ⟨⟨by simp [endItem, encode], rfl⟩, trivial⟩
  | pretty n => exact ⟨⟨by simp [endItem, encode], rfl⟩, rfl⟩

theorem beginGroup_at {f : Fmt} {depth : Nat} {w : W} {o : Char} (ho : o.toNat < 128) (h : At f depth w) :
    (beginGroup f (UInt8.ofNat o.toNat) w).out = w.out ++ encode [o] ∧ At f (depth + 1) (beginGroup f (UInt8.ofNat o.toNat) w) ∧
      (beginGroup f (UInt8.ofNat o.toNat) w).indent = (match f with | .compact => w.indent | .pretty _ => w.indent + 1) ∧
      (∀ n, f = .pretty n → (beginGroup f (UInt8.ofNat o.toNat) w).hasValue = false) := by
  rw [encode_singleton ho]
  cases f with
  | compact => exact ⟨rfl, trivial, rfl, fun _ h => (by cases h)⟩
  | pretty n =>
    have h : w.indent = depth := h
    exact ⟨rfl, congrArg (· + 1) h, rfl, fun _ _ => rfl⟩

theorem endGroup_seen {f : Fmt} {depth : Nat} {w : W} {c : Char} (hc : c.toNat < 128) (h : At f (depth + 1) w)
    (hs : Seen f w) : (endGroup f (UInt8.ofNat c.toNat) w).out = w.out ++ encode (newline f depth ++ [c]) ∧
      (endGroup f (UInt8.ofNat c.toNat) w).indent = (match f with | .compact => w.indent | .pretty _ => w.indent - 1) := by
  rw [encode_append, encode_singleton hc]
  cases f with
  | compact => exact ⟨rfl, rfl⟩
  | pretty n =>
    have h : w.indent = depth + 1 := h
    have hs : w.hasValue = true := hs
    simp only [endGroup, hs, W.writeIndent, W.write, newline, encode_cons, encode_spaces, h]
    simp [String.utf8EncodeChar]

theorem endGroup_empty {f : Fmt} {w : W} {c : Char} (hc : c.toNat < 128)
    (hs : ∀ n, f = .pretty n → w.hasValue = false) : (endGroup f (UInt8.ofNat c.toNat) w).out = w.out ++ encode [c] ∧
      (endGroup f (UInt8.ofNat c.toNat) w).indent = (match f with | .compact => w.indent | .pretty _ => w.indent - 1) := by
  rw [encode_singleton hc]
  cases f with
  | compact => exact ⟨rfl, rfl⟩
  | pretty n =>
    have hs := hs n rfl
    simp only [endGroup, hs, W.write]
    simp

/-- Brackets around nothing. -/
theorem empty_group {f : Fmt} {depth : Nat} {w : W} {o c : Char} (ho : o.toNat < 128) (hc : c.toNat < 128) (h : At f depth w)
    (len : Option Nat) :
    Wrote w [o, c] (finish f (UInt8.ofNat c.toNat) (start f (UInt8.ofNat o.toNat) (UInt8.ofNat c.toNat) len w)) := by
  obtain ⟨h1, _, h3, h4⟩ := beginGroup_at ho h
  obtain ⟨h5, h6⟩ := endGroup_empty hc h4
  have : Wrote w [o, c] (endGroup f (UInt8.ofNat c.toNat) (beginGroup f (UInt8.ofNat o.toNat) w)) := by
    refine ⟨?_, ?_⟩
    · rw [h5, h1, List.append_assoc, ← encode_append]; rfl
    · rw [h6, h3]; cases f <;> simp
  unfold start
  dsimp only
  split
  · exact this
  · exact this

/-- Brackets around items. -/
theorem full_group {f : Fmt} {depth : Nat} {w w' : W} {o c : Char} {t : Text} (ho : o.toNat < 128) (hc : c.toNat < 128)
    (h : At f depth w) (hw : Wrote (beginGroup f (UInt8.ofNat o.toNat) w) t w') (hs : Seen f w') :
    Wrote w (o :: t ++ newline f depth ++ [c]) (endGroup f (UInt8.ofNat c.toNat) w') := by
  obtain ⟨h1, h2, h3, _⟩ := beginGroup_at ho h
  obtain ⟨h5, h6⟩ := endGroup_seen hc (hw.at h2) hs
  refine ⟨?_, ?_⟩
  · rw [h5, hw.1, h1, List.append_assoc, List.append_assoc, ← encode_append, ← encode_append]
    simp
  · rw [h6, hw.2, h3]; cases f <;> simp

mutual
theorem serialize_eq (ryu : F64 → Text) (f : Fmt) : (d : Doc) → d.Announced → ∀ (depth : Nat) (w : W), At f depth w →
    ∃ w', serialize ryu f d w = some w' ∧ Wrote w (layout (floatText ryu) f depth d.value) w'
  | .null, _, _, w, _ => ⟨_, rfl, wrote_write⟩
  | .bool Bool.true, _, _, w, _ => ⟨_, rfl, wrote_write⟩
  | .bool Bool.false, _, _, w, _ => ⟨_, rfl, wrote_write⟩
  | .int i, _, _, w, _ => ⟨_, rfl, wrote_write⟩
  | .float x, _, _, w, _ => ⟨_, rfl, wrote_write⟩
  | .str t, _, _, w, _ => ⟨_, escapedStr_eq t w, wrote_write⟩
  | .seq len [], _, depth, w, ha => ⟨_, rfl, empty_group (o := '[') (c := ']') (by decide) (by decide) ha len⟩
  | .map len [], _, depth, w, ha => ⟨_, rfl, empty_group (o := '{') (c := '}') (by decide) (by decide) ha len⟩
  | .seq len (d :: ds), h, depth, w, ha => by
      obtain ⟨hl, hd, hds⟩ := h
      have hl : len ≠ some 0 := fun h => List.cons_ne_nil _ _ (hl h)
      have h2 := (beginGroup_at (o := '[') (by decide) ha).2.1
      have w1 := beginItem_first h2
      obtain ⟨w2, e2, hw2⟩ := serialize_eq ryu f d hd (depth + 1) _ (w1.at h2)
      obtain ⟨h3, h4⟩ := endItem_wrote f w2
      obtain ⟨w3, e3, hw3, hs⟩ := elements_eq ryu f ds hds (depth + 1) (endItem f w2) (((w1.trans hw2).trans h3).at h2) h4
      refine ⟨endGroup f 0x5d w3, ?_, ?_⟩
      · have e : start f 0x5b 0x5d len w = (beginGroup f 0x5b w, .first) := by
          unfold start; dsimp only; rw [if_neg hl]
        have e2' : serialize ryu f d (beginItem f (State.first == State.first) (beginGroup f 0x5b w)) = some w2 := e2
        simp only [serialize, e, elements, e2', e3]
        rfl
      · have := full_group (o := '[') (c := ']') (by decide) (by decide) ha (((w1.trans hw2).trans h3).trans hw3) hs
        simp only [Doc.value, Doc.values, layout]
        simpa using this
  | .map len ((k, d) :: es), h, depth, w, ha => by
      obtain ⟨hl, hd, hds⟩ := h
      have hl : len ≠ some 0 := fun h => List.cons_ne_nil _ _ (hl h)
      have h2 := (beginGroup_at (o := '{') (by decide) ha).2.1
      have w1 := beginItem_first h2
      have wk : Wrote (beginItem f true (beginGroup f 0x7b w)) (quote k) _ := wrote_write
      have wc := beginValue_wrote f ((beginItem f true (beginGroup f 0x7b w)).write (encode (quote k)))
      obtain ⟨w2, e2, hw2⟩ := serialize_eq ryu f d hd (depth + 1) _ (((w1.trans wk).trans wc).at h2)
      obtain ⟨h3, h4⟩ := endItem_wrote f w2
      obtain ⟨w3, e3, hw3, hs⟩ := entries_eq ryu f es hds (depth + 1) (endItem f w2)
        (((((w1.trans wk).trans wc).trans hw2).trans h3).at h2) h4
      refine ⟨endGroup f 0x7d w3, ?_, ?_⟩
      · have e : start f 0x7b 0x7d len w = (beginGroup f 0x7b w, .first) := by
          unfold start; dsimp only; rw [if_neg hl]
        have ek : escapedStr k (beginItem f (State.first == State.first) (beginGroup f 0x7b w)) = some _ := escapedStr_eq k _
        have e2' : serialize ryu f d (beginValue f ((beginItem f (State.first == State.first) (beginGroup f 0x7b w)).write
          (encode (quote k)))) = some w2 := e2
        simp only [serialize, e, entries, ek, e2', e3]
        rfl
      · have := full_group (o := '{') (c := '}') (by decide) (by decide) ha
          (((((w1.trans wk).trans wc).trans hw2).trans h3).trans hw3) hs
        simp only [Doc.value, Doc.entryValues, layout]
        simpa using this

theorem elements_eq (ryu : F64 → Text) (f : Fmt) : (ds : List Doc) → Doc.AnnouncedAll ds → ∀ (depth : Nat) (w : W),
    At f depth w → Seen f w → ∃ w', elements ryu f ds (w, .rest) = some (w', .rest) ∧
      Wrote w (layoutItems (floatText ryu) f depth (Doc.values ds)) w' ∧ Seen f w'
  | [], _, _, w, _, hs => ⟨w, rfl, ⟨by simp [Doc.values, layoutItems, encode], rfl⟩, hs⟩
  | d :: ds, h, depth, w, ha, _ => by
      have w1 := beginItem_rest ha
      obtain ⟨w2, e2, hw2⟩ := serialize_eq ryu f d h.1 depth _ (w1.at ha)
      obtain ⟨h3, h4⟩ := endItem_wrote f w2
      obtain ⟨w3, e3, hw3, hs⟩ := elements_eq ryu f ds h.2 depth (endItem f w2) (((w1.trans hw2).trans h3).at ha) h4
      refine ⟨w3, ?_, ?_, hs⟩
      · have e2' : serialize ryu f d (beginItem f (State.rest == State.first) w) = some w2 := e2
        simp only [elements, e2', e3]
      · have := ((w1.trans hw2).trans h3).trans hw3
        simp only [Doc.values, layoutItems]
        simpa using this

theorem entries_eq (ryu : F64 → Text) (f : Fmt) : (es : List (Text × Doc)) → Doc.AnnouncedEntries es →
    ∀ (depth : Nat) (w : W), At f depth w → Seen f w → ∃ w', entries ryu f es (w, .rest) = some (w', .rest) ∧
      Wrote w (layoutEntries (floatText ryu) f depth (Doc.entryValues es)) w' ∧ Seen f w'
  | [], _, _, w, _, hs => ⟨w, rfl, ⟨by simp [Doc.entryValues, layoutEntries, encode], rfl⟩, hs⟩
  | (k, d) :: es, h, depth, w, ha, _ => by
      have w1 := beginItem_rest ha
      have wk : Wrote (beginItem f false w) (quote k) _ := wrote_write
      have wc := beginValue_wrote f ((beginItem f false w).write (encode (quote k)))
      obtain ⟨w2, e2, hw2⟩ := serialize_eq ryu f d h.1 depth _ (((w1.trans wk).trans wc).at ha)
      obtain ⟨h3, h4⟩ := endItem_wrote f w2
      obtain ⟨w3, e3, hw3, hs⟩ := entries_eq ryu f es h.2 depth (endItem f w2)
        (((((w1.trans wk).trans wc).trans hw2).trans h3).at ha) h4
      refine ⟨w3, ?_, ?_, hs⟩
      · have ek : escapedStr k (beginItem f (State.rest == State.first) w) = some _ := escapedStr_eq k _
        have e2' : serialize ryu f d (beginValue f ((beginItem f (State.rest == State.first) w).write
          (encode (quote k)))) = some w2 := e2
        simp only [entries, ek, e2', e3]
      · have := ((((w1.trans wk).trans wc).trans hw2).trans h3).trans hw3
        simp only [Doc.entryValues, layoutEntries]
        simpa using this
end

/-! ### The layout is JSON -/

theorem digit_of_isDigit {c : Char} (h : c.isDigit = true) : Digit c := by
  simp only [Char.isDigit, Bool.and_eq_true, decide_eq_true_eq] at h
  exact ⟨h.1, h.2⟩

theorem toDigits_head (n : Nat) : 0 < n → (Nat.toDigits 10 n).head? ≠ some '0' := by
  induction n using Nat.strongRecOn with
  | ind n ih =>
    intro hn
    by_cases h : n < 10
    · rw [Nat.toDigits_of_lt_base h]
      interval_cases n <;> decide
    · rw [Nat.toDigits_of_base_le (by decide) (by omega)]
      have := ih (n / 10) (by omega) (by omega)
      have hne : Nat.toDigits 10 (n / 10) ≠ [] := Nat.toDigits_ne_nil
      cases h2 : Nat.toDigits 10 (n / 10) with
      | nil => exact absurd h2 hne
      | cons c t => rw [h2] at this; exact this

theorem natural_toDigits (n : Nat) : Natural (Nat.toDigits 10 n) := by
  refine ⟨Nat.toDigits_ne_nil, fun c hc => digit_of_isDigit (Nat.isDigit_of_mem_toDigits (by decide) (by decide) hc), ?_⟩
  intro h
  rcases Nat.eq_zero_or_pos n with rfl | hn
  · rfl
  · exact absurd h (toDigits_head n hn)

theorem decimal_toDigits (n : Nat) : decimal (Nat.toDigits 10 n) = n := Nat.ofDigitChars_ten_toDigits

theorem intText_toString (i : Int) : IntText (toString i).toList i := by
  cases i with
  | ofNat n =>
    left
    have e : (toString (Int.ofNat n)).toList = Nat.toDigits 10 n := by
      rw [Int.toString_eq_repr]
      exact Nat.toList_repr
    rw [e]
    exact ⟨natural_toDigits n, by rw [decimal_toDigits]; rfl⟩
  | negSucc n =>
    right
    refine ⟨Nat.toDigits 10 (n + 1), ?_, natural_toDigits _, by rw [decimal_toDigits]; rfl⟩
    rw [Int.toString_eq_repr]
    show ("-" ++ Nat.repr (n + 1)).toList = _
    rw [String.toList_append, Nat.toList_repr]; rfl

theorem newline_ws (f : Fmt) (depth : Nat) : Ws (newline f depth) := by
  cases f with
  | compact => intro c hc; cases hc
  | pretty n =>
    intro c hc
    rcases List.mem_cons.1 hc with rfl | hc
    · exact Or.inr (Or.inr (Or.inl rfl))
    · exact Or.inl (List.eq_of_mem_replicate hc)

theorem hexChar_value : ∀ n < 16, hexValue (hexChar n) = some n := by decide

theorem chars_append_escape {c : Char} {s t : Text} (h : Chars s t) : Chars (escapeChar c ++ s) (c :: t) := by
  unfold escapeChar
  split
  · rename_i h; subst h; exact .short (by decide) ‹_›
  split
  · rename_i h; subst h; exact .short (by decide) ‹_›
  split
  · rename_i h; subst h; exact .short (by decide) ‹_›
  split
  · rename_i h; subst h; exact .short (by decide) ‹_›
  split
  · rename_i h; subst h; exact .short (by decide) ‹_›
  split
  · rename_i h; subst h; exact .short (by decide) ‹_›
  split
  · rename_i h; subst h; exact .short (by decide) ‹_›
  split
  · rename_i hc
    refine Chars.code (h := ['0', '0', hexChar (c.toNat / 16), hexChar (c.toNat % 16)]) ?_ h
    exact ⟨_, _, _, _, 0, 0, c.toNat / 16, c.toNat % 16, rfl, rfl, rfl, hexChar_value _ (by omega),
      hexChar_value _ (by omega), by omega⟩
  · rename_i h1 h2 _ _ _ _ _ h3
    exact .plain h1 h2 (by omega) h

theorem chars_quote (t : Text) : Chars (t.flatMap escapeChar) t := by
  induction t with
  | nil => exact .nil
  | cons c t ih => rw [List.flatMap_cons]; exact chars_append_escape ih

theorem quoted_quote (t : Text) : Quoted (quote t) t := ⟨_, rfl, chars_quote t⟩

/-- A double that the reader gets back. -/
def Good (ext : Prop) (f : F64) : Prop := Lowest f ∧ (f.isFinite = true ∨ ext)

theorem value_float {ext : Prop} {ryu : F64 → Text} {read : Text → F64} (hr : Shortest ryu read) {x : F64} (h : Good ext x) :
    Value ext read (floatText ryu x) (.float x) := by
  obtain ⟨hl, h⟩ := h
  cases x with
  | nan => exact .nan (h.resolve_left (by simp [Float.F64.isFinite]))
  | posInf => exact .posInf (h.resolve_left (by simp [Float.F64.isFinite]))
  | negInf => exact .negInf (h.resolve_left (by simp [Float.F64.isFinite]))
  | fin n k =>
    obtain ⟨h1, h2⟩ := hr (.fin n k) rfl hl
    have := Value.float (ext := ext) (read := read) h1
    rw [h2] at this
    exact this

theorem colon_ws (f : Fmt) : ∃ c, colon f = ':' :: c ∧ Ws c := by
  cases f with
  | compact => exact ⟨[], rfl, fun _ h => (by cases h)⟩
  | pretty n => exact ⟨[' '], rfl, fun c h => Or.inl (List.mem_singleton.1 h)⟩

theorem ws_nil : Ws [] := fun _ h => (by cases h)

mutual
theorem layout_value {ext : Prop} {ryu : F64 → Text} {read : Text → F64} (hr : Shortest ryu read) (f : Fmt) :
    (v : Json) → Doubles (Good ext) v → ∀ depth, Value ext read (layout (floatText ryu) f depth v) v
  | .null, _, _ => by rw [layout]; exact .null
  | .bool Bool.true, _, _ => by rw [layout]; exact .true
  | .bool Bool.false, _, _ => by rw [layout]; exact .false
  | .int i, _, _ => by rw [layout]; exact .int (intText_toString i)
  | .float x, h, _ => by rw [layout]; exact value_float hr h
  | .str t, _, _ => by rw [layout]; exact .str (quoted_quote t)
  | .arr [], _, _ => by rw [layout]; exact .emptyArr (w := []) ws_nil
  | .obj [], _, _ => by rw [layout]; exact .emptyObj (w := []) ws_nil
  | .arr (v :: vs), h, depth => by
      rw [layout]
      have := Value.arr (layout_items hr f vs h.2 (depth + 1) (layout_value hr f v h.1 (depth + 1)) (newline_ws f (depth + 1))
        (newline_ws f depth))
      simpa using this
  | .obj ((k, v) :: es), h, depth => by
      rw [layout]
      have := Value.obj (layout_entries hr f es h.2 (depth + 1) k (layout_value hr f v h.1 (depth + 1))
        (newline_ws f (depth + 1)) (newline_ws f depth))
      simpa using this

theorem layout_items {ext : Prop} {ryu : F64 → Text} {read : Text → F64} (hr : Shortest ryu read) (f : Fmt) :
    (vs : List Json) → DoublesAll (Good ext) vs → ∀ depth {v : Json} {t a x : Text}, Value ext read t v → Ws a → Ws x →
      Items ext read (a ++ t ++ layoutItems (floatText ryu) f depth vs ++ x) v vs
  | [], _, depth, v, t, a, x, hv, ha, hx => by
      rw [layoutItems, List.append_nil]; exact .one ha hv hx
  | u :: us, h, depth, v, t, a, x, hv, ha, hx => by
      rw [layoutItems]
      have := Items.more ha hv ws_nil
        (layout_items hr f us h.2 depth (layout_value hr f u h.1 depth) (newline_ws f depth) hx)
      simpa using this

theorem layout_entries {ext : Prop} {ryu : F64 → Text} {read : Text → F64} (hr : Shortest ryu read) (f : Fmt) :
    (es : List (Text × Json)) → DoublesEntries (Good ext) es → ∀ depth (k : Text) {v : Json} {t a x : Text},
      Value ext read t v → Ws a → Ws x →
      Members ext read (a ++ quote k ++ colon f ++ t ++ layoutEntries (floatText ryu) f depth es ++ x) (k, v) es
  | [], _, depth, k, v, t, a, x, hv, ha, hx => by
      obtain ⟨c, hc, hw⟩ := colon_ws f
      rw [layoutEntries, List.append_nil, hc]
      have := Members.one ha (quoted_quote k) ws_nil hw hv hx
      simpa using this
  | (l, u) :: es, h, depth, k, v, t, a, x, hv, ha, hx => by
      obtain ⟨c, hc, hw⟩ := colon_ws f
      rw [layoutEntries]
      have := Members.more ha (quoted_quote k) ws_nil hw hv ws_nil
        (layout_entries hr f es h.2 depth l (layout_value hr f u h.1 depth) (newline_ws f depth) hx)
      rw [hc] at this ⊢
      simpa using this
end

/-! ### One line -/

theorem escapeChar_visible (c : Char) : ∀ d ∈ escapeChar c, 0x20 ≤ d.toNat := by
  have hx : ∀ n < 16, 0x20 ≤ (hexChar n).toNat := by decide
  unfold escapeChar
  intro d hd
  split at hd
  · revert d; decide
  split at hd
  · revert d; decide
  split at hd
  · revert d; decide
  split at hd
  · revert d; decide
  split at hd
  · revert d; decide
  split at hd
  · revert d; decide
  split at hd
  · revert d; decide
  split at hd
  · simp only [List.mem_cons, List.not_mem_nil, or_false] at hd
    rcases hd with rfl | rfl | rfl | rfl | rfl | rfl
    iterate 4 decide
    · exact hx _ (by omega)
    · exact hx _ (by omega)
  · rw [List.mem_singleton.1 hd]; omega

theorem quote_visible (t : Text) : ∀ d ∈ quote t, 0x20 ≤ d.toNat := by
  intro d hd
  simp only [quote, List.cons_append, List.mem_cons, List.mem_append, List.mem_flatMap, List.not_mem_nil, or_false] at hd
  rcases hd with rfl | ⟨c, _, hd⟩ | rfl
  · decide
  · exact escapeChar_visible c d hd
  · decide

theorem isNum_visible {c : Char} (h : isNum c = true) : 0x20 ≤ c.toNat := by
  simp only [isNum, Bool.or_eq_true, beq_iff_eq] at h
  rcases h with ((((h | rfl) | rfl) | rfl) | rfl) | rfl
  · have : 48 ≤ c.toNat := (digit_of_isDigit h).1
    omega
  all_goals decide

mutual
theorem layout_visible {showF : F64 → Text} (hr : ∀ f, ∀ d ∈ showF f, 0x20 ≤ d.toNat) : (v : Json) → ∀ depth,
    ∀ d ∈ layout showF .compact depth v, 0x20 ≤ d.toNat
  | .null, _ => by rw [layout]; decide
  | .bool Bool.true, _ => by rw [layout]; decide
  | .bool Bool.false, _ => by rw [layout]; decide
  | .int i, _ => by rw [layout]; exact fun d hd => isNum_visible ((int_facts (intText_toString i)).1 d hd)
  | .float x, _ => by rw [layout]; exact hr x
  | .str t, _ => by rw [layout]; exact quote_visible t
  | .arr [], _ => by rw [layout]; decide
  | .obj [], _ => by rw [layout]; decide
  | .arr (v :: vs), depth => by
      rw [layout]
      have h1 := layout_visible hr v (depth + 1)
      have h2 := items_visible hr vs (depth + 1)
      intro d hd
      simp only [newline, List.append_nil, List.cons_append, List.mem_cons, List.mem_append, List.nil_append,
        List.not_mem_nil, or_false] at hd
      rcases hd with rfl | (hd | hd) | rfl
      · decide
      · exact h1 d hd
      · exact h2 d hd
      · decide
  | .obj ((k, v) :: es), depth => by
      rw [layout]
      have h1 := layout_visible hr v (depth + 1)
      have h2 := entries_visible hr es (depth + 1)
      intro d hd
      simp only [newline, colon, List.append_nil, List.cons_append, List.mem_cons, List.mem_append, List.nil_append,
        List.append_assoc, List.not_mem_nil, or_false] at hd
      rcases hd with rfl | hd | rfl | hd | hd | rfl
      · decide
      · exact quote_visible k d hd
      · decide
      · exact h1 d hd
      · exact h2 d hd
      · decide

theorem items_visible {showF : F64 → Text} (hr : ∀ f, ∀ d ∈ showF f, 0x20 ≤ d.toNat) : (vs : List Json) → ∀ depth,
    ∀ d ∈ layoutItems showF .compact depth vs, 0x20 ≤ d.toNat
  | [], _ => by rw [layoutItems]; decide
  | v :: vs, depth => by
      rw [layoutItems]
      have h1 := layout_visible hr v depth
      have h2 := items_visible hr vs depth
      intro d hd
      simp only [newline, List.cons_append, List.mem_cons, List.mem_append, List.nil_append] at hd
      rcases hd with rfl | hd | hd
      · decide
      · exact h1 d hd
      · exact h2 d hd

theorem entries_visible {showF : F64 → Text} (hr : ∀ f, ∀ d ∈ showF f, 0x20 ≤ d.toNat) : (es : List (Text × Json)) →
    ∀ depth, ∀ d ∈ layoutEntries showF .compact depth es, 0x20 ≤ d.toNat
  | [], _ => by rw [layoutEntries]; decide
  | (k, v) :: es, depth => by
      rw [layoutEntries]
      have h1 := layout_visible hr v depth
      have h2 := entries_visible hr es depth
      intro d hd
      simp only [newline, colon, List.cons_append, List.mem_cons, List.mem_append, List.nil_append, List.append_assoc] at hd
      rcases hd with rfl | hd | rfl | hd | hd
      · decide
      · exact quote_visible k d hd
      · decide
      · exact h1 d hd
      · exact h2 d hd
end

end PC.JsonText
