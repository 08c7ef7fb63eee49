import Verif.Spec.Keys
import Verif.Props.Bytes

namespace PC.Keys

/-! ### Texts of numbers -/

theorem nat_text_inj {m n : Nat} (h : (toString m).toList = (toString n).toList) : m = n := by
  have h1 : ∀ k : Nat, (toString k).toList = Nat.toDigits 10 k := fun k => Nat.toList_repr
  rw [h1, h1] at h
  rw [← Nat.ofDigitChars_ten_toDigits (n := m), h, Nat.ofDigitChars_ten_toDigits]

theorem nat_text_digits (n : Nat) (c : Char) (h : c ∈ (toString n).toList) : c.isDigit = true := by
  have h1 : (toString n).toList = Nat.toDigits 10 n := Nat.toList_repr
  rw [h1] at h
  exact Nat.isDigit_of_mem_toDigits (by decide) (by decide) h

theorem int_text (i : Int) : (toString i).toList =
    match i with
    | .ofNat n => (toString n).toList
    | .negSucc n => '-' :: (toString (n + 1)).toList := by
  cases i with
  | ofNat n => rfl
  | negSucc n =>
    show (("-" ++ toString (n + 1) : String)).toList = _
    rw [String.toList_append]; rfl

theorem int_text_inj {i j : Int} (h : (toString i).toList = (toString j).toList) : i = j := by
  rw [int_text, int_text] at h
  cases i with
  | ofNat m =>
    cases j with
    | ofNat n => rw [nat_text_inj h]
    | negSucc n =>
      dsimp only at h
      have := nat_text_digits m '-' (by rw [h]; exact List.mem_cons_self ..)
      exact absurd this (by decide)
  | negSucc m =>
    cases j with
    | ofNat n =>
      dsimp only at h
      have := nat_text_digits n '-' (by rw [← h]; exact List.mem_cons_self ..)
      exact absurd this (by decide)
    | negSucc n =>
      dsimp only at h
      injection h with _ h
      have := nat_text_inj h
      rw [Nat.add_right_cancel this]

theorem int_text_no_comma (i : Int) : ',' ∉ (toString i).toList := by
  rw [int_text]
  intro h
  cases i with
  | ofNat m => exact absurd (nat_text_digits m ',' h) (by decide)
  | negSucc m =>
    rcases List.mem_cons.1 h with h | h
    · exact absurd h (by decide)
    · exact absurd (nat_text_digits _ ',' h) (by decide)

/-! ### Joining -/

/-- The text added by the items after the first. -/
def tailText (c : Cfg) : List Key → Except KeyErr (List Char)
  | [] => .ok []
  | k :: ks =>
    match inferKey c k with
    | .ok t =>
      match tailText c ks with
      | .ok r => .ok (',' :: t ++ r)
      | .error e => .error e
    | .error e => .error e

theorem inferKeys_tail (c : Cfg) : ∀ (ks : List Key) (acc : List Char),
    inferKeys c ks ⟨acc, false⟩ =
      match tailText c ks with
      | .ok r => .ok ⟨acc ++ r, false⟩
      | .error e => .error e
  | [], acc => by simp [inferKeys, tailText]
  | k :: ks, acc => by
    rw [inferKeys, tailText]
    cases inferKey c k with
    | error e => rfl
    | ok t =>
      dsimp only
      have : (KeyBuilder.mk acc false).push t = ⟨acc ++ ',' :: t, false⟩ := rfl
      rw [this, inferKeys_tail c ks]
      cases tailText c ks with
      | error e => rfl
      | ok r => simp

theorem infer_tuple_nil (c : Cfg) : inferKey c (.tuple []) = .ok [] := by
  simp [inferKey, inferKeys, KeyBuilder.new]

theorem infer_tuple_cons (c : Cfg) (k : Key) (ks : List Key) :
    inferKey c (.tuple (k :: ks)) =
      match inferKey c k with
      | .ok t =>
        match tailText c ks with
        | .ok r => .ok (t ++ r)
        | .error e => .error e
      | .error e => .error e := by
  simp only [inferKey, inferKeys]
  cases inferKey c k with
  | error e => rfl
  | ok t =>
    dsimp only
    have : KeyBuilder.new.push t = ⟨t, false⟩ := rfl
    rw [this, inferKeys_tail]
    cases tailText c ks <;> rfl

theorem split_unique (d : Char) : ∀ (a b x y : List Char), a.count d = b.count d →
    a ++ d :: x = b ++ d :: y → a = b ∧ x = y
  | [], [], x, y, _, h => by simpa using h
  | [], b :: bs, x, y, hc, h => by
    injection h with h1 h2
    subst h1
    simp at hc
  | a :: as, [], x, y, hc, h => by
    injection h with h1 h2
    subst h1
    simp at hc
  | a :: as, b :: bs, x, y, hc, h => by
    injection h with h1 h2
    subst h1
    have := split_unique d as bs x y (by simpa [List.count_cons] using hc) h2
    exact ⟨by rw [this.1], this.2⟩

mutual
/-- The number of commas in the text of a key. -/
def commas : Key → Nat
  | .tuple ks => commasList ks - 1
  | .enum _ v => commas v
  | _ => 0
/-- The number of commas of the items, counting one per item. -/
def commasList : List Key → Nat
  | [] => 0
  | k :: ks => 1 + commas k + commasList ks
end

mutual
theorem commas_sameKind (nf : Bool) : ∀ (k k' : Key), sameKind nf k k' = true → commas k = commas k'
  | .tuple ks, .tuple ks', h => by
    rw [sameKind] at h
    rw [commas, commas, commas_sameKinds nf ks ks' h]
  | .enum _ v, .enum _ v', h => by
    rw [sameKind, Bool.and_eq_true] at h
    rw [commas, commas]; exact commas_sameKind nf v v' h.2
  | .none, k', h | .bool _, k', h | .int _, k', h | .float _, k', h | .str _, k', h | .bytes _, k', h
  | .other _ _, k', h | .invalid, k', h => by
    cases k' <;> simp_all [sameKind, commas]
  | .tuple ks, .none, h | .tuple ks, .bool _, h | .tuple ks, .int _, h | .tuple ks, .float _, h
  | .tuple ks, .str _, h | .tuple ks, .bytes _, h | .tuple ks, .other _ _, h | .tuple ks, .enum _ _, h
  | .tuple ks, .invalid, h => by simp [sameKind] at h
  | .enum _ v, .none, h | .enum _ v, .bool _, h | .enum _ v, .int _, h | .enum _ v, .float _, h
  | .enum _ v, .str _, h | .enum _ v, .bytes _, h | .enum _ v, .other _ _, h | .enum _ v, .tuple _, h
  | .enum _ v, .invalid, h => by simp [sameKind] at h
theorem commas_sameKinds (nf : Bool) : ∀ (ks ks' : List Key), sameKinds nf ks ks' = true →
    commasList ks = commasList ks'
  | [], [], _ => rfl
  | k :: ks, k' :: ks', h => by
    rw [sameKinds, Bool.and_eq_true] at h
    rw [commasList, commasList, commas_sameKind nf k k' h.1, commas_sameKinds nf ks ks' h.2]
  | [], k' :: ks', h => by simp [sameKinds] at h
  | k :: ks, [], h => by simp [sameKinds] at h
end

theorem count_zero {t : List Char} (h : ',' ∉ t) : t.count ',' = 0 := List.count_eq_zero.2 h

mutual
theorem count_commas (c : Cfg) : ∀ (k : Key) (t : List Char), CommaFree c k → inferKey c k = .ok t →
    t.count ',' = commas k
  | .tuple [], t, _, h => by
    rw [infer_tuple_nil] at h; cases h; rfl
  | .tuple (k :: ks), t, hc, h => by
    rw [CommaFree, CommaFrees] at hc
    rw [infer_tuple_cons] at h
    cases hk : inferKey c k with
    | error e => rw [hk] at h; cases h
    | ok a =>
      rw [hk] at h
      dsimp only at h
      cases ht : tailText c ks with
      | error e => rw [ht] at h; cases h
      | ok r =>
        rw [ht] at h
        cases h
        have e1 := count_commas c k a hc.1 hk
        have e2 := count_commasList c ks r hc.2 ht
        rw [List.count_append, e1, e2, commas, commasList]; omega
  | .enum _ v, t, hc, h => by
    rw [CommaFree] at hc
    rw [inferKey] at h
    rw [commas]; exact count_commas c v t hc h
  | .none, t, hc, h | .bool _, t, hc, h | .int _, t, hc, h | .float _, t, hc, h | .str _, t, hc, h
  | .bytes _, t, hc, h | .other _ _, t, hc, h | .invalid, t, hc, h => by
    rw [commas]
    · exact count_zero (hc t h)
    all_goals (intros; exact Key.noConfusion ‹_›)
theorem count_commasList (c : Cfg) : ∀ (ks : List Key) (r : List Char), CommaFrees c ks → tailText c ks = .ok r →
    r.count ',' = commasList ks
  | [], r, _, h => by
    rw [tailText] at h; cases h; rfl
  | k :: ks, r, hc, h => by
    rw [CommaFrees] at hc
    rw [tailText] at h
    cases hk : inferKey c k with
    | error e => rw [hk] at h; cases h
    | ok a =>
      rw [hk] at h
      dsimp only at h
      cases ht : tailText c ks with
      | error e => rw [ht] at h; cases h
      | ok q =>
        rw [ht] at h
        cases h
        have e1 := count_commas c k a hc.1 hk
        have e2 := count_commasList c ks q hc.2 ht
        rw [List.cons_append, List.count_cons, List.count_append, e1, e2, commasList]
        simp; omega
end

/-- The text after the first item is empty or begins with a comma. -/
theorem tailText_form (c : Cfg) (ks : List Key) (r : List Char) (h : tailText c ks = .ok r) :
    (ks = [] ∧ r = []) ∨ ∃ k ks' x, ks = k :: ks' ∧ r = ',' :: x := by
  cases ks with
  | nil => rw [tailText] at h; cases h; exact .inl ⟨rfl, rfl⟩
  | cons k ks =>
    rw [tailText] at h
    cases hk : inferKey c k with
    | error e => rw [hk] at h; cases h
    | ok a =>
      rw [hk] at h
      dsimp only at h
      cases ht : tailText c ks with
      | error e => rw [ht] at h; cases h
      | ok q => rw [ht] at h; cases h; exact .inr ⟨k, ks, a ++ q, rfl, rfl⟩

/-- Splitting the text of a first item from the rest. -/
theorem split_tail (c : Cfg) (nf : Bool) {ks ks' : List Key} {a a' r r' : List Char}
    (hs : sameKinds nf ks ks' = true) (hr : tailText c ks = .ok r) (hr' : tailText c ks' = .ok r')
    (hc : a.count ',' = a'.count ',') (he : a ++ r = a' ++ r') : a = a' ∧ r = r' := by
  rcases tailText_form c ks r hr with ⟨rfl, rfl⟩ | ⟨k, ks1, x, rfl, rfl⟩ <;>
  rcases tailText_form c ks' r' hr' with ⟨rfl, rfl⟩ | ⟨k', ks2, y, rfl, rfl⟩
  · simpa using he
  · simp [sameKinds] at hs
  · simp [sameKinds] at hs
  · have := split_unique ',' a a' x y hc he
    exact ⟨this.1, by rw [this.2]⟩

theorem bytes_key_inj (c : Cfg) (hu : Bytes.ReadsUtf8 c.fromUtf8) {b b' : List UInt8} {t : List Char}
    (h : Bytes.bytesToString c.fromUtf8 c.bytesMode b = some t)
    (h' : Bytes.bytesToString c.fromUtf8 c.bytesMode b' = some t) : b = b' := by
  have e1 := (Bytes.bytes_round_trip c.fromUtf8 hu c.bytesMode b t (.inl h)).1
  have e2 := (Bytes.bytes_round_trip c.fromUtf8 hu c.bytesMode b' t (.inl h')).1
  rw [e1] at e2; cases e2; rfl

/-- Parts without commas, from the whole. -/
theorem parts_of_free (c : Cfg) : ∀ k : Key, CommaFree c k → PartsCommaFree c k
  | .tuple _, h => by rw [CommaFree] at h; rw [PartsCommaFree]; exact h
  | .enum _ v, h => by rw [CommaFree] at h; rw [PartsCommaFree]; exact parts_of_free c v h
  | .none, _ | .bool _, _ | .int _, _ | .float _, _ | .str _, _ | .bytes _, _ | .other _ _, _ | .invalid, _ => by
    simp [PartsCommaFree]

theorem float_key_inj (c : Cfg) {s s' t : List Char} (hk : sameKind c.infNanNull (.float s) (.float s') = true)
    (h : inferKey c (.float s) = .ok t) (h' : inferKey c (.float s') = .ok t) : s = s' := by
  rw [sameKind] at hk
  rw [inferKey] at h h'
  have hq : (!isFinite s && c.infNanNull) = false ∧ (!isFinite s' && c.infNanNull) = false := by
    revert hk
    cases isFinite s <;> cases isFinite s' <;> cases c.infNanNull <;> decide
  rw [hq.1] at h
  rw [hq.2] at h'
  cases h; injection h' with h'; exact h'.symm

mutual
theorem key_inj (c : Cfg) (hu : Bytes.ReadsUtf8 c.fromUtf8) : ∀ (k k' : Key) (t : List Char),
    sameKind c.infNanNull k k' = true → PartsCommaFree c k → PartsCommaFree c k' →
    inferKey c k = .ok t → inferKey c k' = .ok t → k = k'
  | .none, k', t, hk, _, _, _, _ => by
    cases k' with
    | none => rfl
    | _ => simp [sameKind] at hk
  | .bool b, k', t, hk, _, _, h, h' => by
    cases k' with
    | bool b' =>
      rw [inferKey] at h h'
      rw [← h'] at h
      revert h; cases b <;> cases b' <;> simp [boolJsonKey]
    | _ => simp [sameKind] at hk
  | .int i, k', t, hk, _, _, h, h' => by
    cases k' with
    | int j =>
      rw [inferKey] at h h'
      cases h; injection h' with h'
      rw [int_text_inj h']
    | _ => simp [sameKind] at hk
  | .float s, k', t, hk, _, _, h, h' => by
    cases k' with
    | float s' => rw [float_key_inj c hk h h']
    | _ => simp [sameKind] at hk
  | .str s, k', t, hk, _, _, h, h' => by
    cases k' with
    | str s' =>
      rw [inferKey] at h h'
      cases h; injection h' with h'; rw [h']
    | _ => simp [sameKind] at hk
  | .bytes b, k', t, hk, _, _, h, h' => by
    cases k' with
    | bytes b' =>
      rw [inferKey] at h h'
      cases e : Bytes.bytesToString c.fromUtf8 c.bytesMode b with
      | none => rw [e] at h; cases h
      | some x =>
        cases e' : Bytes.bytesToString c.fromUtf8 c.bytesMode b' with
        | none => rw [e'] at h'; cases h'
        | some x' =>
          rw [e] at h; rw [e'] at h'
          cases h; injection h' with h'; subst h'
          rw [bytes_key_inj c hu e e']
    | _ => simp [sameKind] at hk
  | .other ty s, k', t, hk, _, _, h, h' => by
    cases k' with
    | other ty' s' =>
      rw [sameKind, beq_iff_eq] at hk
      rw [inferKey] at h h'
      cases h; injection h' with h'; rw [h', hk]
    | _ => simp [sameKind] at hk
  | .enum cl v, k', t, hk, hc, hc', h, h' => by
    cases k' with
    | enum cl' v' =>
      rw [sameKind, Bool.and_eq_true, beq_iff_eq] at hk
      rw [inferKey] at h h'
      rw [PartsCommaFree] at hc hc'
      rw [hk.1, key_inj c hu v v' t hk.2 hc hc' h h']
    | _ => simp [sameKind] at hk
  | .tuple [], k', t, hk, _, _, _, _ => by
    cases k' with
    | tuple ks' =>
      cases ks' with
      | nil => rfl
      | cons _ _ => simp [sameKind, sameKinds] at hk
    | _ => simp [sameKind] at hk
  | .tuple (k :: ks), k'', t, hk, hc, hc', h, h' => by
    cases k'' with
    | tuple ks' =>
      cases ks' with
      | nil => simp [sameKind, sameKinds] at hk
      | cons k' ks' =>
        rw [sameKind, sameKinds, Bool.and_eq_true] at hk
        rw [PartsCommaFree, CommaFrees] at hc hc'
        rw [infer_tuple_cons] at h h'
        cases e : inferKey c k with
        | error _ => rw [e] at h; cases h
        | ok a =>
          cases e' : inferKey c k' with
          | error _ => rw [e'] at h'; cases h'
          | ok a' =>
            rw [e] at h; rw [e'] at h'
            dsimp only at h h'
            cases r : tailText c ks with
            | error _ => rw [r] at h; cases h
            | ok x =>
              cases r' : tailText c ks' with
              | error _ => rw [r'] at h'; cases h'
              | ok x' =>
                rw [r] at h; rw [r'] at h'
                cases h; injection h' with h'
                have hcount : a.count ',' = a'.count ',' := by
                  rw [count_commas c k a hc.1 e, count_commas c k' a' hc'.1 e', commas_sameKind _ k k' hk.1]
                obtain ⟨e1, e2⟩ := split_tail c _ hk.2 r r' hcount h'.symm
                subst e1; subst e2
                rw [key_inj c hu k k' a hk.1 (parts_of_free c k hc.1) (parts_of_free c k' hc'.1) e e',
                  keys_inj c hu ks ks' x hk.2 hc.2 hc'.2 r r']
    | _ => simp [sameKind] at hk
  | .invalid, _, t, _, _, _, h, _ => by rw [inferKey] at h; cases h
theorem keys_inj (c : Cfg) (hu : Bytes.ReadsUtf8 c.fromUtf8) : ∀ (ks ks' : List Key) (r : List Char),
    sameKinds c.infNanNull ks ks' = true → CommaFrees c ks → CommaFrees c ks' →
    tailText c ks = .ok r → tailText c ks' = .ok r → ks = ks'
  | [], [], _, _, _, _, _, _ => rfl
  | [], _ :: _, _, h, _, _, _, _ => by simp [sameKinds] at h
  | _ :: _, [], _, h, _, _, _, _ => by simp [sameKinds] at h
  | k :: ks, k' :: ks', t, hk, hc, hc', h, h' => by
    rw [sameKinds, Bool.and_eq_true] at hk
    rw [CommaFrees] at hc hc'
    rw [tailText] at h h'
    cases e : inferKey c k with
    | error _ => rw [e] at h; cases h
    | ok a =>
      cases e' : inferKey c k' with
      | error _ => rw [e'] at h'; cases h'
      | ok a' =>
        rw [e] at h; rw [e'] at h'
        dsimp only at h h'
        cases r : tailText c ks with
        | error _ => rw [r] at h; cases h
        | ok x =>
          cases r' : tailText c ks' with
          | error _ => rw [r'] at h'; cases h'
          | ok x' =>
            rw [r] at h; rw [r'] at h'
            cases h; injection h' with h'
            injection h' with _ h'
            have hcount : a.count ',' = a'.count ',' := by
              rw [count_commas c k a hc.1 e, count_commas c k' a' hc'.1 e', commas_sameKind _ k k' hk.1]
            obtain ⟨e1, e2⟩ := split_tail c _ hk.2 r r' hcount h'.symm
            subst e1; subst e2
            rw [key_inj c hu k k' a hk.1 (parts_of_free c k hc.1) (parts_of_free c k' hc'.1) e e',
              keys_inj c hu ks ks' x hk.2 hc.2 hc'.2 r r']
end

/-! ### Dicts -/

variable {V N O E : Type}

theorem setItem_keys (k : List Char) (o : O) : ∀ l : List (List Char × O),
    (setItem k o l).map Prod.fst = if k ∈ l.map Prod.fst then l.map Prod.fst else l.map Prod.fst ++ [k]
  | [] => rfl
  | (k', o') :: rest => by
    rw [setItem]
    by_cases h : k' = k
    · rw [if_pos h]; subst h; simp
    · rw [if_neg h, List.map_cons, setItem_keys k o rest, List.map_cons]
      have : k ∈ k' :: rest.map Prod.fst ↔ k ∈ rest.map Prod.fst := by
        simp [Ne.symm h]
      by_cases h2 : k ∈ rest.map Prod.fst
      · rw [if_pos h2, if_pos (this.2 h2)]
      · rw [if_neg h2, if_neg (fun h3 => h2 (this.1 h3))]; rfl

theorem setItem_lookup (k : List Char) (o : O) (j : List Char) : ∀ l : List (List Char × O),
    (setItem k o l).lookup j = if j = k then some o else l.lookup j
  | [] => by
    rw [setItem, List.lookup_cons]
    by_cases h : j = k
    · simp [h]
    · have : (j == k) = false := by simpa using h
      rw [this, if_neg h]
  | (k', o') :: rest => by
    rw [setItem]
    by_cases h : k' = k
    · subst h
      rw [if_pos rfl, List.lookup_cons, List.lookup_cons]
      by_cases hj : j = k'
      · simp [hj]
      · have : (j == k') = false := by simpa using hj
        rw [this, if_neg hj]
    · rw [if_neg h, List.lookup_cons, List.lookup_cons, setItem_lookup k o j rest]
      by_cases hj : j = k'
      · subst hj; rw [if_neg h]; simp [h]
      · have : (j == k') = false := by simpa using hj
        rw [this]

/-- A list of entries written into a Python dict one after the other. -/
def writeAll (l : List (List Char × O)) (acc : List (List Char × O)) : List (List Char × O) :=
  l.foldl (fun acc e => setItem e.1 e.2 acc) acc

theorem dictPython_writes (flt : Key → Except E (Option N)) (jsonKey : Key → Except E (List Char))
    (ser : V → N → Except E O) : ∀ (d : List (Key × V)) (acc : List (List Char × O)),
    dictPython flt jsonKey ser d acc =
      match dictJson flt jsonKey ser d with
      | .ok doc => .ok (writeAll doc acc)
      | .error e => .error e
  | [], acc => rfl
  | (k, v) :: rest, acc => by
    rw [dictPython, dictJson]
    cases flt k with
    | error e => rfl
    | ok o =>
      cases o with
      | none => exact dictPython_writes flt jsonKey ser rest acc
      | some n =>
        dsimp only
        cases jsonKey k with
        | error e => rfl
        | ok t =>
          dsimp only
          cases ser v n with
          | error e => rfl
          | ok o =>
            dsimp only
            rw [dictPython_writes flt jsonKey ser rest]
            cases dictJson flt jsonKey ser rest <;> rfl

theorem writeAll_lookup (j : List Char) : ∀ (l acc : List (List Char × O)),
    (writeAll l acc).lookup j = (l.reverse.lookup j).or (acc.lookup j)
  | [], acc => rfl
  | (k, o) :: rest, acc => by
    show (writeAll rest (setItem k o acc)).lookup j = _
    rw [writeAll_lookup j rest, setItem_lookup, List.reverse_cons, List.lookup_append, List.lookup_cons]
    by_cases h : j = k
    · subst h; cases rest.reverse.lookup j <;> simp
    · have : (j == k) = false := by simpa using h
      rw [this, if_neg h]; cases rest.reverse.lookup j <;> simp

theorem writeAll_append (l : List (List Char × O)) : ∀ acc : List (List Char × O),
    ((acc ++ l).map Prod.fst).Nodup → writeAll l acc = acc ++ l := by
  induction l with
  | nil => intro acc _; simp [writeAll]
  | cons e rest ih =>
    intro acc h
    have hset : ∀ acc : List (List Char × O), e.1 ∉ acc.map Prod.fst → setItem e.1 e.2 acc = acc ++ [e] := by
      intro acc
      induction acc with
      | nil => intro _; rfl
      | cons x xs ih2 =>
        intro hx
        rw [List.map_cons, List.mem_cons, not_or] at hx
        obtain ⟨k, o⟩ := x
        rw [setItem, if_neg (Ne.symm hx.1), ih2 hx.2]; rfl
    show writeAll rest (setItem e.1 e.2 acc) = _
    rw [List.map_append, List.nodup_append] at h
    rw [hset acc (fun hm => h.2.2 _ hm e.1 (by simp) rfl), ih]
    · simp
    · rw [List.append_assoc, List.map_append, List.nodup_append]; exact h

end PC.Keys
