import Verif.Spec.Messages

namespace PC.Msg

theorem replaceGo_plain (pat v : List Char) (p : Char) (seg rest : List Char) (h : p ∉ seg) :
    replaceGo (p :: pat) v (seg ++ rest) 0 = seg ++ replaceGo (p :: pat) v rest 0 := by
  induction seg with
  | nil => rfl
  | cons c seg ih =>
    have hc : p ≠ c := fun e => h (e ▸ List.mem_cons_self)
    have : (p :: pat).isPrefixOf (c :: (seg ++ rest)) = false := by simp [List.isPrefixOf, hc]
    rw [List.cons_append, replaceGo, this]
    simp only [Bool.false_eq_true, if_false]
    rw [ih (fun hm => h (List.mem_cons_of_mem _ hm)), List.cons_append]

theorem replaceGo_skip (pat v s : List Char) (k : Nat) :
    replaceGo pat v s k = replaceGo pat v (s.drop k) 0 := by
  induction s generalizing k with
  | nil => cases k <;> rfl
  | cons c s ih =>
    cases k with
    | zero => rfl
    | succ k => rw [replaceGo, ih k, List.drop_succ_cons]

/-- `name}` is a prefix of `other}…` only if the names are equal. -/
theorem prefix_name {n m rest : List Char} (hn : '}' ∉ n) (hm : '}' ∉ m) :
    (n ++ ['}']).isPrefixOf (m ++ '}' :: rest) = decide (n = m) := by
  induction n generalizing m with
  | nil =>
    cases m with
    | nil => simp [List.isPrefixOf]
    | cons c m =>
      have : '}' ≠ c := fun e => hm (e ▸ List.mem_cons_self)
      simp [List.isPrefixOf, this]
  | cons d n ih =>
    cases m with
    | nil =>
      have : d ≠ '}' := fun e => hn (e ▸ List.mem_cons_self)
      simp [List.isPrefixOf, this]
    | cons c m =>
      have := ih (m := m) (fun h => hn (List.mem_cons_of_mem _ h)) (fun h => hm (List.mem_cons_of_mem _ h))
      simp only [List.cons_append, List.isPrefixOf, this]
      by_cases hdc : d = c <;> simp [hdc]

theorem replaceGo_hole_ne {n m v rest : List Char} (hn : '}' ∉ n) (hm : '}' ∉ m) (hb : '{' ∉ m) (hne : n ≠ m) :
    replaceGo ('{' :: n ++ ['}']) v ('{' :: m ++ ['}'] ++ rest) 0 =
      '{' :: m ++ ['}'] ++ replaceGo ('{' :: n ++ ['}']) v rest 0 := by
  have hp : ('{' :: n ++ ['}']).isPrefixOf ('{' :: (m ++ ['}'] ++ rest)) = false := by
    rw [List.cons_append, List.isPrefixOf, List.append_assoc, List.cons_append, List.nil_append,
      prefix_name hn hm]
    simp [hne]
  have hseg : '{' ∉ m ++ ['}'] := by simp [hb]
  rw [show '{' :: m ++ ['}'] ++ rest = '{' :: (m ++ ['}'] ++ rest) from rfl, replaceGo, hp]
  simp only [Bool.false_eq_true, if_false]
  have := replaceGo_plain (n ++ ['}']) v '{' (m ++ ['}']) rest hseg
  rw [show '{' :: n ++ ['}'] = '{' :: (n ++ ['}']) from rfl, this]
  rfl

theorem replaceGo_hole_eq {n v rest : List Char} (hn : '}' ∉ n) :
    replaceGo ('{' :: n ++ ['}']) v ('{' :: n ++ ['}'] ++ rest) 0 =
      v ++ replaceGo ('{' :: n ++ ['}']) v rest 0 := by
  have hp : ('{' :: n ++ ['}']).isPrefixOf ('{' :: (n ++ ['}'] ++ rest)) = true := by
    rw [List.cons_append, List.isPrefixOf, List.append_assoc, List.cons_append, List.nil_append,
      prefix_name hn hn]
    simp
  rw [show '{' :: n ++ ['}'] ++ rest = '{' :: (n ++ ['}'] ++ rest) from rfl, replaceGo, hp]
  simp only [if_true]
  rw [replaceGo_skip]
  congr 2
  simp

/-- The pieces whose text a substitution leaves as they are, or replaces as a whole. -/
def Fine (look : List Char → Option (List Char)) : Tok → Prop
  | .ch c => c ≠ '{'
  | .hole n => '{' ∉ n ∧ '}' ∉ n ∧ ∀ w, look n = some w → '{' ∉ w

/-- `look`, and `v` for the name `n` unless it is there already. -/
def extend (look : List Char → Option (List Char)) (n v : List Char) : List Char → Option (List Char) :=
  fun m => match look m with
    | some w => some w
    | none => if m = n then some v else none

theorem substitute_fill (look : List Char → Option (List Char)) (n v : List Char) (hn : '}' ∉ n) :
    ∀ ts : List Tok, (∀ t ∈ ts, Fine look t) →
      substitute n v (fill look ts) = fill (extend look n v) ts
  | [], _ => rfl
  | t :: ts, h => by
    have ih := substitute_fill look n v hn ts (fun t ht => h t (List.mem_cons_of_mem _ ht))
    have h1 := h t List.mem_cons_self
    unfold substitute fill at ih ⊢
    rw [List.flatMap_cons, List.flatMap_cons, ← ih]
    cases t with
    | ch c =>
      have hc : '{' ∉ [c] := by
        simp only [List.mem_singleton]; exact fun e => h1 e.symm
      exact replaceGo_plain _ _ _ [c] _ hc
    | hole m =>
      obtain ⟨hb, hm, hw⟩ := h1
      simp only [fill1, extend]
      cases hl : look m with
      | some w =>
        simp only [Option.getD_some]
        exact replaceGo_plain _ _ _ w _ (hw w hl)
      | none =>
        simp only [Option.getD_none]
        by_cases he : m = n
        · subst he
          simp only [if_true, Option.getD_some]
          exact replaceGo_hole_eq hn
        · simp only [if_neg he, Option.getD_none]
          exact replaceGo_hole_ne hn hm hb (fun e => he e.symm)

theorem foldl_fill : ∀ (ss : List (List Char × List Char)) (look : List Char → Option (List Char))
    (ts : List Tok), (∀ p ∈ ss, '}' ∉ p.1) → (∀ p ∈ ss.dropLast, '{' ∉ p.2) → (∀ t ∈ ts, Fine look t) →
    ss.foldl (fun msg s => substitute s.1 s.2 msg) (fill look ts) =
      fill (fun m => (look m).or (ss.lookup m)) ts
  | [], look, ts, _, _, _ => by
    simp only [List.foldl_nil, List.lookup_nil, Option.or_none]
  | (n, v) :: ss, look, ts, hn, hv, hf => by
    have e1 := substitute_fill look n v (hn _ List.mem_cons_self) ts hf
    have hext : ∀ m, (extend look n v m).or (ss.lookup m) = (look m).or (List.lookup m ((n, v) :: ss)) := by
      intro m
      unfold extend
      cases look m with
      | some w => rfl
      | none =>
        simp only [Option.none_or, List.lookup_cons]
        by_cases he : m = n
        · simp [he]
        · have : (m == n) = false := by simp [he]
          simp [he, this]
    rw [List.foldl_cons, e1]
    cases ss with
    | nil =>
      rw [List.foldl_nil]
      congr 1
      funext m
      have := hext m
      simpa using this
    | cons p ss' =>
      have hv' : ∀ q ∈ (p :: ss').dropLast, '{' ∉ q.2 := fun q hq =>
        hv q (by rw [List.dropLast_cons_cons]; exact List.mem_cons_of_mem _ hq)
      have hvv : '{' ∉ v := hv (n, v) (by rw [List.dropLast_cons_cons]; exact List.mem_cons_self)
      rw [foldl_fill (p :: ss') (extend look n v) ts (fun q hq => hn q (List.mem_cons_of_mem _ hq)) hv' ?_]
      · congr 1
        funext m
        exact hext m
      · intro t ht
        have := hf t ht
        cases t with
        | ch c => exact this
        | hole m =>
          refine ⟨this.1, this.2.1, ?_⟩
          intro w hw
          unfold extend at hw
          cases hl : look m with
          | some w' => rw [hl] at hw; cases hw; exact this.2.2 w hl
          | none =>
            rw [hl] at hw
            simp only at hw
            split at hw
            · cases hw; exact hvv
            · cases hw

theorem fill_parseGo (tmpl : List Char) : ∀ o : Option (List Char),
    fill (fun _ => none) (parseGo tmpl o) = (match o with | none => [] | some n => '{' :: n) ++ tmpl := by
  have hmap : ∀ n : List Char, fill (fun _ => none) (n.map .ch) = n := by
    intro n
    induction n with
    | nil => rfl
    | cons c n ih =>
      unfold fill at ih ⊢
      rw [List.map_cons, List.flatMap_cons, ih]; rfl
  induction tmpl with
  | nil =>
    intro o
    cases o with
    | none => rfl
    | some n =>
      show fill _ (.ch '{' :: n.map .ch) = _
      unfold fill
      rw [List.flatMap_cons]
      have := hmap n
      unfold fill at this
      rw [this]; simp [fill1]
  | cons c cs ih =>
    intro o
    cases o with
    | none =>
      unfold parseGo
      by_cases hc : c = '{'
      · rw [if_pos hc, ih (some [])]; simp [hc]
      · rw [if_neg hc]
        unfold fill
        rw [List.flatMap_cons]
        have := ih none
        unfold fill at this
        rw [this]; rfl
    | some n =>
      unfold parseGo
      by_cases hc : c = '}'
      · rw [if_pos hc]
        unfold fill
        rw [List.flatMap_cons]
        have := ih none
        unfold fill at this
        rw [this]; simp [fill1, hc]
      · rw [if_neg hc, ih (some (n ++ [c]))]; simp

/-- Names of placeholders never contain a closing brace. -/
theorem parseGo_names : ∀ (tmpl : List Char) (o : Option (List Char)),
    (∀ n, o = some n → '}' ∉ n) → ∀ n, Tok.hole n ∈ parseGo tmpl o → '}' ∉ n
  | [], none, _, n, h => by simp [parseGo] at h
  | [], some m, _, n, h => by simp [parseGo] at h
  | c :: cs, none, _, n, h => by
    unfold parseGo at h
    by_cases hc : c = '{'
    · rw [if_pos hc] at h
      exact parseGo_names cs (some []) (by intro n hn; cases hn; simp) n h
    · rw [if_neg hc] at h
      simp only [List.mem_cons] at h
      rcases h with h | h
      · cases h
      · exact parseGo_names cs none (by intro n hn; cases hn) n h
  | c :: cs, some m, ho, n, h => by
    unfold parseGo at h
    by_cases hc : c = '}'
    · rw [if_pos hc] at h
      simp only [List.mem_cons, Tok.hole.injEq] at h
      rcases h with h | h
      · subst h; exact ho n rfl
      · exact parseGo_names cs none (by intro n hn; cases hn) n h
    · rw [if_neg hc] at h
      refine parseGo_names cs (some (m ++ [c])) ?_ n h
      intro n hn
      cases hn
      have := ho m rfl
      simp only [List.mem_append, List.mem_singleton, not_or]
      exact ⟨this, fun e => hc e.symm⟩

theorem fine_of_plain {tmpl : List Char} (h : plain (parse tmpl) = true) :
    ∀ t ∈ parse tmpl, Fine (fun _ => none) t := by
  intro t ht
  have h1 := List.all_eq_true.1 h t ht
  cases t with
  | ch c => simpa [Fine] using h1
  | hole n =>
    refine ⟨by simpa using h1, parseGo_names tmpl none (by intro n hn; cases hn) n ht, ?_⟩
    intro w hw; cases hw

theorem digits_plain (n : Nat) : '{' ∉ showNat n := by
  intro h
  have h' : '{' ∈ Nat.toDigits 10 n := by
    have : (toString n).toList = Nat.toDigits 10 n := Nat.toList_repr
    unfold showNat at h
    rwa [this] at h
  have := Nat.isDigit_of_mem_toDigits (by decide) (by decide) h'
  exact absurd this (by decide)

theorem int_plain (i : Int) : '{' ∉ showInt i := by
  cases i with
  | ofNat n =>
    have := digits_plain n
    exact this
  | negSucc n =>
    have h := digits_plain (n + 1)
    have : showInt (Int.negSucc n) = '-' :: showNat (n + 1) := by
      simp only [showInt, showNat]
      have : toString (Int.negSucc n) = "-" ++ toString (n + 1) := rfl
      rw [this, String.toList_append]
      rfl
    rw [this]
    simp only [List.mem_cons, not_or]
    exact ⟨by decide, h⟩

end PC.Msg
