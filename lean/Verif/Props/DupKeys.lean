import Verif.Spec.DupKeys

/-
C117: JSON objects in which a key occurs more than once.
-/

namespace PC.DupKeys

variable {δ κ ω ε : Type}

theorem lookup_setItem (d : List (String × δ)) (k : String) (v : δ) (k' : String) :
    (setItem d k v).lookup k' = if k' = k then some v else d.lookup k' := by
  induction d with
  | nil => simp [setItem, List.lookup]; split <;> rename_i h <;> simp_all
  | cons e rest ih =>
    obtain ⟨n, w⟩ := e
    unfold setItem
    by_cases h : n = k
    · rw [if_pos h]
      subst h
      by_cases h2 : k' = n
      · simp [List.lookup, h2]
      · simp [List.lookup, h2, beq_eq_false_iff_ne.2 h2]
    · rw [if_neg h]
      by_cases h2 : k' = n
      · subst h2; simp [List.lookup, h]
      · simp only [List.lookup, beq_eq_false_iff_ne.2 h2]; exact ih

theorem foldl_lookup (pairs : List (String × δ)) (d : List (String × δ)) (k : String) :
    (pairs.foldl (fun d p => setItem d p.1 p.2) d).lookup k = (pairs.reverse.lookup k).or (d.lookup k) := by
  induction pairs generalizing d with
  | nil => simp
  | cons p ps ih =>
    rw [List.foldl_cons, ih, lookup_setItem, List.reverse_cons, List.lookup_append]
    cases h : ps.reverse.lookup k with
    | some v => simp
    | none =>
      obtain ⟨n, v⟩ := p
      by_cases h2 : k = n
      · subst h2; simp [List.lookup]
      · simp [List.lookup, h2, beq_eq_false_iff_ne.2 h2]

/-- Looking up a key gives the same in a JSON object and in the dict that Python reads in it: the last pair. -/
theorem lookup_agrees (pairs : List (String × δ)) (k : String) :
    (jsonView pairs).get k = (pyView (pyOf pairs)).get k := by
  show pairs.reverse.lookup k = (pyOf pairs).lookup k
  unfold pyOf
  rw [foldl_lookup]
  simp

example : (jsonView [("a", 1), ("b", 2), ("a", 3)]).get "a" = some 3 := rfl

section
variable [DecidableEq κ]

theorem setItem_keys (d : List (κ × ω)) (k : κ) (v : ω) (k' : κ) :
    k' ∈ (setItem d k v).map Prod.fst ↔ k' = k ∨ k' ∈ d.map Prod.fst := by
  induction d with
  | nil => simp [setItem]
  | cons e rest ih =>
    obtain ⟨n, w⟩ := e
    unfold setItem
    split
    · rename_i h; subst h; simp
    · simp only [List.map_cons, List.mem_cons, ih]
      constructor
      · rintro (h | h | h) <;> simp [h]
      · rintro (h | h | h) <;> simp [h]

theorem setItem_nodup (d : List (κ × ω)) (k : κ) (v : ω) (h : (d.map Prod.fst).Nodup) :
    ((setItem d k v).map Prod.fst).Nodup := by
  induction d with
  | nil => simp [setItem]
  | cons e rest ih =>
    obtain ⟨n, w⟩ := e
    unfold setItem
    rw [List.map_cons, List.nodup_cons] at h
    split
    · simpa using h
    · rename_i hne
      rw [List.map_cons, List.nodup_cons]
      refine ⟨fun hm => ?_, ih h.2⟩
      rcases (setItem_keys rest k v n).1 hm with h1 | h1
      · exact hne h1
      · exact h.1 h1

theorem foldl_nodup (pairs d : List (κ × ω)) (h : (d.map Prod.fst).Nodup) :
    ((pairs.foldl (fun d p => setItem d p.1 p.2) d).map Prod.fst).Nodup := by
  induction pairs generalizing d with
  | nil => exact h
  | cons p ps ih => exact ih _ (setItem_nodup _ _ _ h)

theorem setItem_new (d : List (κ × ω)) (k : κ) (v : ω) (h : k ∉ d.map Prod.fst) : setItem d k v = d ++ [(k, v)] := by
  induction d with
  | nil => rfl
  | cons e rest ih =>
    obtain ⟨n, w⟩ := e
    rw [List.map_cons, List.mem_cons, not_or] at h
    unfold setItem
    rw [if_neg fun e => h.1 e.symm, ih h.2]
    rfl

theorem foldl_nodup_id (pairs d : List (κ × ω)) (h : ((d ++ pairs).map Prod.fst).Nodup) :
    pairs.foldl (fun d p => setItem d p.1 p.2) d = d ++ pairs := by
  induction pairs generalizing d with
  | nil => simp
  | cons p ps ih =>
    rw [List.foldl_cons, setItem_new]
    · rw [ih]
      · simp
      · simpa using h
    · intro hm
      rw [List.map_append, List.nodup_append] at h
      exact h.2.2 _ hm _ (by simp) rfl

/-- Setting with keys renamed apart commutes with the renaming. -/
theorem setItem_map (g : String → κ) (f : δ → ω) (d : List (String × δ)) (k : String) (v : δ)
    (hg : ∀ p ∈ d, g p.1 = g k → p.1 = k) :
    setItem (d.map fun p => (g p.1, f p.2)) (g k) (f v) = (setItem d k v).map fun p => (g p.1, f p.2) := by
  induction d with
  | nil => rfl
  | cons e rest ih =>
    obtain ⟨n, w⟩ := e
    rw [List.map_cons]
    unfold setItem
    by_cases h : n = k
    · subst h; simp
    · have : g n ≠ g k := fun e => h (hg (n, w) List.mem_cons_self e)
      rw [if_neg h, if_neg this, ih fun p hp => hg p (List.mem_cons_of_mem _ hp)]
      rfl

end

theorem mem_setItem {d : List (String × δ)} {k : String} {v : δ} {p : String × δ} (h : p ∈ setItem d k v) :
    p = (k, v) ∨ p ∈ d := by
  induction d with
  | nil => simpa [setItem] using h
  | cons e rest ih =>
    obtain ⟨n, w⟩ := e
    unfold setItem at h
    split at h
    · rename_i hn
      subst hn
      rcases List.mem_cons.1 h with h | h
      · exact .inl h
      · exact .inr (List.mem_cons_of_mem _ h)
    · rcases List.mem_cons.1 h with h | h
      · exact .inr (h ▸ List.mem_cons_self)
      · rcases ih h with h | h
        · exact .inl h
        · exact .inr (List.mem_cons_of_mem _ h)

theorem mem_foldl {pairs d : List (String × δ)} {p : String × δ}
    (h : p ∈ pairs.foldl (fun d p => setItem d p.1 p.2) d) : p ∈ d ∨ p ∈ pairs := by
  induction pairs generalizing d with
  | nil => exact .inl h
  | cons q qs ih =>
    rcases ih h with h | h
    · rcases mem_setItem h with h | h
      · exact .inr (h ▸ List.mem_cons_self)
      · exact .inl h
    · exact .inr (List.mem_cons_of_mem _ h)

/-- All pairs of the dict that Python reads are pairs of the object. -/
theorem mem_pyOf {pairs : List (String × δ)} {p : String × δ} (h : p ∈ pyOf pairs) : p ∈ pairs := by
  rcases mem_foldl h with h | h
  · cases h
  · exact h

theorem foldl_map [DecidableEq κ] (g : String → κ) (f : δ → ω) (pairs d : List (String × δ))
    (hg : ∀ p ∈ d ++ pairs, ∀ q ∈ d ++ pairs, g p.1 = g q.1 → p.1 = q.1) :
    (pairs.map fun p => (g p.1, f p.2)).foldl (fun d p => setItem d p.1 p.2) (d.map fun p => (g p.1, f p.2)) =
      (pairs.foldl (fun d p => setItem d p.1 p.2) d).map fun p => (g p.1, f p.2) := by
  induction pairs generalizing d with
  | nil => rfl
  | cons p ps ih =>
    rw [List.map_cons, List.foldl_cons, List.foldl_cons]
    rw [setItem_map g f d p.1 p.2 fun q hq => hg q (by simp [hq]) p (by simp)]
    refine ih _ fun q hq r hr => ?_
    have sub : ∀ x ∈ setItem d p.1 p.2 ++ ps, x ∈ d ++ p :: ps := by
      intro x hx
      rcases List.mem_append.1 hx with hx | hx
      · rcases mem_setItem hx with hx | hx
        · subst hx; simp
        · simp [hx]
      · simp [hx]
    exact hg q (sub q hq) r (sub r hr)

/-! ### Dicts -/

theorem dictLoop_eq [DecidableEq κ] (fk : Val String κ ε) (fv : Val δ ω ε) :
    ∀ (pairs : List (String × δ)) (out : List (κ × ω)) (errs : List (Line ε)),
      dictLoop fk fv pairs out errs =
        ((pairs.filterMap (pairOut fk fv)).foldl (fun d p => setItem d p.1 p.2) out, errs ++ pairs.flatMap (pairErrors fk fv)) := by
  intro pairs
  induction pairs with
  | nil => intro out errs; simp [dictLoop]
  | cons p ps ih =>
    intro out errs
    obtain ⟨k, v⟩ := p
    unfold dictLoop
    cases hk : fk k with
    | error es =>
      cases hv : fv v with
      | error es' => simp [ih, pairErrors, pairOut, hk, hv]
      | ok w => simp [ih, pairErrors, pairOut, hk, hv]
    | ok k' =>
      cases hv : fv v with
      | error es' => simp [ih, pairErrors, pairOut, hk, hv]
      | ok w => simp [ih, pairErrors, pairOut, hk, hv]

theorem pairErrors_nil {fk : Val String κ ε} {fv : Val δ ω ε} (hk : Says fk) (hv : Says fv) (p : String × δ) :
    pairErrors fk fv p = [] ↔ Ok fk p.1 ∧ Ok fv p.2 := by
  unfold pairErrors Ok
  cases h1 : fk p.1 with
  | error es =>
    have := hk _ _ h1
    simp [this]
  | ok k =>
    cases h2 : fv p.2 with
    | error es => have := hv _ _ h2; simp [this]
    | ok w => simp

/-- The errors of a dict schema are those of all pairs, in order, also of those that a later pair replaces; without
errors the output is made of all pairs in order. -/
theorem dict_exact [DecidableEq κ] (fk : Val String κ ε) (fv : Val δ ω ε) (tooFew tooMany : ε) (pairs : List (String × δ)) :
    (pairs.flatMap (pairErrors fk fv) = [] →
      validateDict fk fv none none tooFew tooMany (jsonView pairs) =
        .ok ((pairs.filterMap (pairOut fk fv)).foldl (fun d p => setItem d p.1 p.2) [])) ∧
    (pairs.flatMap (pairErrors fk fv) ≠ [] →
      validateDict fk fv none none tooFew tooMany (jsonView pairs) = .error (pairs.flatMap (pairErrors fk fv))) := by
  unfold validateDict jsonView
  rw [dictLoop_eq]
  rw [List.nil_append]
  constructor
  · intro h; rw [h]; simp
  · intro h
    cases h' : pairs.flatMap (pairErrors fk fv) with
    | nil => exact absurd h' h
    | cons e es => rfl

/-- A dict schema accepts a JSON object exactly if it accepts every key and every value, also the values that a later
one replaces, and the number of keys of the output is within bounds. -/
theorem dict_accepts_iff [DecidableEq κ] (fk : Val String κ ε) (fv : Val δ ω ε) (hk : Says fk) (hv : Says fv)
    (min max : Option Nat) (tooFew tooMany : ε) (pairs : List (String × δ)) (out : List (κ × ω)) :
    validateDict fk fv min max tooFew tooMany (jsonView pairs) = .ok out ↔
      (∀ p ∈ pairs, Ok fk p.1 ∧ Ok fv p.2) ∧
      out = (pairs.filterMap (pairOut fk fv)).foldl (fun d p => setItem d p.1 p.2) [] ∧
      (∀ m, min = some m → m ≤ out.length) ∧ (∀ m, max = some m → out.length ≤ m) := by
  have hnil : pairs.flatMap (pairErrors fk fv) = [] ↔ ∀ p ∈ pairs, Ok fk p.1 ∧ Ok fv p.2 := by
    simp only [List.flatMap_eq_nil_iff, pairErrors_nil hk hv]
  unfold validateDict jsonView
  rw [dictLoop_eq, List.nil_append, ← hnil]
  generalize (pairs.filterMap (pairOut fk fv)).foldl (fun d p => setItem d p.1 p.2) [] = o
  cases h' : pairs.flatMap (pairErrors fk fv) with
  | cons e es => simp
  | nil =>
    dsimp only
    by_cases h1 : (min.any fun m => decide (o.length < m)) = true
    · rw [if_pos h1]
      constructor
      · intro h; cases h
      · rintro ⟨_, rfl, h2, _⟩
        cases min with
        | none => cases h1
        | some m =>
          have := h2 m rfl
          simp at h1
          omega
    · rw [if_neg h1]
      by_cases h2 : (max.any fun m => decide (m < o.length)) = true
      · rw [if_pos h2]
        constructor
        · intro h; cases h
        · rintro ⟨_, rfl, _, h3⟩
          cases max with
          | none => cases h2
          | some m =>
            have := h3 m rfl
            simp at h2
            omega
      · rw [if_neg h2]
        constructor
        · intro h
          cases h
          refine ⟨rfl, rfl, ?_, ?_⟩
          · rintro m rfl; simpa using h1
          · rintro m rfl; simpa using h2
        · rintro ⟨_, rfl, _⟩; rfl

theorem pyOf_nodup (pairs : List (String × δ)) : ((pyOf pairs).map Prod.fst).Nodup := foldl_nodup _ _ (by simp)

theorem pyOf_id (d : List (String × δ)) (h : (d.map Prod.fst).Nodup) : pyOf d = d := by
  unfold pyOf
  rw [foldl_nodup_id _ _ (by simpa using h)]
  rfl

/-- **C117.** What a dict schema accepts of JSON it accepts, with the same output, of the dict that Python reads, if the
validator of keys keeps different keys apart. -/
theorem dict_same_partial [DecidableEq κ] (fk : Val String κ ε) (fv : Val δ ω ε) (hk : Says fk) (hv : Says fv)
    (min max : Option Nat) (tooFew tooMany : ε) (pairs : List (String × δ)) (hap : Apart fk pairs) (out : List (κ × ω))
    (h : validateDict fk fv min max tooFew tooMany (jsonView pairs) = .ok out) :
    validateDict fk fv min max tooFew tooMany (pyView (pyOf pairs)) = .ok out := by
  obtain ⟨h1, h2, h3⟩ := (dict_accepts_iff fk fv hk hv min max tooFew tooMany pairs out).1 h
  refine (dict_accepts_iff fk fv hk hv min max tooFew tooMany (pyOf pairs) out).2
    ⟨fun p hp => h1 p (mem_pyOf hp), ?_, h3⟩
  rw [h2]
  cases pairs with
  | nil => rfl
  | cons p0 rest =>
    obtain ⟨⟨k0, hk0⟩, ⟨w0, hw0⟩⟩ := h1 p0 List.mem_cons_self
    generalize hps : p0 :: rest = ps at *
    let g : String → κ := fun k => match fk k with | .ok k' => k' | .error _ => k0
    let f : δ → ω := fun v => match fv v with | .ok w => w | .error _ => w0
    have hm : ∀ l : List (String × δ), (∀ p ∈ l, p ∈ ps) →
        l.filterMap (pairOut fk fv) = l.map fun p => (g p.1, f p.2) := by
      intro l hl
      induction l with
      | nil => rfl
      | cons q qs ih =>
        obtain ⟨⟨k, e1⟩, ⟨w, e2⟩⟩ := h1 q (hl q List.mem_cons_self)
        have : pairOut fk fv q = some (g q.1, f q.2) := by simp [pairOut, e1, e2, g, f]
        rw [List.filterMap_cons, this, List.map_cons, ih fun p hp => hl p (List.mem_cons_of_mem _ hp)]
    have hg : ∀ p ∈ ps, ∀ q ∈ ps, g p.1 = g q.1 → p.1 = q.1 := by
      intro p hp q hq e
      obtain ⟨⟨k, e1⟩, _⟩ := h1 p hp
      obtain ⟨⟨k', e2⟩, _⟩ := h1 q hq
      simp only [g, e1, e2] at e
      subst e
      exact hap p hp q hq k e1 e2
    rw [hm ps fun _ h => h, hm (pyOf ps) fun _ h => mem_pyOf h]
    have e1 := foldl_map g f ps [] (by simpa using hg)
    have e2 := foldl_map g f (pyOf ps) [] (by
      intro p hp q hq e
      exact hg p (mem_pyOf (by simpa using hp)) q (mem_pyOf (by simpa using hq)) e)
    rw [List.map_nil] at e1 e2
    rw [e1, e2]
    show (pyOf ps).map _ = (pyOf (pyOf ps)).map _
    rw [pyOf_id (pyOf ps) (pyOf_nodup ps)]

/-- Every error about the dict that Python reads is also one about the JSON object. -/
theorem dict_errors_kept [DecidableEq κ] (fk : Val String κ ε) (fv : Val δ ω ε) (tooFew tooMany : ε)
    (pairs : List (String × δ)) (es : List (Line ε)) (hne : es ≠ [])
    (h : validateDict fk fv none none tooFew tooMany (pyView (pyOf pairs)) = .error es) :
    ∃ es', validateDict fk fv none none tooFew tooMany (jsonView pairs) = .error es' ∧ ∀ e ∈ es, e ∈ es' := by
  obtain ⟨a1, a2⟩ := dict_exact fk fv tooFew tooMany (pyOf pairs)
  obtain ⟨b1, b2⟩ := dict_exact fk fv tooFew tooMany pairs
  have hv : validateDict fk fv none none tooFew tooMany (pyView (pyOf pairs)) =
      validateDict fk fv none none tooFew tooMany (jsonView (pyOf pairs)) := rfl
  rw [hv] at h
  by_cases hn : (pyOf pairs).flatMap (pairErrors fk fv) = []
  · rw [a1 hn] at h; cases h
  · rw [a2 hn] at h
    cases h
    have sub : ∀ e ∈ (pyOf pairs).flatMap (pairErrors fk fv), e ∈ pairs.flatMap (pairErrors fk fv) := by
      intro e he
      obtain ⟨p, hp, he⟩ := List.mem_flatMap.1 he
      exact List.mem_flatMap.2 ⟨p, mem_pyOf hp, he⟩
    refine ⟨_, b2 fun h0 => ?_, sub⟩
    cases hl : (pyOf pairs).flatMap (pairErrors fk fv) with
    | nil => exact hn hl
    | cons e es => have := sub e (hl ▸ List.mem_cons_self); rw [h0] at this; cases this

/-! ### Models -/

theorem fieldLoop_congr (missing : ε) (g g' : String → Option δ) (h : ∀ k, g k = g' k) (fs : List (Field δ ω ε)) :
    fieldLoop missing g fs = fieldLoop missing g' fs := by
  rw [funext h]

/-- A model that ignores extra items validates a JSON object as the dict that Python reads. -/
theorem model_ignore_same (missing forbidden : ε) (fs : List (Field δ ω ε)) :
    AsPython (validateModel missing forbidden fs .ignore) := by
  intro pairs
  unfold validateModel
  dsimp only
  rw [fieldLoop_congr missing _ _ (lookup_agrees pairs)]

/-- The extra errors of one item. -/
def extraErrors (forbidden : ε) (used : List String) (x : Extra δ ω ε) (p : String × δ) : List (Line ε) :=
  if used.contains p.1 then [] else
    match x with
    | .ignore => []
    | .forbid => [⟨[.key p.1], forbidden⟩]
    | .allow ev => match ev p.2 with
      | .ok _ => []
      | .error es => es.map (Line.under (.key p.1))

/-- What one item adds to the extra items. -/
def extraOut (used : List String) (x : Extra δ ω ε) (p : String × δ) : Option (String × ω) :=
  if used.contains p.1 then none else
    match x with
    | .allow ev => match ev p.2 with
      | .ok w => some (p.1, w)
      | .error _ => none
    | _ => none

theorem extraLoop_eq (forbidden : ε) (used : List String) (x : Extra δ ω ε) :
    ∀ (pairs : List (String × δ)) (out : List (String × ω)) (errs : List (Line ε)),
      extraLoop forbidden used x pairs out errs =
        ((pairs.filterMap (extraOut used x)).foldl (fun d p => setItem d p.1 p.2) out,
          errs ++ pairs.flatMap (extraErrors forbidden used x)) := by
  intro pairs
  induction pairs with
  | nil => intro out errs; simp [extraLoop]
  | cons p ps ih =>
    intro out errs
    obtain ⟨k, v⟩ := p
    unfold extraLoop
    by_cases hu : used.contains k = true
    · rw [if_pos hu, ih, List.filterMap_cons, List.flatMap_cons]
      simp only [extraOut, extraErrors, if_pos hu]
      simp
    · rw [if_neg hu]
      cases x with
      | ignore =>
        dsimp only
        rw [ih, List.filterMap_cons, List.flatMap_cons]
        simp only [extraOut, extraErrors, if_neg hu]
        simp
      | forbid =>
        dsimp only
        rw [ih, List.filterMap_cons, List.flatMap_cons]
        simp only [extraOut, extraErrors, if_neg hu]
        simp
      | allow ev =>
        dsimp only
        cases hv : ev v with
        | ok w =>
          dsimp only
          rw [ih, List.filterMap_cons, List.flatMap_cons]
          simp only [extraOut, extraErrors, if_neg hu, hv]
          simp
        | error es =>
          dsimp only
          rw [ih, List.filterMap_cons, List.flatMap_cons]
          simp only [extraOut, extraErrors, if_neg hu, hv]
          simp

theorem key_of_pair {pairs : List (String × δ)} {p : String × δ} (h : p ∈ pairs) :
    ∃ v, (p.1, v) ∈ pyOf pairs := by
  have h1 : (pyOf pairs).lookup p.1 = pairs.reverse.lookup p.1 := (lookup_agrees pairs p.1).symm
  cases h2 : pairs.reverse.lookup p.1 with
  | none =>
    rw [List.lookup_eq_none_iff] at h2
    have := h2 p (by simpa using h)
    simp at this
  | some v =>
    rw [h2] at h1
    obtain ⟨l1, l2, hl, _⟩ := List.lookup_eq_some_iff.1 h1
    exact ⟨v, by rw [hl]; simp⟩

theorem validateModel_ok_iff (missing forbidden : ε) (fs : List (Field δ ω ε)) (x : Extra δ ω ε) (hx : x ≠ .ignore)
    (view : View δ) (r : List (String × ω) × List (String × ω)) :
    validateModel missing forbidden fs x view = .ok r ↔
      (fieldLoop missing view.get fs).2.2 = [] ∧
      view.items.flatMap (extraErrors forbidden (fieldLoop missing view.get fs).2.1 x) = [] ∧
      r = ((fieldLoop missing view.get fs).1,
        (view.items.filterMap (extraOut (fieldLoop missing view.get fs).2.1 x)).foldl (fun d p => setItem d p.1 p.2) []) := by
  have : validateModel missing forbidden fs x view =
      match (fieldLoop missing view.get fs).2.2 ++
        (extraLoop forbidden (fieldLoop missing view.get fs).2.1 x view.items [] []).2 with
      | [] => .ok ((fieldLoop missing view.get fs).1,
          (extraLoop forbidden (fieldLoop missing view.get fs).2.1 x view.items [] []).1)
      | errs => .error errs := by
    unfold validateModel
    cases x with
    | ignore => exact absurd rfl hx
    | forbid => rfl
    | allow ev => rfl
  rw [this, extraLoop_eq, List.nil_append]
  dsimp only
  cases h1 : (fieldLoop missing view.get fs).2.2 with
  | cons e es => simp
  | nil =>
    cases h2 : view.items.flatMap (extraErrors forbidden (fieldLoop missing view.get fs).2.1 x) with
    | cons e es => simp
    | nil => simp [eq_comm]

theorem fieldLoop_errors (missing : ε) (pairs : List (String × δ)) (fs : List (Field δ ω ε)) :
    (fieldLoop missing (jsonView pairs).get fs).2.2 = fs.flatMap (fieldErrors missing pairs) := by
  induction fs with
  | nil => rfl
  | cons f fs ih =>
    unfold fieldLoop
    rw [List.flatMap_cons, ← ih]
    unfold fieldErrors jsonView
    dsimp only
    cases pairs.reverse.lookup f.name with
    | none => rfl
    | some v =>
      dsimp only
      cases f.val v <;> rfl

theorem fieldLoop_used (missing : ε) (get : String → Option δ) (fs : List (Field δ ω ε)) (k : String) {v : δ}
    (hk : get k = some v) :
    (fieldLoop missing get fs).2.1.contains k = (fs.map Field.name).contains k := by
  induction fs with
  | nil => rfl
  | cons f fs ih =>
    unfold fieldLoop
    rw [List.map_cons, List.contains_cons, ← ih]
    dsimp only
    cases hg : get f.name with
    | none =>
      dsimp only
      have : (k == f.name) = false := by
        rw [beq_eq_false_iff_ne]
        intro h
        rw [h, hg] at hk
        cases hk
      rw [this, Bool.false_or]
    | some w =>
      dsimp only
      cases f.val w <;> rw [List.contains_cons]

/-- The errors of a model are those of its fields, by the last value of each, and of every pair that is no field, also of
those that are replaced; a field that is refused is no extra item. -/
theorem model_errors (missing forbidden : ε) (fs : List (Field δ ω ε)) (x : Extra δ ω ε) (pairs : List (String × δ))
    (es : List (Line ε)) :
    validateModel missing forbidden fs x (jsonView pairs) = .error es ↔
      es = modelErrors missing forbidden fs x pairs ∧ es ≠ [] := by
  have items : ∀ l : List (String × δ), (∀ p ∈ l, p ∈ pairs) →
      l.flatMap (extraErrors forbidden (fieldLoop missing (jsonView pairs).get fs).2.1 x) =
        (l.filter fun p => !(fs.map Field.name).contains p.1).flatMap (itemErrors forbidden x) := by
    intro l
    induction l with
    | nil => intro _; rfl
    | cons p ps ih =>
      intro hl
      obtain ⟨v, hv⟩ : ∃ v, (jsonView pairs).get p.1 = some v := by
        cases h2 : pairs.reverse.lookup p.1 with
        | none =>
          rw [List.lookup_eq_none_iff] at h2
          have := h2 p (by simpa using hl p (List.mem_cons_self ..))
          simp at this
        | some v => exact ⟨v, h2⟩
      have hu := fieldLoop_used missing (jsonView pairs).get fs p.1 hv
      rw [List.flatMap_cons, ih fun q hq => hl q (List.mem_cons_of_mem _ hq), List.filter_cons]
      unfold extraErrors
      rw [hu]
      cases (fs.map Field.name).contains p.1 with
      | true => rfl
      | false => rfl
  have key : validateModel missing forbidden fs x (jsonView pairs) =
      match modelErrors missing forbidden fs x pairs with
      | [] => validateModel missing forbidden fs x (jsonView pairs)
      | errs => .error errs := by
    have hi := items pairs fun _ h => h
    unfold modelErrors
    rw [← hi, ← fieldLoop_errors]
    cases x with
    | ignore =>
      have h0 : pairs.flatMap (extraErrors forbidden (fieldLoop missing (jsonView pairs).get fs).2.1
          (.ignore : Extra δ ω ε)) = [] := by
        rw [List.flatMap_eq_nil_iff]
        intro p _
        unfold extraErrors
        split <;> rfl
      rw [h0, List.append_nil]
      unfold validateModel
      dsimp only
      rw [List.append_nil]
      cases (fieldLoop missing (jsonView pairs).get fs).2.2 <;> rfl
    | forbid =>
      unfold validateModel
      dsimp only
      rw [extraLoop_eq, List.nil_append]
      dsimp only [jsonView]
      generalize (fieldLoop missing (fun k => List.lookup k pairs.reverse) fs).2.2 ++ _ = l
      cases l <;> rfl
    | allow ev =>
      unfold validateModel
      dsimp only
      rw [extraLoop_eq, List.nil_append]
      dsimp only [jsonView]
      generalize (fieldLoop missing (fun k => List.lookup k pairs.reverse) fs).2.2 ++ _ = l
      cases l <;> rfl
  have ok : modelErrors missing forbidden fs x pairs = [] →
      ∃ r, validateModel missing forbidden fs x (jsonView pairs) = .ok r := by
    intro h
    unfold modelErrors at h
    rw [← items pairs fun _ h => h, ← fieldLoop_errors] at h
    rw [List.append_eq_nil_iff] at h
    cases x with
    | ignore =>
      unfold validateModel
      dsimp only
      rw [h.1]
      exact ⟨_, rfl⟩
    | forbid => exact ⟨_, (validateModel_ok_iff _ _ _ .forbid nofun _ _).2 ⟨h.1, h.2, rfl⟩⟩
    | allow ev => exact ⟨_, (validateModel_ok_iff _ _ _ (.allow ev) nofun _ _).2 ⟨h.1, h.2, rfl⟩⟩
  cases hm : modelErrors missing forbidden fs x pairs with
  | nil =>
    obtain ⟨r, hr⟩ := ok hm
    rw [hr]
    constructor
    · intro h; cases h
    · rintro ⟨rfl, h⟩; exact absurd rfl h
  | cons e rest =>
    rw [hm] at key
    rw [key]
    constructor
    · intro h; injection h with h; subst h; exact ⟨rfl, by simp⟩
    · rintro ⟨rfl, _⟩; rfl

/-- A model that forbids extra items accepts a JSON object exactly if it accepts the dict that Python reads, with the
same output. -/
theorem model_forbid_accepts (missing forbidden : ε) (fs : List (Field δ ω ε)) (pairs : List (String × δ))
    (r : List (String × ω) × List (String × ω)) :
    validateModel missing forbidden fs .forbid (jsonView pairs) = .ok r ↔
      validateModel missing forbidden fs .forbid (pyView (pyOf pairs)) = .ok r := by
  rw [validateModel_ok_iff _ _ _ .forbid nofun, validateModel_ok_iff _ _ _ .forbid nofun]
  rw [fieldLoop_congr missing _ _ (lookup_agrees pairs)]
  generalize fieldLoop missing (pyView (pyOf pairs)).get fs = q
  have out : ∀ l : List (String × δ), l.filterMap (extraOut q.2.1 (.forbid : Extra δ ω ε)) = [] := by
    intro l
    rw [List.filterMap_eq_nil_iff]
    intro p _
    unfold extraOut
    split <;> rfl
  have errs : ∀ l : List (String × δ), l.flatMap (extraErrors forbidden q.2.1 (.forbid : Extra δ ω ε)) = [] ↔
      ∀ p ∈ l, q.2.1.contains p.1 = true := by
    intro l
    rw [List.flatMap_eq_nil_iff]
    refine forall_congr' fun p => forall_congr' fun _ => ?_
    unfold extraErrors
    split <;> simp_all
  rw [out, out, errs, errs]
  show _ ∧ (∀ p ∈ pairs, _) ∧ _ ↔ _ ∧ (∀ p ∈ pyOf pairs, _) ∧ _
  have : (∀ p ∈ pairs, q.2.1.contains p.1 = true) ↔ ∀ p ∈ pyOf pairs, q.2.1.contains p.1 = true := by
    constructor
    · exact fun h p hp => h p (mem_pyOf hp)
    · intro h p hp
      obtain ⟨v, hv⟩ := key_of_pair hp
      exact h (p.1, v) hv
  rw [this]

theorem setItem_cons (n : String) (w : δ) (rest : List (String × δ)) (k : String) (v : δ) :
    setItem ((n, w) :: rest) k v = if n = k then (n, v) :: rest else (n, w) :: setItem rest k v := rfl

theorem setItem_filter (P : String → Bool) (d : List (String × δ)) (k : String) (v : δ) :
    (setItem d k v).filter (fun p => P p.1) =
      if P k then setItem (d.filter fun p => P p.1) k v else d.filter fun p => P p.1 := by
  induction d with
  | nil => cases h : P k <;> simp [setItem, h]
  | cons e rest ih =>
    obtain ⟨n, w⟩ := e
    rw [setItem_cons]
    by_cases hn : n = k
    · subst hn
      cases h : P n with
      | false => simp [h]
      | true => simp [h, setItem_cons]
    · rw [if_neg hn, List.filter_cons, ih, List.filter_cons]
      cases h : P n with
      | false => simp
      | true =>
        cases h' : P k with
        | false => simp
        | true => simp [setItem_cons, hn]

theorem pyOf_filter (P : String → Bool) (pairs : List (String × δ)) :
    (pyOf pairs).filter (fun p => P p.1) = pyOf (pairs.filter fun p => P p.1) := by
  have : ∀ d : List (String × δ), (pairs.foldl (fun d p => setItem d p.1 p.2) d).filter (fun p => P p.1) =
      (pairs.filter fun p => P p.1).foldl (fun d p => setItem d p.1 p.2) (d.filter fun p => P p.1) := by
    induction pairs with
    | nil => intro d; rfl
    | cons p ps ih =>
      intro d
      rw [List.foldl_cons, ih, setItem_filter, List.filter_cons]
      cases h : P p.1 <;> simp
  exact this []

/-- What a model that keeps extra items accepts of JSON it accepts, with the same output, of the dict that Python reads. -/
theorem model_allow_same_partial (missing forbidden : ε) (fs : List (Field δ ω ε)) (ev : Val δ ω ε) (hev : Says ev)
    (pairs : List (String × δ)) (r : List (String × ω) × List (String × ω))
    (h : validateModel missing forbidden fs (.allow ev) (jsonView pairs) = .ok r) :
    validateModel missing forbidden fs (.allow ev) (pyView (pyOf pairs)) = .ok r := by
  rw [validateModel_ok_iff _ _ _ (.allow ev) nofun] at h ⊢
  rw [fieldLoop_congr missing _ _ (lookup_agrees pairs)] at h
  generalize fieldLoop missing (pyView (pyOf pairs)).get fs = q at h ⊢
  obtain ⟨h1, h2, rfl⟩ := h
  have h2 : pairs.flatMap (extraErrors forbidden q.2.1 (.allow ev)) = [] := h2
  rw [List.flatMap_eq_nil_iff] at h2
  have hok : ∀ p ∈ pairs, q.2.1.contains p.1 = false → Ok ev p.2 := by
    intro p hp hu
    have := h2 p hp
    unfold extraErrors at this
    rw [if_neg (by rw [hu]; nofun)] at this
    dsimp only at this
    cases hv : ev p.2 with
    | ok w => exact ⟨w, hv⟩
    | error es =>
      rw [hv] at this
      exact absurd (List.map_eq_nil_iff.1 this) (hev _ _ hv)
  refine ⟨h1, List.flatMap_eq_nil_iff.2 fun p hp => h2 p (mem_pyOf hp), ?_⟩
  show (_, (pairs.filterMap (extraOut q.2.1 (.allow ev))).foldl _ []) =
    (_, ((pyOf pairs).filterMap (extraOut q.2.1 (.allow ev))).foldl _ [])
  refine congrArg (Prod.mk q.1) ?_
  let P : String → Bool := fun k => !q.2.1.contains k
  by_cases hw : ∃ w : ω, True
  · obtain ⟨w0, _⟩ := hw
    let f : δ → ω := fun v => match ev v with | .ok w => w | .error _ => w0
    have hm : ∀ l : List (String × δ), (∀ p ∈ l, p ∈ pairs) →
        l.filterMap (extraOut q.2.1 (.allow ev)) = (l.filter fun p => P p.1).map fun p => (id p.1, f p.2) := by
      intro l hl
      induction l with
      | nil => rfl
      | cons p ps ih =>
        rw [List.filterMap_cons, List.filter_cons, ih fun p hp => hl p (List.mem_cons_of_mem _ hp)]
        cases hu : q.2.1.contains p.1 with
        | true => simp only [extraOut, P, hu, if_true]; rfl
        | false =>
          obtain ⟨w, e⟩ := hok p (hl p List.mem_cons_self) hu
          have h3 : extraOut q.2.1 (.allow ev) p = some (p.1, w) := by
            unfold extraOut
            rw [if_neg (by rw [hu]; nofun)]
            dsimp only
            rw [e]
          have h4 : P p.1 = true := by simp only [P, hu]; rfl
          have h5 : f p.2 = w := by simp only [f, e]
          rw [h3, if_pos h4, List.map_cons, h5]
          rfl
    rw [hm pairs fun _ h => h, hm (pyOf pairs) fun _ h => mem_pyOf h]
    have e1 := foldl_map (id : String → String) f (pairs.filter fun p => P p.1) [] (fun _ _ _ _ e => e)
    have e2 := foldl_map (id : String → String) f ((pyOf pairs).filter fun p => P p.1) [] (fun _ _ _ _ e => e)
    rw [List.map_nil] at e1 e2
    rw [e1, e2]
    show (pyOf _).map _ = (pyOf _).map _
    rw [pyOf_filter, pyOf_id (pyOf _) (pyOf_nodup _)]
  · have hn : ∀ l : List (String × δ), l.filterMap (extraOut q.2.1 (.allow ev)) = [] := by
      intro l
      rw [List.filterMap_eq_nil_iff]
      intro p _
      cases he : extraOut q.2.1 (.allow ev) p with
      | none => rfl
      | some w => exact absurd ⟨w.2, trivial⟩ hw
    rw [hn, hn]

example : validateModel "missing" "forbidden" [⟨"x", fun n => .ok n⟩] (.allow fun n => .ok n)
      (jsonView [("a", 1), ("x", 2), ("b", 3), ("a", 4)]) = (.ok ([("x", 2)], [("a", 4), ("b", 3)]) : Except (List (Line String)) _) :=
  rfl

/-- What a generator schema goes through is what Python would only if no key occurs twice. -/
theorem keys_same_iff (pairs : List (String × δ)) :
    iterKeys (jsonView pairs) = iterKeys (pyView (pyOf pairs)) ↔ (pairs.map Prod.fst).Nodup := by
  show pairs.map Prod.fst = (pyOf pairs).map Prod.fst ↔ _
  constructor
  · intro h; rw [h]; exact pyOf_nodup pairs
  · intro h; rw [pyOf_id pairs h]

/-! ### Concrete cases -/

/-- A validator that takes numbers below ten. -/
def small : Val Nat Nat String := fun n => if n < 10 then .ok n else .error [⟨[], "too large"⟩]

/-- A validator that takes every key as it is. -/
def anyKey : Val String String String := .ok

/-- A validator that reads keys as numbers. -/
def number : Val String Nat String := fun s => if s = "1" ∨ s = "01" then .ok 1 else .error [⟨[], "no number"⟩]

example : Says small := by
  intro v es h
  unfold small at h
  split at h
  · cases h
  · cases h; simp

example : Says anyKey := nofun

example : Apart anyKey [("a", 1), ("b", 2), ("a", 3)] := by
  intro p _ q _ k h1 h2
  cases h1
  injection h2 with h2
  exact h2.symm

example : validateDict anyKey small none (some 2) "few" "many" (jsonView [("a", 1), ("b", 2), ("a", 3)]) =
    .ok [("a", 3), ("b", 2)] := rfl

/-- A value that a later one replaces is refused all the same: `{"a": 99, "a": 1}`. -/
theorem replaced_value_refused :
    validateDict anyKey small none none "few" "many" (jsonView [("a", 99), ("a", 1)]) =
      .error [⟨[.key "a"], "too large"⟩] ∧
    validateDict anyKey small none none "few" "many" (pyView (pyOf [("a", 99), ("a", 1)])) = .ok [("a", 1)] := ⟨rfl, rfl⟩

/-- Keys that become the same may leave another value than in Python: `{"1": 1, "01": 2, "1": 3}`. -/
theorem merged_keys_differ :
    validateDict number small none none "few" "many" (jsonView [("1", 1), ("01", 2), ("1", 3)]) = .ok [(1, 3)] ∧
    validateDict number small none none "few" "many" (pyView (pyOf [("1", 1), ("01", 2), ("1", 3)])) = .ok [(1, 2)] :=
  ⟨rfl, rfl⟩

/-- So dict schemas do not treat a JSON object as the dict that Python reads. -/
theorem dict_not_as_python : ¬ AsPython (validateDict anyKey small none none "few" "many") := by
  intro h
  have := h [("a", 99), ("a", 1)]
  rw [replaced_value_refused.1, replaced_value_refused.2] at this
  cases this

/-- Nor do models: extra items that are replaced are validated, and forbidden ones reported twice. -/
theorem model_not_as_python :
    ¬ AsPython (validateModel "missing" "forbidden" ([⟨"x", small⟩] : List (Field Nat Nat String)) (.allow small)) ∧
    ¬ AsPython (validateModel "missing" "forbidden" ([⟨"x", small⟩] : List (Field Nat Nat String)) .forbid) := by
  constructor
  · intro h
    have := h [("x", 1), ("a", 99), ("a", 1)]
    exact absurd this nofun
  · intro h
    have := h [("x", 1), ("a", 2), ("a", 3)]
    exact absurd this nofun

-- a refused field is no extra item, a forbidden one is reported twice
example : validateModel "missing" "forbidden" [⟨"x", small⟩, ⟨"y", small⟩] .forbid
      (jsonView [("x", 1), ("a", 5), ("x", 99), ("a", 6)]) =
    .error [⟨[.key "x"], "too large"⟩, ⟨[.key "y"], "missing"⟩, ⟨[.key "a"], "forbidden"⟩, ⟨[.key "a"], "forbidden"⟩] :=
  rfl

/-- But a field that is replaced is not looked at: `{"x": 99, "x": 1}`. -/
example : validateModel "missing" "forbidden" [⟨"x", small⟩] .forbid (jsonView [("x", 99), ("x", 1)]) =
    .ok ([("x", 1)], []) := rfl

example : iterKeys (jsonView [("a", 1), ("a", 2)]) = ["a", "a"] ∧ iterKeys (pyView (pyOf [("a", 1), ("a", 2)])) = ["a"] :=
  ⟨rfl, rfl⟩

end PC.DupKeys
