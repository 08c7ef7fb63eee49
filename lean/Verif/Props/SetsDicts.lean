import Verif.Lemmas.SetsDicts
import Verif.Props.Lists

/-
Sets (C21), dicts (C20), and their share of C17, C18 and C19.
-/

namespace PC.Coll
variable {α : Type}

/-! ## C21: sets -/

/-- **C21, C17, C18** (acceptance of sets).  A set input is accepted with value `o` exactly when every
item could be iterated, no item failed or was unhashable (other than the last of a partial
input), the output is the set of the distinct validated items, and their number is within the
closed bounds.  This holds with and without `fail_fast`. -/
theorem set_accepts_iff (s : SetV α) (hv : RejectsWithErrors s.item) (input : α) (st : VState α)
    (seq : Seq α) (ex : Exactness)
    (hseq : s.asSet (st.strictOr s.strict) input = .ok (seq, ex)) (o : α) :
    (s.validate input st).1 = .ok o ↔
      ∃ xs : List α, seq.items = xs.map .ok ∧
        let vs := (visits s.item st.allowPartial 0 xs (st.floorExactness ex)).map (hashed s.hashing)
        (∀ x ∈ vs, x.Plain ∧ ¬ x.Fails) ∧ o = s.build (distinct s.hashing (outputs vs)) ∧
        FitsMin s.minLength (distinct s.hashing (outputs vs)).length ∧
        FitsMax s.maxLength (distinct s.hashing (outputs vs)).length := by
  have hap := floor_allowPartial st ex
  unfold SetV.validate
  rw [hseq]
  dsimp only
  generalize st.floorExactness ex = st' at hap ⊢
  unfold validateIterToSet
  rw [hap]
  rcases all_ok_or_error seq.items with ⟨xs, hxs⟩ | herr
  · rw [hxs]
    have hacc := fun out => setLoop_accept s.hashing s.item hv input s.fieldType s.maxLength
      st.allowPartial s.failFast xs 0 [] st' out (by intro m _; exact Nat.zero_le _)
    generalize (setLoop s.hashing s.item input s.fieldType s.maxLength st.allowPartial s.failFast
      (enumerateLastPartial st.allowPartial 0 (xs.map .ok)) [] [] st') = run at hacc ⊢
    obtain ⟨res, rst, un⟩ := run
    dsimp only at hacc ⊢
    cases res with
    | error e =>
      dsimp only
      constructor
      · intro h; cases h
      · rintro ⟨ys, hys, h1, h2, h3, h4⟩
        cases map_ok_inj hys
        have := (hacc _).2 ⟨h1, rfl, h4⟩
        cases this
    | ok out =>
      dsimp only
      obtain ⟨h1, h2, h4⟩ := (hacc out).1 rfl
      have h2' : out = distinct s.hashing (outputs ((visits s.item st.allowPartial 0 xs st').map
        (hashed s.hashing))) := h2
      rcases minLengthCheck_eq input s.fieldType s.minLength out.length with ⟨hm, he⟩ | ⟨m, hm, hlt, he⟩
      · rw [he]
        dsimp only
        constructor
        · intro h; cases h
          exact ⟨xs, rfl, h1, by rw [← h2'], by rw [← h2']; exact hm, by rw [← h2']; exact h4⟩
        · rintro ⟨ys, hys, -, h2, -, -⟩
          cases map_ok_inj hys
          rw [h2, ← h2']
      · rw [he]
        dsimp only
        constructor
        · intro h; cases h
        · rintro ⟨ys, hys, -, -, h3, -⟩
          cases map_ok_inj hys
          rw [← h2'] at h3
          have := h3 m hm
          omega
  · have hno := fun out => setLoop_iteration_error s.hashing s.item input s.fieldType s.maxLength
      st.allowPartial s.failFast seq.items 0 [] [] st' out herr
    generalize (setLoop s.hashing s.item input s.fieldType s.maxLength st.allowPartial s.failFast
      (enumerateLastPartial st.allowPartial 0 seq.items) [] [] st') = run at hno ⊢
    obtain ⟨res, rst, un⟩ := run
    dsimp only at hno ⊢
    cases res with
    | ok out => exact absurd rfl (hno out)
    | error e =>
      dsimp only
      constructor
      · intro h; cases h
      · rintro ⟨ys, hys, -⟩
        obtain ⟨e, he⟩ := herr
        rw [hys] at he
        simp at he

/-- Sets of `sampleItem` with 1 to 3 members; values are equal modulo 10, those above 200 cannot be
hashed. -/
def sampleSet : SetV (List Int) where
  strict := false
  item := sampleItem
  minLength := some 1
  maxLength := some 3
  failFast := false
  fieldType := "Set"
  hashing := ⟨fun a b => a.map (· % 10) == b.map (· % 10),
    fun a => if a.any (· > 200) then some (true, ⟨"TypeError"⟩) else none⟩
  asSet := fun _ xs => .ok (⟨xs.map (fun n => .ok [n]), some xs.length, false⟩, .lax)
  build := List.flatten

/-- Four items, 5 and 15 validate to equal values: three members. -/
example : (sampleSet.validate [5, 7, 15, 0, 8] (stateIn .off)).1 = .ok [105, 107, 108] ∧
    RejectsWithErrors sampleSet.item := ⟨by decide, sampleItem_rejects⟩

/-- **C21** (the output is the set of validated items).  `distinct` keeps a representative of every
value, only values that were given, and no two equal ones. -/
theorem distinct_spec (h : Hashing α) (hrefl : ∀ a, h.same a a = true) (xs : List α) :
    (∀ x ∈ xs, ∃ y ∈ distinct h xs, h.same y x = true) ∧ (∀ y ∈ distinct h xs, y ∈ xs) ∧
    (distinct h xs).Pairwise (fun a b => h.same a b = false) := by
  suffices hs : ∀ s, s.Pairwise (fun a b => h.same a b = false) →
      (∀ x ∈ s, x ∈ distinctFrom h s xs) ∧
      (∀ x ∈ xs, ∃ y ∈ distinctFrom h s xs, h.same y x = true) ∧
      (∀ y ∈ distinctFrom h s xs, y ∈ s ∨ y ∈ xs) ∧
      (distinctFrom h s xs).Pairwise (fun a b => h.same a b = false) by
    obtain ⟨-, h2, h3, h4⟩ := hs [] List.Pairwise.nil
    exact ⟨h2, fun y hy => (h3 y hy).resolve_left (by simp), h4⟩
  induction xs with
  | nil =>
    intro s hp
    exact ⟨fun x hx => hx, by simp, fun y hy => .inl hy, hp⟩
  | cons x xs ih =>
    intro s hp
    unfold distinctFrom
    by_cases hany : s.any (h.same · x) = true
    · rw [if_pos hany]
      obtain ⟨h1, h2, h3, h4⟩ := ih s hp
      refine ⟨h1, ?_, fun y hy => (h3 y hy).imp id (List.mem_cons_of_mem _), h4⟩
      intro z hz
      rcases List.mem_cons.1 hz with rfl | hz
      · obtain ⟨y, hy, hs⟩ := List.any_eq_true.1 hany
        exact ⟨y, h1 y hy, hs⟩
      · exact h2 z hz
    · rw [if_neg hany]
      have hp' : (s ++ [x]).Pairwise (fun a b => h.same a b = false) := by
        rw [List.pairwise_append]
        refine ⟨hp, by simp, ?_⟩
        intro a ha b hb
        rw [List.mem_singleton] at hb
        subst hb
        cases hab : h.same a b with
        | false => rfl
        | true => exact absurd (List.any_eq_true.2 ⟨a, ha, hab⟩) hany
      obtain ⟨h1, h2, h3, h4⟩ := ih (s ++ [x]) hp'
      refine ⟨fun y hy => h1 y (List.mem_append_left _ hy), ?_, ?_, h4⟩
      · intro z hz
        rcases List.mem_cons.1 hz with rfl | hz
        · exact ⟨z, h1 z (by simp), hrefl z⟩
        · exact h2 z hz
      · intro y hy
        rcases h3 y hy with h | h
        · rcases List.mem_append.1 h with h | h
          · exact .inl h
          · rw [List.mem_singleton] at h; subst h; exact .inr (List.mem_cons_self ..)
        · exact .inr (List.mem_cons_of_mem _ h)

example : distinct sampleSet.hashing [[5], [7], [15], [8]] = [[5], [7], [8]] := by decide

example : ∀ a, sampleSet.hashing.same a a = true := by intro a; simp [sampleSet]

/-- **C21** (errors).  Without `fail_fast`, when nothing raises another exception and the distinct
validated items are not too many, a set some item of which fails is rejected with exactly the
errors of the failing and unhashable items, in order, each at its index. -/
theorem set_errors (s : SetV α) (hff : s.failFast = false) (input : α) (st : VState α)
    (xs : List α) (len : Option Nat) (pl : Bool) (ex : Exactness)
    (hseq : s.asSet (st.strictOr s.strict) input = .ok (⟨xs.map .ok, len, pl⟩, ex))
    (vs : List (Visit α))
    (hvs : vs = (visits s.item st.allowPartial 0 xs (st.floorExactness ex)).map (hashed s.hashing))
    (hplain : ∀ x ∈ vs, x.Plain) (hmax : FitsMax s.maxLength (distinct s.hashing (outputs vs)).length)
    (herr : errors vs ≠ []) :
    (s.validate input st).1 = .error (.lineErrors (errors vs)) := by
  subst hvs
  unfold SetV.validate
  rw [hseq]
  dsimp only
  unfold validateIterToSet
  rw [floor_allowPartial, hff, setLoop_full s.hashing s.item input s.fieldType s.maxLength
    st.allowPartial xs 0 [] [] _ hplain hmax, List.nil_append, if_neg (by simpa using herr)]

/-- One negative item and one whose validated value (305) cannot be hashed. -/
example : (sampleSet.validate [5, -1, 205] (stateIn .off)).1 = .error (.lineErrors
    [⟨.other "negative", .list [.i 1], [-1]⟩, ⟨.setItemNotHashable, .list [.i 2], [205]⟩]) := by
  decide

/-- **C17** (sets, too long).  More distinct validated items than `max_length`: exactly one
`too_long` error about the whole input. -/
theorem set_too_long (s : SetV α) (hff : s.failFast = false) (input : α) (st : VState α)
    (xs : List α) (len : Option Nat) (pl : Bool) (ex : Exactness)
    (hseq : s.asSet (st.strictOr s.strict) input = .ok (⟨xs.map .ok, len, pl⟩, ex))
    (vs : List (Visit α))
    (hvs : vs = (visits s.item st.allowPartial 0 xs (st.floorExactness ex)).map (hashed s.hashing))
    (hplain : ∀ x ∈ vs, x.Plain) (m : Nat) (hm : s.maxLength = some m)
    (hmax : m < (distinct s.hashing (outputs vs)).length) :
    (s.validate input st).1 = .error (.lineErrors [⟨.tooLong s.fieldType m none, .empty, input⟩]) := by
  subst hvs
  unfold SetV.validate
  rw [hseq]
  dsimp only
  unfold validateIterToSet
  rw [floor_allowPartial, hff, hm, setLoop_too_long s.hashing s.item input s.fieldType m
    st.allowPartial xs 0 [] [] _ hplain (Nat.zero_le _) hmax]
  rfl

example : (sampleSet.validate [5, 6, 7, 15, 8, -1] (stateIn .off)).1 = .error (.lineErrors
    [⟨.tooLong "Set" 3 none, .empty, [5, 6, 7, 15, 8, -1]⟩]) := by decide

/-- **C18** (sets).  `fail_fast` never changes whether a set is accepted, nor the value. -/
theorem set_fail_fast_verdict (s : SetV α) (hv : RejectsWithErrors s.item) (input : α)
    (st : VState α) (b : Bool) (o : α) :
    ({ s with failFast := b }.validate input st).1 = .ok o ↔ (s.validate input st).1 = .ok o := by
  cases hseq : s.asSet (st.strictOr s.strict) input with
  | error e => simp only [SetV.validate, hseq]
  | ok p =>
    obtain ⟨seq, ex⟩ := p
    rw [set_accepts_iff s hv input st seq ex hseq,
      set_accepts_iff { s with failFast := b } hv input st seq ex hseq]

example : ({ sampleSet with failFast := true }.validate [5, -1, 205] (stateIn .off)).1
    = .error (.lineErrors [⟨.other "negative", .list [.i 1], [-1]⟩]) := by decide

/-! ## C20: dicts -/

/-- An entry fails: its key has errors, or its value has and is not the last of a partial input. -/
def EntryVisit.Fails (x : EntryVisit α) : Prop :=
  (∃ ls, x.keyResult = .error (.lineErrors ls)) ∨
  (∃ ls, x.valueResult = some (.error (.lineErrors ls)) ∧ x.last = false)

theorem entryVisits_nonempty (kv vv : Validator α α) (hk : RejectsWithErrors kv)
    (hv : RejectsWithErrors vv) (mode : PartialMode) (es : List (α × α)) :
    ∀ st, ∀ x ∈ entryVisits kv vv mode es st,
      x.keyResult ≠ .error (.lineErrors []) ∧ x.valueResult ≠ some (.error (.lineErrors [])) := by
  induction es with
  | nil => intro st x hx; simp [entryVisits] at hx
  | cons e rest ih =>
    obtain ⟨k, x⟩ := e
    intro st
    unfold entryVisits
    have h1 := hk k { st with allowPartial := .off }
    generalize kv k { st with allowPartial := .off } = rk at h1 ⊢
    dsimp only
    have h2 := hv x { rk.2 with allowPartial := if (mode.isActive && rest.isEmpty) then mode else .off }
    split
    · rw [List.forall_mem_cons]
      refine ⟨⟨h1, ?_⟩, ih _⟩
      intro h; exact h2 (by simpa using h)
    · rw [List.forall_mem_cons]
      refine ⟨⟨h1, ?_⟩, ih _⟩
      intro h; exact h2 (by simpa using h)
    · rw [List.forall_mem_cons]
      exact ⟨⟨h1, by simp⟩, ih _⟩

theorem entry_errors_nil {loc : α → LocItem} {x : EntryVisit α}
    (h1 : x.keyResult ≠ .error (.lineErrors []))
    (h2 : x.valueResult ≠ some (.error (.lineErrors []))) :
    x.errors loc = [] ↔ ¬ x.Fails := by
  unfold EntryVisit.errors EntryVisit.keyErrors EntryVisit.valueErrors EntryVisit.Fails
  rw [List.append_eq_nil_iff]
  constructor
  · rintro ⟨ha, hb⟩ (⟨ls, hl⟩ | ⟨ls, hl, hlast⟩)
    · rw [hl] at ha
      have : ls = [] := by simpa using ha
      rw [this] at hl; exact h1 hl
    · rw [hl, hlast] at hb
      have : ls = [] := by simpa using hb
      rw [this] at hl; exact h2 hl
  · intro hn
    constructor
    · split
      · rename_i ls hl; exact absurd (.inl ⟨ls, hl⟩) hn
      · rfl
    · split
      · rename_i ls hl
        split
        · rfl
        · rename_i hlast; exact absurd (.inr ⟨ls, hl, by simpa using hlast⟩) hn
      · rfl

/-- **C20, C17** (acceptance of dicts).  A mapping is accepted with value `o` exactly when every entry
could be read, no key or value failed (other than the last value of a partial input), the
output is the dict of the validated pairs in order, and its length is within the bounds. -/
theorem dict_accepts_iff (d : DictV α) (hk : RejectsWithErrors d.key)
    (hv : RejectsWithErrors d.value) (input : α) (st : VState α)
    (entries : List (ValResult α (α × α)))
    (hd : d.asDict (st.strictOr d.strict) input = .ok entries) (o : α) :
    (d.validate input st).1 = .ok o ↔
      ∃ es : List (α × α), entries = es.map .ok ∧
        let vs := entryVisits d.key d.value st.allowPartial es st
        let out := dictOf d.hashing (vs.flatMap EntryVisit.pairs)
        (∀ x ∈ vs, x.Plain d.hashing ∧ ¬ x.Fails) ∧ o = d.build out ∧
        FitsMin d.minLength out.length ∧ FitsMax d.maxLength out.length := by
  unfold DictV.validate
  rw [hd]
  dsimp only
  rcases all_ok_or_error' entries with ⟨es, rfl⟩ | herr
  · have hne := entryVisits_nonempty d.key d.value hk hv st.allowPartial es st
    have herrs : (entryVisits d.key d.value st.allowPartial es st).flatMap (EntryVisit.errors d.keyLoc)
        = [] ↔ ∀ x ∈ entryVisits d.key d.value st.allowPartial es st, ¬ x.Fails := by
      rw [List.flatMap_eq_nil_iff]
      constructor
      · intro h x hx; exact (entry_errors_nil (hne x hx).1 (hne x hx).2).1 (h x hx)
      · intro h x hx; exact (entry_errors_nil (hne x hx).1 (hne x hx).2).2 (h x hx)
    by_cases hplain : ∀ x ∈ entryVisits d.key d.value st.allowPartial es st, x.Plain d.hashing
    · rw [dictLoop_full d input st.allowPartial es 0 [] [] st hplain]
      dsimp only
      rw [List.nil_append]
      by_cases hz : (entryVisits d.key d.value st.allowPartial es st).flatMap
          (EntryVisit.errors d.keyLoc) = []
      · rw [hz, List.isEmpty_nil, if_pos rfl]
        have hfine := herrs.1 hz
        change (match lengthCheck input "Dictionary" d.minLength d.maxLength
          (dictOf d.hashing ((entryVisits d.key d.value st.allowPartial es st).flatMap
            EntryVisit.pairs)).length with
          | Except.error e => (Except.error e : ValResult α α)
          | Except.ok () => Except.ok (d.build (dictOf d.hashing ((entryVisits d.key d.value
              st.allowPartial es st).flatMap EntryVisit.pairs)))) = _ ↔ _
        rcases lengthCheck_eq input "Dictionary" d.minLength d.maxLength
          (dictOf d.hashing ((entryVisits d.key d.value st.allowPartial es st).flatMap
            EntryVisit.pairs)).length with ⟨h1, h2, he⟩ | ⟨m, h1, h2, he⟩ | ⟨-, m, h1, h2, he⟩
        · rw [he]; dsimp only
          constructor
          · intro h; cases h
            exact ⟨es, rfl, fun x hx => ⟨hplain x hx, hfine x hx⟩, rfl, h1, h2⟩
          · rintro ⟨ys, hys, -, h, -⟩
            cases map_ok_inj' hys
            rw [h]
        · rw [he]; dsimp only
          constructor
          · intro h; cases h
          · rintro ⟨ys, hys, -, -, h, -⟩
            cases map_ok_inj' hys
            have := h m h1; omega
        · rw [he]; dsimp only
          constructor
          · intro h; cases h
          · rintro ⟨ys, hys, -, -, -, h⟩
            cases map_ok_inj' hys
            have := h m h1; omega
      · rw [if_neg (by simpa using hz)]
        constructor
        · intro h; cases h
        · rintro ⟨ys, hys, h, -⟩
          cases map_ok_inj' hys
          exact absurd (herrs.2 (fun x hx => (h x hx).2)) hz
    · constructor
      · intro h
        exact absurd (dictLoop_not_plain d input st.allowPartial es 0 [] [] st o h) hplain
      · rintro ⟨ys, hys, h, -⟩
        cases map_ok_inj' hys
        exact absurd (fun x hx => (h x hx).1) hplain
  · constructor
    · intro h
      exact absurd h (dictLoop_iteration_error d input st.allowPartial entries 0 [] [] st o herr)
    · rintro ⟨ys, hys, -⟩
      obtain ⟨e, he⟩ := herr
      rw [hys] at he
      simp at he

/-- Dicts of at most 3 entries whose keys and values are `sampleItem`s; a dict is written as a list
of alternating keys and values. -/
def sampleDict : DictV (List Int) where
  strict := false
  key := sampleItem
  value := sampleItem
  minLength := none
  maxLength := some 3
  hashing := sampleSet.hashing
  keyLoc := fun k => .i (k.headD 0)
  asDict := fun _ xs => .ok (pairUp xs)
  build := fun ps => ps.flatMap (fun p => p.1 ++ p.2)
where
  pairUp : List Int → List (ValResult (List Int) (List Int × List Int))
    | k :: v :: rest => .ok ([k], [v]) :: pairUp rest
    | _ => []

/-- Keys 5 and 15 validate to equal keys: the later value wins, in the earlier place. -/
example : (sampleDict.validate [5, 1, 6, 2, 15, 3] (stateIn .off)).1 = .ok [105, 103, 106, 102] := by
  decide

/-- **C20** (errors).  When nothing raises another exception, a mapping with failing keys or values is
rejected with exactly their errors in entry order: those of a key at `(key, '[key]')`, those of
a value at `(key,)`. -/
theorem dict_errors (d : DictV α) (input : α) (st : VState α) (es : List (α × α))
    (hd : d.asDict (st.strictOr d.strict) input = .ok (es.map .ok))
    (vs : List (EntryVisit α)) (hvs : vs = entryVisits d.key d.value st.allowPartial es st)
    (hplain : ∀ x ∈ vs, x.Plain d.hashing)
    (herr : vs.flatMap (EntryVisit.errors d.keyLoc) ≠ []) :
    (d.validate input st).1 = .error (.lineErrors (vs.flatMap (EntryVisit.errors d.keyLoc))) := by
  subst hvs
  unfold DictV.validate
  rw [hd]
  dsimp only
  rw [dictLoop_full d input st.allowPartial es 0 [] [] st hplain]
  dsimp only
  rw [List.nil_append, if_neg (by simpa using herr)]

/-- A bad key (and its bad value), then a bad value. -/
example : (sampleDict.validate [-5, -1, 6, -2] (stateIn .off)).1 = .error (.lineErrors
    [⟨.other "negative", .list [.s "[key]", .i (-5)], [-5]⟩,
     ⟨.other "negative", .list [.i (-5)], [-1]⟩, ⟨.other "negative", .list [.i 6], [-2]⟩]) ∧
    (⟨.other "negative", .list [.s "[key]", .i (-5)], [-5]⟩ : LineError (List Int)).loc.toPy
      = [.i (-5), .s "[key]"] := by decide

/-- `same` is an equivalence, as Python's `==` on hashable values is supposed to be. -/
structure Lawful (h : Hashing α) : Prop where
  refl : ∀ a, h.same a a = true
  symm : ∀ a b, h.same a b = true → h.same b a = true
  trans : ∀ a b c, h.same a b = true → h.same b c = true → h.same a c = true

theorem setItem_find (h : Hashing α) (hl : Lawful h) (d : List (α × α)) (k' v' k : α) :
    ((setItem h d k' v').find? (fun p => h.same p.1 k)).map (·.2)
      = if h.same k' k then some v' else (d.find? (fun p => h.same p.1 k)).map (·.2) := by
  induction d with
  | nil =>
    unfold setItem
    by_cases hs : h.same k' k = true <;> simp [List.find?, hs]
  | cons p rest ih =>
    obtain ⟨k0, v0⟩ := p
    unfold setItem
    by_cases h0 : h.same k0 k' = true
    · rw [if_pos h0]
      by_cases hs : h.same k' k = true
      · have : h.same k0 k = true := hl.trans _ _ _ h0 hs
        simp [List.find?, this, hs]
      · have : h.same k0 k = false := by
          cases hx : h.same k0 k with
          | false => rfl
          | true => exact absurd (hl.trans _ _ _ (hl.symm _ _ h0) hx) hs
        simp [List.find?, this, hs]
    · rw [if_neg h0]
      by_cases hx : h.same k0 k = true
      · have : h.same k' k ≠ true := by
          intro hs; exact h0 (hl.trans _ _ _ hx (hl.symm _ _ hs))
        simp [List.find?, hx, this]
      · rw [Bool.not_eq_true] at hx
        simp only [List.find?, hx]
        exact ih

/-- **C20** (later entries win).  Looking any key up in the output dict gives the value of the last
validated pair whose key equals it. -/
theorem dict_later_wins (h : Hashing α) (hl : Lawful h) (ps : List (α × α)) (k : α) :
    ((dictOf h ps).find? (fun p => h.same p.1 k)).map (·.2)
      = (ps.reverse.find? (fun p => h.same p.1 k)).map (·.2) := by
  unfold dictOf
  suffices hh : ∀ d : List (α × α),
      ((ps.foldl (fun o p => setItem h o p.1 p.2) d).find? (fun p => h.same p.1 k)).map (·.2)
        = ((ps.reverse.find? (fun p => h.same p.1 k)).map (·.2)).or
            ((d.find? (fun p => h.same p.1 k)).map (·.2)) by
    rw [hh []]; simp
  induction ps with
  | nil => intro d; simp
  | cons p ps ih =>
    intro d
    rw [List.foldl_cons, ih, setItem_find h hl, List.reverse_cons, List.find?_append]
    cases hf : ps.reverse.find? (fun p => h.same p.1 k) with
    | some q => simp
    | none =>
      by_cases hs : h.same p.1 k = true
      · simp [hs, List.find?]
      · simp [hs, List.find?]

/-- **C20** (keys).  The keys of the output dict are the distinct validated keys, in order of first
appearance; so its length is their number. -/
theorem dict_keys (h : Hashing α) (ps : List (α × α)) :
    (dictOf h ps).map (·.1) = distinct h (ps.map (·.1)) := foldl_keys h ps []

example : Lawful sampleSet.hashing where
  refl := by intro a; simp [sampleSet]
  symm := by intro a b h; simp only [sampleSet, beq_iff_eq] at h ⊢; exact h.symm
  trans := by intro a b c h1 h2; simp only [sampleSet, beq_iff_eq] at h1 h2 ⊢; exact h1.trans h2

example : dictOf sampleSet.hashing [([5], [1]), ([6], [2]), ([15], [3])] = [([5], [3]), ([6], [2])] := by
  decide

/-! ## C19: dicts in partial mode -/

/-- **C19** (dicts).  In partial mode errors of the last value are never reported: an accepted dict
may have a failing last value, which is dropped. -/
theorem dict_partial_value (kv vv : Validator α α) (mode : PartialMode)
    (hmode : mode.isActive = true) (init : List (α × α)) (k x : α) (loc : α → LocItem) :
    ∀ st, ∃ pre last, entryVisits kv vv mode (init ++ [(k, x)]) st = pre ++ [last] ∧
      last.key = k ∧ last.last = true ∧ last.valueErrors loc = [] ∧
      (∀ y ∈ pre, y.last = false) ∧ pre.length = init.length := by
  induction init with
  | nil =>
    intro st
    rw [List.nil_append]
    unfold entryVisits
    dsimp only
    have : (mode.isActive && ([] : List (α × α)).isEmpty) = true := by simp [hmode]
    rw [this]
    have hve : ∀ r r', EntryVisit.valueErrors loc (⟨k, true, r, r'⟩ : EntryVisit α) = [] := by
      intro r r'; simp only [EntryVisit.valueErrors]; split <;> rfl
    split <;> exact ⟨[], _, rfl, rfl, rfl, hve _ _, by simp, rfl⟩
  | cons e rest ih =>
    obtain ⟨k0, x0⟩ := e
    intro st
    rw [List.cons_append]
    unfold entryVisits
    dsimp only
    have : (rest ++ [(k, x)]).isEmpty = false := by cases rest <;> rfl
    rw [this, Bool.and_false]
    split
    · obtain ⟨pre, last, h1, h2, h3, h4, h5, h6⟩ := ih (vv x0 { (kv k0 { st with allowPartial := .off }).2 with allowPartial := if false then mode else .off }).2
      rw [h1]
      exact ⟨_ :: pre, last, rfl, h2, h3, h4, by simpa using h5, by simp [h6]⟩
    · obtain ⟨pre, last, h1, h2, h3, h4, h5, h6⟩ := ih (vv x0 { (kv k0 { st with allowPartial := .off }).2 with allowPartial := if false then mode else .off }).2
      rw [h1]
      exact ⟨_ :: pre, last, rfl, h2, h3, h4, by simpa using h5, by simp [h6]⟩
    · obtain ⟨pre, last, h1, h2, h3, h4, h5, h6⟩ := ih (kv k0 { st with allowPartial := .off }).2
      rw [h1]
      exact ⟨_ :: pre, last, rfl, h2, h3, h4, by simpa using h5, by simp [h6]⟩

example : (sampleDict.validate [5, 1, 6, -2] (stateIn .on)).1 = .ok [105, 101] := by decide

/-- **C19** does not extend to keys: an error of the last key is still reported in partial mode, so a
dict all of whose entries but the last are valid is rejected. -/
theorem dict_partial_key_reported :
    (sampleDict.validate [5, 1, -6, 2] (stateIn .on)).1
      = .error (.lineErrors [⟨.other "negative", .list [.s "[key]", .i (-6)], [-6]⟩]) := by decide

end PC.Coll
