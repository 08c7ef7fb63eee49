import Verif.Lemmas.Tuples
import Verif.Lemmas.Collections
import Verif.Props.Lists
import Verif.Model.Union

/-
Tuples (C22), and their share of C17, C18 and C19.
-/

namespace PC.Coll
variable {α : Type}

theorem split_source (items : List (Except PyErr α)) :
    ∃ (xs : List α) (tl : List (Except PyErr α)), items = xs.map .ok ++ tl ∧ End tl := by
  induction items with
  | nil => exact ⟨[], [], rfl, .inl rfl⟩
  | cons i items ih =>
    cases i with
    | error e => exact ⟨[], _, rfl, .inr ⟨e, items, rfl⟩⟩
    | ok a =>
      obtain ⟨xs, tl, h, he⟩ := ih
      exact ⟨a :: xs, tl, by rw [h]; rfl, he⟩

/-- **C22** (no panic).  The `unwrap` on the tail buffer never fails: validating a tuple always
returns a result, whatever the schema, the input and its iteration errors. -/
theorem tuple_never_panics (t : TupleV α) (input : α) (st : VState α) :
    ∃ r, t.validate input st = some r := by
  unfold TupleV.validate
  dsimp only
  cases t.asTuple (({ st with allowPartial := .off } : VState α).strictOr t.strict) input with
  | error e => exact ⟨_, rfl⟩
  | ok p =>
    obtain ⟨seq, ex⟩ := p
    dsimp only
    obtain ⟨xs, tl, hx, he⟩ := split_source seq.items
    obtain ⟨r, it', h, -⟩ := tupleVariable_slots t input seq.len he ⟨seq.items, 0, none, 0⟩ xs
      ⟨[], [], ({ st with allowPartial := .off } : VState α).floorExactness ex⟩ (.inl ⟨rfl, hx⟩) rfl rfl
    rw [h]
    dsimp only
    cases r.2 with
    | some e => exact ⟨_, rfl⟩
    | none =>
      cases it'.err with
      | some q => exact ⟨_, rfl⟩
      | none =>
        dsimp only
        split <;> exact ⟨_, rfl⟩

theorem shortError_eq (t : TupleV α) (input : α) (n : Nat) :
    tupleMinLengthError t input n = t.shortError input n := by
  unfold TupleV.shortError tupleMinLengthError
  cases t.minLength with
  | none => simp
  | some m => by_cases h : n < m <;> simp [Option.filter, h]

theorem shortError_nil (t : TupleV α) (input : α) (n : Nat) :
    t.shortError input n = [] ↔ FitsMin t.minLength n := by
  unfold TupleV.shortError FitsMin
  cases t.minLength with
  | none => simp
  | some m => by_cases h : n < m <;> simp [h] <;> omega

/-- Tuples of a head, variadic and tail item: `sampleItem`s; the second head item defaults to 7. -/
def sampleTuple : TupleV (List Int) where
  strict := false
  head := [⟨sampleItem, fun _ st => (.ok none, st)⟩]
  variadic := some (⟨sampleItem, fun _ st => (.ok none, st)⟩, [⟨sampleItem, fun _ st => (.ok (some [7]), st)⟩])
  minLength := some 1
  maxLength := some 4
  failFast := false
  asTuple := fun _ xs => .ok (⟨xs.map (fun n => if n = 999 then .error ⟨"Stop"⟩ else .ok [n]), some xs.length, false⟩, .lax)
  build := List.flatten

example : sampleTuple.validate [1] (stateIn .off) =
    some (.ok [101, 7], { stateIn .off with allowPartial := .off }) := by decide

/-- **C22, C17, C18** (acceptance).  A tuple is accepted with value `o` exactly when every item could
be iterated, there are not more items than a schema without variadic item has room for, at
every position the item is valid, omitted, or absent with a default, the output consists of
the results in order, its length is at least `min_length` and the number of validated items is
at most `max_length`.  This holds with and without `fail_fast`. -/
theorem tuple_accepts_iff (t : TupleV α) (ht : t.Rejects) (input : α) (st : VState α)
    (seq : Seq α) (ex : Exactness)
    (hseq : t.asTuple (st.strictOr t.strict) input = .ok (seq, ex)) (o : α) :
    (∃ st', t.validate input st = some (.ok o, st')) ↔
      ∃ xs : List α, seq.items = xs.map .ok ∧ t.Room xs.length ∧
        let vs := slotVisits (t.slots xs) (({ st with allowPartial := .off } : VState α).floorExactness ex)
        (∀ x ∈ vs, x.2.Fine) ∧ o = t.build (slotOutputs vs) ∧
        FitsMin t.minLength (slotOutputs vs).length ∧ FitsMax t.maxLength (slotValues vs).length := by
  have hst : ({ st with allowPartial := .off } : VState α).strictOr t.strict = st.strictOr t.strict := rfl
  unfold TupleV.validate
  dsimp only
  rw [hst, hseq]
  dsimp only
  generalize ({ st with allowPartial := .off } : VState α).floorExactness ex = st0
  obtain ⟨xs, tl, hx, he⟩ := split_source seq.items
  obtain ⟨r, it', h, hr, ⟨zs, hsrc⟩, hdone⟩ := tupleVariable_slots t input seq.len he
    ⟨seq.items, 0, none, 0⟩ xs ⟨[], [], st0⟩ (.inl ⟨rfl, hx⟩) rfl rfl
  rw [h]
  have hacc := slotLoop_accept t input seq.len (t.reported xs) ⟨[], [], st0⟩
    (reported_rejects t ht xs) (reported_ordered t xs) rfl
  dsimp only at hacc
  rw [visits_reported] at hacc
  have e1 : ∀ f : Nat → Nat, ∀ vs : List (Nat × SlotResult α),
      slotOutputs (vs.map (fun x => (f x.1, x.2))) = slotOutputs vs := by
    intro f vs; unfold slotOutputs; rw [List.flatMap_map]
  have e2 : ∀ f : Nat → Nat, ∀ vs : List (Nat × SlotResult α),
      slotValues (vs.map (fun x => (f x.1, x.2))) = slotValues vs := by
    intro f vs; unfold slotValues; rw [List.flatMap_map]
  rw [e1, e2] at hacc
  simp only [List.length_nil, Nat.zero_add, List.nil_append, List.forall_mem_map] at hacc
  have hmaxiff : ∀ vs : List (Nat × SlotResult α),
      (slotValues vs ≠ [] → FitsMax t.maxLength (slotValues vs).length) ↔
        FitsMax t.maxLength (slotValues vs).length := by
    intro vs
    constructor
    · intro hh
      by_cases hz : slotValues vs = []
      · rw [hz]; intro m _; exact Nat.zero_le _
      · exact hh hz
    · intro hh _; exact hh
  rw [hmaxiff] at hacc
  clear hmaxiff e1 e2
  dsimp only
  constructor
  · rintro ⟨st', hres⟩
    cases hr2 : r.2 with
    | some e => rw [hr2] at hres; dsimp only at hres; cases hres
    | none =>
      rw [hr2] at hres
      cases herr : it'.err with
      | some q => rw [herr] at hres; dsimp only at hres; cases hres
      | none =>
        rw [herr] at hres
        dsimp only at hres
        rw [shortError_eq] at hres
        by_cases hemp : (r.1.errs ++ t.shortError input r.1.out.length) = []
        · rw [hemp, List.isEmpty_nil, if_pos rfl] at hres
          rw [List.append_eq_nil_iff] at hemp
          have hd : Done t r := ⟨hr2, by simp [hemp.1]⟩
          have htl := hdone hd herr
          subst htl
          by_cases hcase : t.variadic.isNone = true ∧
              Done t (slotLoop t input seq.len (t.reported xs) ⟨[], [], st0⟩) ∧
              t.head.length < xs.length
          · rw [if_pos hcase] at hr; rw [hr] at hr2; cases hr2
          · rw [if_neg hcase] at hr
            have hfull : slotLoop t input seq.len (t.reported xs) ⟨[], [], st0⟩
                = (⟨r.1.out, [], r.1.st⟩, none) := by
              rw [← hr]
              obtain ⟨⟨ro, re, rs⟩, r2⟩ := r
              dsimp only at hr2 hemp ⊢
              rw [hr2, hemp.1]
            obtain ⟨a, b, c⟩ := (hacc r.1.out).1 ⟨_, hfull⟩
            refine ⟨xs, by rw [hx]; simp, ?_, a, ?_, ?_, c⟩
            · intro hv
              rcases Nat.lt_or_ge t.head.length xs.length with hlt | hge
              · exact absurd ⟨by rw [hv]; rfl, hr ▸ hd, hlt⟩ hcase
              · exact hge
            · cases hres; rw [b]
            · rw [← b]; exact (shortError_nil t input _).1 hemp.2
        · rw [if_neg (by simpa using hemp)] at hres; cases hres
  · rintro ⟨ys, hys, hroom, a, b, c, d⟩
    have htl : tl = [] := by
      rcases he with h | ⟨e, r, h⟩
      · exact h
      · exfalso
        rw [hx, h] at hys
        have : (Except.error e : Except PyErr α) ∈ ys.map Except.ok := by rw [← hys]; simp
        simp at this
    subst htl
    rw [List.append_nil] at hx
    have hxy : xs = ys := by
      have := hx.symm.trans hys
      exact (List.map_inj_right (by intro a b h; cases h; rfl)).1 this
    subst hxy
    obtain ⟨st', hfull⟩ := (hacc (slotOutputs (slotVisits (t.slots xs) st0))).2 ⟨a, rfl, d⟩
    have hnot : ¬ (t.variadic.isNone = true ∧
        Done t (slotLoop t input seq.len (t.reported xs) ⟨[], [], st0⟩) ∧
        t.head.length < xs.length) := by
      rintro ⟨h1, -, h2⟩
      have := hroom (by simpa using h1)
      omega
    rw [if_neg hnot, hfull] at hr
    subst hr
    have herr : it'.err = none := by
      rcases hsrc with ⟨h, -⟩ | ⟨-, -, h⟩
      · exact h
      · exact absurd rfl h
    rw [herr]
    dsimp only
    rw [shortError_eq, (shortError_nil t input _).2 c, List.append_nil, List.isEmpty_nil, if_pos rfl, b]
    exact ⟨st', rfl⟩

/-- Six valid items of which one is omitted (0): not more than four outputs, each at its place. -/
example : sampleTuple.Rejects ∧ sampleTuple.validate [1, 0, 2, 3, 4] (stateIn .off)
    = some (.ok [101, 102, 103, 104], { stateIn .off with allowPartial := .off }) := by
  refine ⟨⟨?_, ?_⟩, by decide⟩
  · intro v hv; simp [sampleTuple] at hv; subst hv; exact sampleItem_rejects
  · intro v tail h
    simp only [sampleTuple, Option.some.injEq, Prod.mk.injEq] at h
    obtain ⟨rfl, rfl⟩ := h
    refine ⟨sampleItem_rejects, ?_⟩
    intro w hw; simp at hw; subst hw; exact sampleItem_rejects

/-- Each position is validated by the schema of its own place: position `i` of the layout. -/
theorem slots_spec (t : TupleV α) (xs : List α) (i : Nat) (s : Slot α)
    (h : (t.slots xs)[i]? = some s) :
    s.index = i ∧ s.value = xs[i]? ∧ (t.layout xs.length)[i]? = some s.item := by
  unfold TupleV.slots at h
  rw [List.getElem?_map, List.getElem?_zipIdx] at h
  cases hl : (t.layout xs.length)[i]? with
  | none => rw [hl] at h; simp at h
  | some v => rw [hl] at h; simp at h; subst h; simp

example : ((sampleTuple.slots [[1], [2], [3]]).map (fun s => (s.index, s.value)))
    = [(0, some [1]), (1, some [2]), (2, some [3])] := by decide

/-- **C22** (errors, as the code reports them).  Without `fail_fast`, when nothing stops the
validation, a tuple is rejected with exactly the errors of its positions in order, each at the
reported index of its position, followed by `too_short` if the output is too short. -/
theorem tuple_errors_reported (t : TupleV α) (hff : t.failFast = false) (input : α) (st : VState α)
    (xs : List α) (len : Option Nat) (pl : Bool) (ex : Exactness)
    (hseq : t.asTuple (st.strictOr t.strict) input = .ok (⟨xs.map .ok, len, pl⟩, ex))
    (hroom : t.Room xs.length) (vs : List (Nat × SlotResult α))
    (hvs : vs = slotVisits (t.slots xs) (({ st with allowPartial := .off } : VState α).floorExactness ex))
    (hplain : ∀ x ∈ vs, x.2.Plain) (hmax : FitsMax t.maxLength (slotValues vs).length)
    (errs : List (LineError α))
    (herrs : errs = vs.flatMap (fun x => slotErrors input (t.reportedIndex xs.length x.1, x.2))
      ++ t.shortError input (slotOutputs vs).length)
    (hne : errs ≠ []) :
    ∃ st', t.validate input st = some (.error (.lineErrors errs), st') := by
  subst hvs
  have hst : ({ st with allowPartial := .off } : VState α).strictOr t.strict = st.strictOr t.strict := rfl
  unfold TupleV.validate
  dsimp only
  rw [hst, hseq]
  dsimp only
  generalize ({ st with allowPartial := .off } : VState α).floorExactness ex = st0 at *
  obtain ⟨r, it', h, hr, ⟨zs, hsrc⟩, -⟩ := tupleVariable_slots t input len (tl := []) (.inl rfl)
    ⟨xs.map .ok, 0, none, 0⟩ xs ⟨[], [], st0⟩ (.inl ⟨rfl, by simp⟩) rfl rfl
  rw [h]
  dsimp only
  have e2 : slotValues (slotVisits (t.reported xs) st0) = slotValues (slotVisits (t.slots xs) st0) := by
    rw [visits_reported]; unfold slotValues; rw [List.flatMap_map]
  have e1 : slotOutputs (slotVisits (t.reported xs) st0) = slotOutputs (slotVisits (t.slots xs) st0) := by
    rw [visits_reported]; unfold slotOutputs; rw [List.flatMap_map]
  obtain ⟨st', hfull⟩ := slotLoop_full t hff input len (t.reported xs) ⟨[], [], st0⟩
    (reported_ordered t xs)
    (by
      dsimp only
      rw [visits_reported]
      intro x hx
      rw [List.mem_map] at hx
      obtain ⟨y, hy, rfl⟩ := hx
      exact hplain y hy)
    (by intro _; dsimp only; rw [e2, List.length_nil, Nat.zero_add]; exact hmax)
  dsimp only at hfull
  rw [e1, List.nil_append, List.nil_append, visits_reported, List.flatMap_map] at hfull
  have hnot : ¬ (t.variadic.isNone = true ∧
      Done t (slotLoop t input len (t.reported xs) ⟨[], [], st0⟩) ∧
      t.head.length < xs.length) := by
    rintro ⟨h1, -, h2⟩
    have := hroom (by simpa using h1)
    omega
  rw [if_neg hnot, hfull] at hr
  subst hr
  have herr : it'.err = none := by
    rcases hsrc with ⟨h, -⟩ | ⟨-, -, h⟩
    · exact h
    · exact absurd rfl h
  rw [herr]
  dsimp only
  rw [shortError_eq, ← herrs, if_neg (by simpa using hne)]
  exact ⟨st', rfl⟩

/-- **C22** (errors), partial: when no item is validated after a run of variadic items, the errors of
every position are located at its own index.  Missing for the full claim: schemas with a tail,
see `tuple_tail_index_off_by_one`. -/
theorem tuple_errors_partial (t : TupleV α) (hff : t.failFast = false) (input : α) (st : VState α)
    (xs : List α) (len : Option Nat) (pl : Bool) (ex : Exactness)
    (hseq : t.asTuple (st.strictOr t.strict) input = .ok (⟨xs.map .ok, len, pl⟩, ex))
    (hroom : t.Room xs.length) (htail : t.NoTail xs.length) (vs : List (Nat × SlotResult α))
    (hvs : vs = slotVisits (t.slots xs) (({ st with allowPartial := .off } : VState α).floorExactness ex))
    (hplain : ∀ x ∈ vs, x.2.Plain) (hmax : FitsMax t.maxLength (slotValues vs).length)
    (errs : List (LineError α))
    (herrs : errs = vs.flatMap (slotErrors input) ++ t.shortError input (slotOutputs vs).length)
    (hne : errs ≠ []) :
    ∃ st', t.validate input st = some (.error (.lineErrors errs), st') := by
  refine tuple_errors_reported t hff input st xs len pl ex hseq hroom vs hvs hplain hmax errs ?_ hne
  rw [herrs]
  congr 1
  have hcongr : ∀ (l : List (Nat × SlotResult α)) (f g : Nat × SlotResult α → List (LineError α)),
      (∀ x ∈ l, f x = g x) → l.flatMap f = l.flatMap g := by
    intro l f g h
    rw [List.flatMap_def, List.flatMap_def, List.map_congr_left h]
  apply hcongr
  intro x hx
  have hidx : t.reportedIndex xs.length x.1 = x.1 := by
    unfold TupleV.reportedIndex
    cases hv : t.variadic with
    | none => rfl
    | some q =>
      obtain ⟨v, tail⟩ := q
      dsimp only
      rcases htail v tail hv with h | h
      · subst h
        have hlt : x.1 < xs.length ∨ xs.length ≤ t.head.length := by
          rcases Nat.lt_or_ge t.head.length xs.length with hh | hh
          · left
            rw [hvs] at hx
            have hmem : ∀ (L : List (Slot α)) st, ∀ y ∈ slotVisits L st, ∃ s ∈ L, s.index = y.1 := by
              intro L
              induction L with
              | nil => intro st y hy; cases hy
              | cons s L ih =>
                intro st y hy
                rw [slotVisits_cons, List.mem_cons] at hy
                rcases hy with rfl | hy
                · exact ⟨s, by simp, rfl⟩
                · obtain ⟨s', h1, h2⟩ := ih _ y hy
                  exact ⟨s', List.mem_cons_of_mem _ h1, h2⟩
            obtain ⟨s, hs, hi⟩ := hmem _ _ x hx
            unfold TupleV.slots at hs
            rw [List.mem_map] at hs
            obtain ⟨p, hp, rfl⟩ := hs
            have := (List.mem_zipIdx hp).2.1
            rw [Nat.zero_add] at this
            unfold TupleV.layout at this
            rw [hv] at this
            simp only [List.append_nil, List.length_append, List.length_replicate, List.length_nil] at this
            dsimp only at hi
            omega
          · right; exact hh
        rw [if_neg (by simp; omega)]
      · rw [if_neg (by omega)]
  rw [hidx]

/-- A head item and a tail: the first item and the variadic run only. -/
example : ({ sampleTuple with variadic := none } : TupleV (List Int)).validate [-1] (stateIn .off)
    = some (.error (.lineErrors [⟨.other "negative", .list [.i 0], [-1]⟩,
        ⟨.tooShort "Tuple" 1 0, .empty, [-1]⟩]), { stateIn .off with allowPartial := .off }) := by decide

/-- **C22** fails for tails: the bad item is the fourth (index 3), the error is located at index 2,
where the input has a valid item. -/
theorem tuple_tail_index_off_by_one :
    sampleTuple.validate [1, 2, 3, -4] (stateIn .off)
      = some (.error (.lineErrors [⟨.other "negative", .list [.i 2], [-4]⟩]),
          { stateIn .off with allowPartial := .off }) := by decide

/-- Without variadic items the tail is located correctly. -/
example : sampleTuple.validate [1, -4] (stateIn .off)
      = some (.error (.lineErrors [⟨.other "negative", .list [.i 1], [-4]⟩]),
          { stateIn .off with allowPartial := .off }) := by decide

/-- **C17** (tuples, too long).  More validated items than `max_length`: exactly one `too_long` error. -/
theorem tuple_too_long (t : TupleV α) (hff : t.failFast = false) (input : α) (st : VState α)
    (xs : List α) (len : Option Nat) (pl : Bool) (ex : Exactness)
    (hseq : t.asTuple (st.strictOr t.strict) input = .ok (⟨xs.map .ok, len, pl⟩, ex))
    (vs : List (Nat × SlotResult α))
    (hvs : vs = slotVisits (t.slots xs) (({ st with allowPartial := .off } : VState α).floorExactness ex))
    (hplain : ∀ x ∈ vs, x.2.Plain) (m : Nat) (hm : t.maxLength = some m)
    (hmax : m < (slotValues vs).length) :
    ∃ st', t.validate input st
      = some (.error (.lineErrors [⟨.tooLong "Tuple" m len, .empty, input⟩]), st') := by
  subst hvs
  have hst : ({ st with allowPartial := .off } : VState α).strictOr t.strict = st.strictOr t.strict := rfl
  unfold TupleV.validate
  dsimp only
  rw [hst, hseq]
  dsimp only
  generalize ({ st with allowPartial := .off } : VState α).floorExactness ex = st0 at *
  obtain ⟨r, it', h, hr, -, -⟩ := tupleVariable_slots t input len (tl := []) (.inl rfl)
    ⟨xs.map .ok, 0, none, 0⟩ xs ⟨[], [], st0⟩ (.inl ⟨rfl, by simp⟩) rfl rfl
  rw [h]
  dsimp only
  have e2 : slotValues (slotVisits (t.reported xs) st0) = slotValues (slotVisits (t.slots xs) st0) := by
    rw [visits_reported]; unfold slotValues; rw [List.flatMap_map]
  obtain ⟨acc', hl⟩ := slotLoop_too_long t hff input len m hm (t.reported xs) ⟨[], [], st0⟩
    (reported_ordered t xs)
    (by
      dsimp only
      rw [visits_reported]
      intro x hx
      rw [List.mem_map] at hx
      obtain ⟨y, hy, rfl⟩ := hx
      exact hplain y hy)
    (Nat.zero_le _) (by dsimp only; rw [e2]; simpa using hmax)
  have hnd : ¬ Done t (slotLoop t input len (t.reported xs) ⟨[], [], st0⟩) := by
    rw [hl]; intro hd; cases hd.1
  rw [if_neg (by intro hh; exact hnd hh.2.1), hl] at hr
  subst hr
  exact ⟨_, rfl⟩

example : sampleTuple.validate [1, 2, 3, 4, 5] (stateIn .off)
      = some (.error (.lineErrors [⟨.tooLong "Tuple" 4 (some 5), .empty, [1, 2, 3, 4, 5]⟩]),
          { stateIn .off with allowPartial := .off }) := by decide

/-- **C22** (extra items).  A tuple schema without variadic item rejects an input with more items than
it has schemas with exactly one `too_long` error. -/
theorem tuple_too_many (t : TupleV α) (hff : t.failFast = false) (input : α) (st : VState α)
    (xs : List α) (len : Option Nat) (pl : Bool) (ex : Exactness)
    (hseq : t.asTuple (st.strictOr t.strict) input = .ok (⟨xs.map .ok, len, pl⟩, ex))
    (hfix : t.variadic = none) (hmany : t.head.length < xs.length)
    (vs : List (Nat × SlotResult α))
    (hvs : vs = slotVisits (t.slots xs) (({ st with allowPartial := .off } : VState α).floorExactness ex))
    (hplain : ∀ x ∈ vs, x.2.Plain) (hmax : FitsMax t.maxLength (slotValues vs).length) :
    ∃ st', t.validate input st
      = some (.error (.lineErrors [⟨.tooLong "Tuple" t.head.length len, .empty, input⟩]), st') := by
  subst hvs
  have hst : ({ st with allowPartial := .off } : VState α).strictOr t.strict = st.strictOr t.strict := rfl
  unfold TupleV.validate
  dsimp only
  rw [hst, hseq]
  dsimp only
  generalize ({ st with allowPartial := .off } : VState α).floorExactness ex = st0 at *
  obtain ⟨r, it', h, hr, -, -⟩ := tupleVariable_slots t input len (tl := []) (.inl rfl)
    ⟨xs.map .ok, 0, none, 0⟩ xs ⟨[], [], st0⟩ (.inl ⟨rfl, by simp⟩) rfl rfl
  rw [h]
  dsimp only
  have e2 : slotValues (slotVisits (t.reported xs) st0) = slotValues (slotVisits (t.slots xs) st0) := by
    rw [visits_reported]; unfold slotValues; rw [List.flatMap_map]
  obtain ⟨st', hfull⟩ := slotLoop_full t hff input len (t.reported xs) ⟨[], [], st0⟩
    (reported_ordered t xs)
    (by
      dsimp only
      rw [visits_reported]
      intro x hx
      rw [List.mem_map] at hx
      obtain ⟨y, hy, rfl⟩ := hx
      exact hplain y hy)
    (by intro _; dsimp only; rw [e2, List.length_nil, Nat.zero_add]; exact hmax)
  have hd : Done t (slotLoop t input len (t.reported xs) ⟨[], [], st0⟩) := by
    rw [hfull]; exact ⟨rfl, by simp [hff]⟩
  rw [if_pos ⟨by rw [hfix]; rfl, hd, hmany⟩] at hr
  subst hr
  exact ⟨_, rfl⟩

example : ({ sampleTuple with variadic := none } : TupleV (List Int)).validate [-1, 5] (stateIn .off)
    = some (.error (.lineErrors [⟨.tooLong "Tuple" 1 (some 2), .empty, [-1, 5]⟩]),
        { stateIn .off with allowPartial := .off }) := by decide

/-- **C18** (tuples).  `fail_fast` never changes whether a tuple is accepted, nor the value. -/
theorem tuple_fail_fast_verdict (t : TupleV α) (ht : t.Rejects) (input : α) (st : VState α)
    (b : Bool) (o : α) :
    (∃ st', { t with failFast := b }.validate input st = some (.ok o, st')) ↔
      (∃ st', t.validate input st = some (.ok o, st')) := by
  cases hseq : t.asTuple (st.strictOr t.strict) input with
  | error e =>
    have h1 : ∀ c, ({ t with failFast := c } : TupleV α).validate input st
        = some (.error e, { st with allowPartial := .off }) := by
      intro c
      unfold TupleV.validate
      dsimp only
      have hst : ({ st with allowPartial := .off } : VState α).strictOr t.strict = st.strictOr t.strict := rfl
      rw [hst, hseq]
    rw [h1 b, h1 t.failFast]
  | ok p =>
    obtain ⟨seq, ex⟩ := p
    rw [tuple_accepts_iff t ht input st seq ex hseq,
      tuple_accepts_iff { t with failFast := b } ht input st seq ex hseq]
    rfl

example : ({ sampleTuple with failFast := true } : TupleV (List Int)).validate [-1, -2, 3] (stateIn .off)
    = some (.error (.lineErrors [⟨.other "negative", .list [.i 0], [-1]⟩,
        ⟨.tooShort "Tuple" 1 0, .empty, [-1, -2, 3]⟩]), { stateIn .off with allowPartial := .off }) := by
  decide

/-- **C17** fails for defaults: with `max_length = 1` an accepted tuple has two items, because items
filled in from defaults are not counted. -/
theorem tuple_defaults_bypass_max :
    ∃ t : TupleV (List Int), t.maxLength = some 1 ∧ t.build = List.flatten ∧
      t.validate [1] (stateIn .off) = some (.ok [101, 7], { stateIn .off with allowPartial := .off }) :=
  ⟨{ sampleTuple with maxLength := some 1 }, rfl, rfl, by decide⟩

/-- **C17** fails for failing items: a tuple with two items and `min_length = 2` is reported as too
short as well when one of its items is invalid. -/
theorem tuple_spurious_too_short :
    ∃ t : TupleV (List Int), t.minLength = some 2 ∧
      t.validate [1, -2] (stateIn .off) = some (.error (.lineErrors
        [⟨.other "negative", .list [.i 1], [-2]⟩, ⟨.tooShort "Tuple" 2 1, .empty, [1, -2]⟩]),
        { stateIn .off with allowPartial := .off }) :=
  ⟨{ sampleTuple with minLength := some 2 }, rfl, by decide⟩

/-- **C22** fails for iteration errors: the iterator fails at its third item (index 2); the error is
located at index 3. -/
theorem tuple_iteration_error_index :
    sampleTuple.validate [1, 2, 999] (stateIn .off)
      = some (.error (.lineErrors [⟨.iterationError "Stop", .list [.i 3], [1, 2, 999]⟩]),
        { stateIn .off with allowPartial := .off }) := by decide

/-- **C19** (tuples).  Tuples do not support partial mode: the result is the same in every mode. -/
theorem tuple_ignores_partial (t : TupleV α) (input : α) (st : VState α) (mode : PartialMode) :
    t.validate input { st with allowPartial := mode } = t.validate input st := rfl

example : sampleTuple.validate [1, 2, 3, -4] (stateIn .on)
    = sampleTuple.validate [1, 2, 3, -4] (stateIn .off) :=
  tuple_ignores_partial sampleTuple _ (stateIn .off) .on

/-- A list as a member of a union. -/
def listMember : Union.Choice (List Int) := ⟨"list", none, sampleList.validate⟩

/-- A tuple as a member of a union (`tuple_never_panics` makes the alternative irrelevant). -/
def tupleMember : Union.Choice (List Int) :=
  ⟨"tuple", none, fun i st => (sampleTuple.validate i st).getD (.error .omitted, st)⟩

/-- **C19** fails for unions with a tuple member: the list accepts the partial input `[1, 2, -3]` by
itself, and first in a union, but not after a tuple member, because validating a tuple switches
partial mode off for the rest of the union. -/
theorem union_tuple_disables_partial :
    (Union.validateLeftToRight [listMember] none [1, 2, -3] (stateIn .on)).1 = .ok [101, 102] ∧
    (Union.validateLeftToRight [listMember, tupleMember] none [1, 2, -3] (stateIn .on)).1 = .ok [101, 102] ∧
    (Union.validateLeftToRight [tupleMember, listMember] none [1, 2, -3] (stateIn .on)).1
      = .error (.lineErrors [⟨.other "negative", .list [.i 1, .s "tuple"], [-3]⟩,
          ⟨.other "negative", .list [.i 2, .s "list"], [-3]⟩]) ∧
    (Union.validateSmart [tupleMember, listMember] none [1, 2, -3] (stateIn .on)).1
      ≠ .ok [101, 102] := by decide

end PC.Coll
