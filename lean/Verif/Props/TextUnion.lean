import Verif.Spec.TextUnion
import Verif.Props.Union

/-
C119: which member of a union of scalars text is given to.
-/

namespace PC.TextUnion
open PC.Union

variable {α : Type}

theorem floor_fresh (st : VState α) (e : Exactness) : fresh (st.floorExactness e) = fresh st := by
  unfold VState.floorExactness
  cases st.exactness with
  | none => rfl
  | some x => cases x <;> dsimp only <;> (try split) <;> rfl

theorem run_fresh (src : Src) (strict : Bool) (read : Scalar → Reading α) (s : Scalar) (input : α) (st : VState α) :
    fresh (run src strict read s input st).2 = fresh st := by
  unfold run
  cases matchOf src strict s with
  | none => rfl
  | some e =>
    dsimp only
    cases read s with
    | no =>
      dsimp only
      split
      · exact floor_fresh _ _
      · rfl
    | direct v => exact floor_fresh _ _
    | other v =>
      dsimp only
      cases strict
      · exact floor_fresh _ _
      · rfl

theorem matchOf_spec (src : Src) (strict : Bool) (s : Scalar) :
    matchOf src strict s = if refuses src strict s then none else some (if proper src s then .strict else .lax) := by
  cases src <;> cases strict <;> cases s <;> rfl

/-- One attempt on a fresh record. -/
theorem attempt_takes (src : Src) (strict : Bool) (read : Scalar → Reading α) (s : Scalar) (input : α) (st : VState α) :
    match takes src strict read s with
    | some (v, b) => attemptOf input st ⟨"", none, run src strict read s⟩ =
        ⟨.ok v, some (if b then .strict else .lax), none⟩
    | none => ∃ ls, (attemptOf input st ⟨"", none, run src strict read s⟩).outcome = .error (.lineErrors ls) := by
  unfold takes attemptOf run
  rw [matchOf_spec]
  cases refuses src strict s with
  | true => exact ⟨_, rfl⟩
  | false =>
    simp only [Bool.false_eq_true, if_false]
    cases read s with
    | no => exact ⟨_, rfl⟩
    | direct v => cases proper src s <;> rfl
    | other v => cases strict <;> first | rfl | exact ⟨_, rfl⟩

theorem text_attempts (src : Src) (strict : Bool) (read : Scalar → Reading α) (members : List Scalar) (input : α)
    (st : VState α) :
    attempts input (members.map fun s => (⟨"", none, run src strict read s⟩ : Choice α)) st =
      members.map fun s => attemptOf input st ⟨"", none, run src strict read s⟩ := by
  rw [attempts_independent]
  · rw [List.map_map]; rfl
  · intro c hc s
    obtain ⟨m, _, rfl⟩ := List.mem_map.1 hc
    exact run_fresh src strict read m input s

theorem pick_none {l : List (α × Bool)} : pick l = none ↔ l = [] := by
  unfold pick
  cases l with
  | nil => simp
  | cons p ps => cases h : List.find? (fun x => x.2) (p :: ps) <;> simp

theorem filterMap_same {f g : Scalar → Option (α × Bool)} {l : List Scalar} (h : ∀ s ∈ l, f s = g s) :
    l.filterMap f = l.filterMap g := by
  induction l with
  | nil => rfl
  | cons s l ih =>
    rw [List.filterMap_cons, List.filterMap_cons, h s (List.mem_cons_self ..), ih fun t ht => h t (List.mem_cons_of_mem _ ht)]

theorem find_none_of {f : Scalar → Option (α × Bool)} {l : List Scalar} (h : ∀ s ∈ l, ∀ v b, f s = some (v, b) → b = false) :
    (l.filterMap f).find? (·.2) = none := by
  rw [List.find?_eq_none]
  rintro ⟨v, b⟩ hp
  obtain ⟨s, hs, hf⟩ := List.mem_filterMap.1 hp
  have := h s hs v b hf
  simp [this]

/-- **C119**: text is given to the first member that takes it as a strict match, else to the first that takes it at all;
it is refused if none does. -/
theorem union_picks (src : Src) (strict : Bool) (read : Scalar → Reading α) (members : List Scalar) (input : α)
    (st : VState α) (v : α) :
    (validateText src strict read members input st).1 = .ok v ↔
      pick (members.filterMap (takes src strict read)) = some v := by
  have hat := text_attempts src strict read members input st
  have hord : ∀ a ∈ attempts input (members.map fun s => (⟨"", none, run src strict read s⟩ : Choice α)) st, a.Ordinary := by
    rw [hat]
    intro a ha
    obtain ⟨s, _, rfl⟩ := List.mem_map.1 ha
    have := attempt_takes src strict read s input st
    cases ht : takes src strict read s with
    | none => rw [ht] at this; exact .inr this
    | some p =>
      obtain ⟨w, b⟩ := p
      rw [ht] at this
      dsimp only at this
      rw [this]
      exact .inl ⟨w, rfl⟩
  have hsucc : ∀ s : Scalar, (attemptOf input st (⟨"", none, run src strict read s⟩ : Choice α)).Succeeds →
      ∃ w b, takes src strict read s = some (w, b) ∧
        attemptOf input st (⟨"", none, run src strict read s⟩ : Choice α) =
          ⟨.ok w, some (if b then .strict else .lax), none⟩ := by
    intro s hs
    have := attempt_takes src strict read s input st
    cases ht : takes src strict read s with
    | none =>
      rw [ht] at this
      obtain ⟨ls, hls⟩ := this
      obtain ⟨w, hw⟩ := hs
      rw [hls] at hw
      cases hw
    | some p =>
      obtain ⟨w, b⟩ := p
      rw [ht] at this
      exact ⟨w, b, rfl, this⟩
  have hcmp : ∀ a ∈ attempts input (members.map fun s => (⟨"", none, run src strict read s⟩ : Choice α)) st,
      a.Succeeds → a.fieldsSet = none := by
    rw [hat]
    intro a ha hs
    obtain ⟨s, _, rfl⟩ := List.mem_map.1 ha
    obtain ⟨w, b, _, h⟩ := hsucc s hs
    rw [h]
  by_cases hsome : ∃ a ∈ attempts input (members.map fun s => (⟨"", none, run src strict read s⟩ : Choice α)) st, a.Succeeds
  · obtain ⟨pre, winner, post, w, h1, h2, h3, h4, h5⟩ := smart_union_best_partial _ none input st hord (.inr hcmp) hsome
    have hval : (validateText src strict read members input st).1 = .ok w := h3
    rw [hval]
    rw [hat] at h1
    obtain ⟨m1, mr, rfl, rfl, h6⟩ := List.map_eq_append_iff.1 h1
    obtain ⟨m, m2, rfl, rfl, rfl⟩ := List.map_eq_cons_iff.1 h6
    obtain ⟨w', b, ht, ha⟩ := hsucc m ⟨w, h2⟩
    have : w' = w := by rw [ha] at h2; injection h2
    subst this
    have key : pick ((m1 ++ m :: m2).filterMap (takes src strict read)) = some w' := by
      rw [List.filterMap_append, List.filterMap_cons, ht]
      dsimp only
      have hpre : ∀ s ∈ m1, ∀ u c, takes src strict read s = some (u, c) → c = false ∧ b = true := by
        intro s hs u c hc
        have hatt := attempt_takes src strict read s input st
        rw [hc] at hatt
        dsimp only at hatt
        have := h4 _ (List.mem_map.2 ⟨s, hs, rfl⟩) ⟨u, by rw [hatt]⟩
        rw [hatt, ha] at this
        cases c <;> cases b <;> simp_all [Attempt.score, Below, Exactness.rank]
      cases b with
      | true =>
        have h0 := find_none_of (f := takes src strict read) (l := m1) fun s hs u c hc => (hpre s hs u c hc).1
        unfold pick
        rw [List.find?_append, h0]
        rfl
      | false =>
        have hm1 : m1.filterMap (takes src strict read) = [] := by
          rw [List.filterMap_eq_nil_iff]
          intro s hs
          cases hc : takes src strict read s with
          | none => rfl
          | some p => exact absurd (hpre s hs p.1 p.2 hc).2 (by decide)
        have hpost : ∀ s ∈ m2, ∀ u c, takes src strict read s = some (u, c) → c = false := by
          intro s hs u c hc
          have hatt := attempt_takes src strict read s input st
          rw [hc] at hatt
          dsimp only at hatt
          have := h5 _ (List.mem_map.2 ⟨s, hs, rfl⟩) ⟨u, by rw [hatt]⟩
          rw [hatt, ha] at this
          cases c <;> simp_all [Attempt.score, NotAbove, Below, Exactness.rank]
        have h0 := find_none_of hpost
        unfold pick
        rw [hm1, List.nil_append, List.find?_cons, h0]
        rfl
    rw [key]
    constructor
    · intro h; injection h with h; rw [h]
    · intro h; injection h with h; rw [h]
  · constructor
    · intro h
      exact absurd ((smart_union_accepts_iff _ none input st hord).1 ⟨v, h⟩) hsome
    · intro h
      exfalso
      have hne : members.filterMap (takes src strict read) ≠ [] := by
        intro h0; rw [h0] at h; cases h
      obtain ⟨p, hp⟩ := List.exists_mem_of_ne_nil _ hne
      obtain ⟨s, hs, hf⟩ := List.mem_filterMap.1 hp
      apply hsome
      rw [hat]
      refine ⟨_, List.mem_map.2 ⟨s, hs, rfl⟩, ?_⟩
      have := attempt_takes src strict read s input st
      rw [hf] at this
      dsimp only at this
      rw [this]
      exact ⟨_, rfl⟩

/-- **C119**: in `validate_strings` the first member that reads the text takes it, in smart mode as from left to right,
unless a date was to be converted. -/
theorem strings_first (strict : Bool) (read : Scalar → Reading α) (members : List Scalar) (input : α) (st : VState α)
    (h : ∀ s ∈ members, ∀ v, read s ≠ .other v) (v : α) :
    (validateText .strings strict read members input st).1 = .ok v ↔
      ∃ pre s post, members = pre ++ s :: post ∧ read s = .direct v ∧ ∀ t ∈ pre, read t = .no := by
  rw [union_picks]
  have ht : ∀ s, (∀ v, read s ≠ .other v) → takes .strings strict read s =
      match read s with | .direct v => some (v, true) | _ => none := by
    intro s hs
    unfold takes refuses proper
    cases hr : read s with
    | no => rfl
    | direct v => rfl
    | other v => exact absurd hr (hs v)
  induction members with
  | nil =>
    constructor
    · intro h; cases h
    · rintro ⟨pre, s, post, h, _⟩; cases pre <;> cases h
  | cons m ms ih =>
    have hm := ht m (h m (List.mem_cons_self ..))
    rw [List.filterMap_cons, hm]
    cases hr : read m with
    | other u => exact absurd hr (h m (List.mem_cons_self ..) u)
    | direct u =>
      dsimp only
      constructor
      · intro hp
        injection hp with hp
        subst hp
        exact ⟨[], m, ms, rfl, hr, by simp⟩
      · rintro ⟨pre, s, post, he, hs, hpre⟩
        cases pre with
        | nil =>
          injection he with he _
          subst he
          rw [hr] at hs
          injection hs with hs
          subst hs
          rfl
        | cons p ps =>
          injection he with he _
          subst he
          have := hpre m (List.mem_cons_self ..)
          rw [hr] at this
          cases this
    | no =>
      dsimp only
      refine (ih fun s hs => h s (List.mem_cons_of_mem _ hs)).trans ?_
      constructor
      · rintro ⟨pre, s, post, he, hs, hpre⟩
        refine ⟨m :: pre, s, post, by rw [he]; rfl, hs, ?_⟩
        intro t ht
        rcases List.mem_cons.1 ht with rfl | ht
        · exact hr
        · exact hpre t ht
      · rintro ⟨pre, s, post, he, hs, hpre⟩
        cases pre with
        | nil =>
          injection he with he _
          subst he
          rw [hr] at hs
          cases hs
        | cons p ps =>
          injection he with he1 he2
          exact ⟨ps, s, post, he2, hs, fun t ht => hpre t (List.mem_cons_of_mem _ ht)⟩

/-- **C119**: a key of a JSON object is given to `str`, wherever that stands in the union, unless bytes or complex numbers
are members too. -/
theorem key_given_to_str (strict : Bool) (read : Scalar → Reading α) (members : List Scalar) (input : α) (st : VState α)
    (hm : .str ∈ members) (hb : .bytes ∉ members) (hc : .complex ∉ members) {v : α} (hv : read .str = .direct v) :
    (validateText .jsonKey strict read members input st).1 = .ok v := by
  rw [union_picks]
  have hs : takes .jsonKey strict read .str = some (v, true) := by unfold takes; rw [hv]; rfl
  have ho : ∀ s ∈ members, ∀ w, takes .jsonKey strict read s = some (w, true) → w = v := by
    intro s hsm w hw
    by_cases he : s = .str
    · rw [he, hs] at hw
      injection hw with hw
      injection hw with hw _
      exact hw.symm
    · exfalso
      unfold takes at hw
      cases hr : read s <;> cases strict <;> cases s <;> simp_all [refuses, proper]
  unfold pick
  cases hf : List.find? (fun x => x.2) (members.filterMap (takes .jsonKey strict read)) with
  | none =>
    rw [List.find?_eq_none] at hf
    exact absurd rfl (hf (v, true) (List.mem_filterMap.2 ⟨.str, hm, hs⟩))
  | some p =>
    obtain ⟨w, b⟩ := p
    have hb := List.find?_some hf
    have hmem := List.mem_of_find?_eq_some hf
    dsimp only at hb
    subst hb
    obtain ⟨s, hsm, hw⟩ := List.mem_filterMap.1 hmem
    rw [ho s hsm w hw]
    rfl

/-- **C119**: the mode does not matter for keys, unless a date was to be converted. -/
theorem key_any_mode (read : Scalar → Reading α) (members : List Scalar) (input : α) (st : VState α)
    (h : ∀ s ∈ members, ∀ v, read s ≠ .other v) (v : α) :
    (validateText .jsonKey true read members input st).1 = .ok v ↔
      (validateText .jsonKey false read members input st).1 = .ok v := by
  rw [union_picks, union_picks]
  have : members.filterMap (takes .jsonKey true read) = members.filterMap (takes .jsonKey false read) := by
    apply filterMap_same
    intro s hs
    unfold takes
    cases hr : read s with
    | no => cases s <;> rfl
    | direct v => cases s <;> rfl
    | other v => exact absurd hr (h s hs v)
  rw [this]

/-- **C119**, as far as it holds: in lax mode a value and a key are given to the same member if the members are str, bytes,
bool, int, float and complex. What is missing are decimals, dates, times and durations: see `date_as_key`. -/
theorem value_as_key_partial (read : Scalar → Reading α) (members : List Scalar) (input : α) (st : VState α)
    (h : ∀ s ∈ members, s ∈ [Scalar.str, .bytes, .bool, .int, .float, .complex]) (v : α) :
    (validateText .jsonValue false read members input st).1 = .ok v ↔
      (validateText .jsonKey false read members input st).1 = .ok v := by
  rw [union_picks, union_picks]
  have : members.filterMap (takes .jsonValue false read) = members.filterMap (takes .jsonKey false read) := by
    apply filterMap_same
    intro s hs
    have := h s hs
    unfold takes
    cases s <;> first | rfl | simp at this
  rw [this]

/-- A date as text: read by `date` as 1, and by `str` as 2. -/
def isoDate : Scalar → Reading Nat
  | .date => .direct 1
  | .datetime => .other 3
  | .str => .direct 2
  | .bytes => .direct 4
  | _ => .no

/-- The number 1 as text. -/
def one : Scalar → Reading Nat
  | .int => .direct 1
  | .str => .direct 2
  | .bool => .direct 5
  | _ => .no


/-- C119 fails: in `date | str` a date in JSON is a date as a value, and text as a key. -/
theorem date_as_key (input : Nat) (st : VState Nat) :
    (validateText .jsonValue false isoDate [.date, .str] input st).1 = .ok 1 ∧
    (validateText .strings false isoDate [.date, .str] input st).1 = .ok 1 ∧
    (validateText .jsonKey false isoDate [.date, .str] input st).1 = .ok 2 := by
  refine ⟨?_, ?_, ?_⟩ <;> rw [union_picks] <;> rfl

/-- C119 fails: in `int | str` the text `1` is an int in `validate_strings`, and text in JSON. -/
theorem int_in_strings (input : Nat) (st : VState Nat) :
    (validateText .strings false one [.int, .str] input st).1 = .ok 1 ∧
    (validateText .strings false one [.str, .int] input st).1 = .ok 2 ∧
    (validateText .jsonValue false one [.int, .str] input st).1 = .ok 2 ∧
    (validateText .jsonKey false one [.int, .str] input st).1 = .ok 2 := by
  refine ⟨?_, ?_, ?_, ?_⟩ <;> rw [union_picks] <;> rfl

/-- Strict mode takes a key for an int, and no value: `int` alone, the text `1`. -/
theorem strict_key_converted (input : Nat) (st : VState Nat) :
    (validateText .jsonKey true one [.int, .bool] input st).1 = .ok 1 ∧
    ∀ v, (validateText .jsonValue true one [.int, .bool] input st).1 ≠ .ok v := by
  constructor
  · rw [union_picks]; rfl
  · intro v
    rw [Ne, union_picks]
    intro h
    cases h

theorem not_same_everywhere (input : Nat) (st : VState Nat) : ¬ SameEverywhere (α := Nat) [.date, .str] := by
  intro h
  have := h .jsonValue .jsonKey isoDate input st 1 (date_as_key input st).1
  rw [(date_as_key input st).2.2] at this
  cases this

-- the hypotheses are met
example : (∀ s ∈ [Scalar.int, .str, .bool], ∀ v, one s ≠ .other v) ∧ Scalar.str ∈ [Scalar.date, .str] ∧
    isoDate .str = .direct 2 ∧
    (∀ s ∈ [Scalar.int, .str], s ∈ [Scalar.str, .bytes, .bool, .int, .float, .complex]) := by
  refine ⟨?_, by decide, rfl, by decide⟩
  intro s hs v
  cases s <;> simp_all [one]

-- a date is converted to a datetime only if nothing else takes it
example (input : Nat) (st : VState Nat) :
    (validateText .strings false isoDate [.datetime, .bytes, .str] input st).1 = .ok 4 ∧
    (validateText .strings false isoDate [.datetime, .int] input st).1 = .ok 3 := by
  refine ⟨?_, ?_⟩ <;> rw [union_picks] <;> rfl

end PC.TextUnion
