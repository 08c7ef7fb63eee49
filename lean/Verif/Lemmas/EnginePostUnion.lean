import Verif.Lemmas.EnginePostTuple
import Verif.Lemmas.EnginePostTyped

/-
Outcomes of union validators and of the combinators that pass an input on.
-/

namespace PC.Engine
open PC.Comb PC.Coll PC.Union PC.Fields PC.Lookup
variable {α : Type} {m : Option Bool} {C C' : α → Prop} {L L' : α → List LocItem → α → Prop}

/-- What is known of a union member. -/
structure MemberSpec (α : Type) where
  name : String
  label : Option String
  out : α → Prop
  errs : α → List LocItem → α → Prop

/-- A union member whose outcomes satisfy the specification. -/
structure ChoicePost (m : Option Bool) (c : Choice α) (s : MemberSpec α) : Prop where
  name : c.name = s.name
  label : c.label = s.label
  run : Post m s.out s.errs c.run

/-- The errors collected so far; `n` says that there are some. -/
def ErrorsOk (M : List LocItem → α → Prop) (ce : Option ErrType) (n : Bool) : MaybeErrors α → Prop
  | .custom t => ce = some t
  | .errors es => ce = none ∧ (n = true → es ≠ []) ∧
      ∀ c ∈ es, c.lines ≠ [] ∧ Errs M (c.lines.map (·.withOuterLocation (.s c.caseLabel)))

theorem ErrorsOk.push {M : List LocItem → α → Prop} {ce : Option ErrType} {n : Bool} {e : MaybeErrors α}
    (h : ErrorsOk M ce n e) (c : Choice α) {lines : List (LineError α)} (h1 : lines ≠ [])
    (h2 : Errs M (lines.map (·.withOuterLocation (.s (c.label.getD c.name))))) : ErrorsOk M ce true (e.push c lines) := by
  cases e with
  | custom t => exact h
  | errors es =>
    refine ⟨h.1, fun _ => by simp, fun x hx => ?_⟩
    rcases List.mem_append.mp hx with hx | hx
    · exact h.2.2 x hx
    · rw [List.mem_singleton] at hx
      subst hx
      exact ⟨h1, h2⟩

theorem ErrorsOk.weaken {M : List LocItem → α → Prop} {ce : Option ErrType} {n : Bool} {e : MaybeErrors α}
    (h : ErrorsOk M ce n e) : ErrorsOk M ce false e := by
  cases e with
  | custom t => exact h
  | errors es => exact ⟨h.1, fun h => (by cases h), h.2.2⟩

theorem ErrorsOk.out {M : List LocItem → α → Prop} {ce : Option ErrType} {n : Bool} {e : MaybeErrors α} {a : α}
    (h : ErrorsOk M ce n e) (hn : n = true ∨ ce ≠ none) (hhere : ce ≠ none → M [] a) :
    Out C M (.error (e.intoValError a)) := by
  cases e with
  | custom t =>
    have : ce = some t := h
    exact Out.new (hhere (by rw [this]; exact fun h => (by cases h)))
  | errors es =>
    obtain ⟨h1, h2, h3⟩ := h
    rcases hn with hn | hn
    · refine ⟨?_, ?_⟩
      · cases es with
        | nil => exact absurd rfl (h2 hn)
        | cons c es =>
          intro he
          rw [List.flatMap_cons] at he
          exact (h3 c (by simp)).1 (List.map_eq_nil_iff.mp (List.append_eq_nil_iff.mp he).1)
      · intro e he
        obtain ⟨c, hc, he⟩ := List.mem_flatMap.mp he
        exact (h3 c hc).2 e he
    · exact absurd h1 hn

theorem post_smartLoop (oldE : Option Exactness) (oldF : Option Nat) (a : α) (M : List LocItem → α → Prop)
    (ce : Option ErrType) :
    ∀ (cs : List (Choice α)) (ss : List (MemberSpec α)) (best : Option (Best α)) (errs : MaybeErrors α) (st : VState α)
      (n : Bool), All2 (ChoicePost m) cs ss →
      (∀ s ∈ ss, ∀ y, s.out y → C' y) →
      (ce = none → ∀ s ∈ ss, ∀ p z, s.errs a p z → M (.s (s.label.getD s.name) :: p) z) →
      Keeps m st → ErrorsOk M ce n errs → (best = none → cs = [] → n = true ∨ ce ≠ none) →
      (∀ b, best = some b → C' b.value) →
      match smartLoop oldE oldF a cs best errs st with
      | .returned r st1 => Keeps m st1 ∧ Out C' M r
      | .finished best errs st1 => Keeps m st1 ∧ (∀ b, best = some b → C' b.value) ∧
          (best = none → ∃ n, ErrorsOk M ce n errs ∧ (n = true ∨ ce ≠ none)) := by
  intro cs
  induction cs with
  | nil =>
    intro ss best errs st n _ _ _ hk he hn hb
    exact ⟨hk, hb, fun h => ⟨n, he, hn h rfl⟩⟩
  | cons c cs ih =>
    intro ss best errs st n h2 hC hM hk he hn hb
    cases h2 with
    | @cons _ s _ ss hc h2 =>
    have hC2 : ∀ s' ∈ ss, ∀ y, s'.out y → C' y := fun s' h => hC s' (by simp [h])
    have hM2 : ce = none → ∀ s' ∈ ss, ∀ p z, s'.errs a p z → M (.s (s'.label.getD s'.name) :: p) z :=
      fun h0 s' h => hM h0 s' (by simp [h])
    have hk0 : Keeps m ({ st with exactness := some .exact, fieldsSetCount := none } : VState α) := ⟨hk.1, hk.2⟩
    simp only [smartLoop]
    obtain ⟨k1, o1⟩ := hc.run a _ hk0
    generalize c.run a _ = r at k1 o1
    obtain ⟨r, st1⟩ := r
    dsimp only at k1 o1 ⊢
    have hbetter : ∀ v (newE : Exactness) (f : Option Nat), s.out v →
        match (if isBetter best newE f = true then smartLoop oldE oldF a cs (some ⟨v, newE, f⟩) errs st1
          else smartLoop oldE oldF a cs best errs st1) with
        | .returned r st1 => Keeps m st1 ∧ Out C' M r
        | .finished best errs st1 => Keeps m st1 ∧ (∀ b, best = some b → C' b.value) ∧
          (best = none → ∃ n, ErrorsOk M ce n errs ∧ (n = true ∨ ce ≠ none)) := by
      intro v newE f hv
      by_cases hbt : isBetter best newE f = true
      · rw [if_pos hbt]
        exact ih ss (some ⟨v, newE, f⟩) errs st1 n h2 hC2 hM2 k1 he (fun h => (by cases h))
          (fun b hb => (by cases hb; exact hC s (by simp) v hv))
      · rw [if_neg hbt]
        refine ih ss best errs st1 n h2 hC2 hM2 k1 he (fun h => ?_) hb
        rw [h] at hbt
        exact absurd rfl hbt
    match r, o1 with
    | .ok v, o1 =>
      dsimp only
      cases hx : st1.exactness with
      | none => exact hbetter v _ _ o1
      | some e =>
        cases e with
        | exact =>
          cases hf : st1.fieldsSetCount with
          | none => exact ⟨⟨k1.1, k1.2⟩, hC s (by simp) v o1⟩
          | some k => exact hbetter v _ _ o1
        | strict => exact hbetter v _ _ o1
        | lax => exact hbetter v _ _ o1
    | .error (.lineErrors es), o1 =>
      dsimp only
      cases hbn : best with
      | none =>
        simp only [Option.isNone_none, if_true]
        subst hbn
        by_cases hce : ce = none
        · have hp := he.push c o1.1 (Errs.outer o1.2 (fun p z h => by
            have := hM hce s (by simp) p z h
            rw [hc.label, hc.name]; exact this))
          exact ih ss none _ st1 true h2 hC2 hM2 k1 hp (fun _ _ => .inl rfl) hb
        · have hp : ErrorsOk M ce n (errs.push c es) := by
            cases errs with
            | custom t => exact he
            | errors es => exact absurd he.1 hce
          exact ih ss none _ st1 n h2 hC2 hM2 k1 hp (fun _ _ => .inr hce) hb
      | some b =>
        simp only [Option.isNone_some, Bool.false_eq_true, if_false]
        subst hbn
        exact ih ss (some b) errs st1 n h2 hC2 hM2 k1 he (fun h => (by cases h)) hb
    | .error (.internal e), _ => exact ⟨k1, trivial⟩

theorem ErrorsOk.new (M : List LocItem → α → Prop) (ce : Option ErrType) : ErrorsOk M ce false (.new ce) := by
  cases ce with
  | some t => exact rfl
  | none => exact ⟨rfl, fun h => (by cases h), fun c h => (by cases h)⟩

theorem post_smart (cs : List (Choice α)) (ss : List (MemberSpec α)) (ce : Option ErrType)
    (h2 : All2 (ChoicePost m) cs ss) (hne : cs ≠ [] ∨ ce ≠ none) (hC : ∀ s ∈ ss, ∀ y, s.out y → C' y)
    (hhere : ∀ a, ce ≠ none → L' a [] a)
    (hM : ce = none → ∀ s ∈ ss, ∀ a p z, s.errs a p z → L' a (.s (s.label.getD s.name) :: p) z) :
    Post m C' L' (validateSmart cs ce) := by
  intro a st hk
  simp only [validateSmart]
  have h := post_smartLoop (C' := C') st.exactness st.fieldsSetCount a (L' a) ce cs ss none (.new ce) st false h2 hC
    (fun h0 s hs => hM h0 s hs a) hk (ErrorsOk.new _ _)
    (fun _ h => hne.elim (fun h' => absurd h h') .inr) (fun b h => (by cases h))
  generalize smartLoop _ _ _ _ _ _ _ = r at h
  cases r with
  | returned r st1 => exact h
  | finished best errs st1 =>
    obtain ⟨h1, h3, h4⟩ := h
    dsimp only
    cases best with
    | none =>
      obtain ⟨n, g1, g2⟩ := h4 rfl
      exact ⟨⟨h1.1, h1.2⟩, g1.out g2 (hhere a)⟩
    | some b =>
      dsimp only
      have hk3 := Keeps.floor (m := m) (st := { st1 with exactness := st.exactness, fieldsSetCount := st.fieldsSetCount })
        ⟨h1.1, h1.2⟩ b.exactness
      refine ⟨?_, h3 b rfl⟩
      cases b.fieldsSet with
      | none => exact hk3
      | some n => exact ⟨hk3.1, hk3.2⟩

theorem post_leftLoop (a : α) (M : List LocItem → α → Prop) (ce : Option ErrType) (hhere : ce ≠ none → M [] a) :
    ∀ (cs : List (Choice α)) (ss : List (MemberSpec α)) (errs : MaybeErrors α) (st : VState α) (n : Bool),
      All2 (ChoicePost m) cs ss → (∀ s ∈ ss, ∀ y, s.out y → C' y) →
      (ce = none → ∀ s ∈ ss, ∀ p z, s.errs a p z → M (.s (s.label.getD s.name) :: p) z) →
      Keeps m st → ErrorsOk M ce n errs → (cs = [] → n = true ∨ ce ≠ none) →
      Keeps m (leftToRightLoop a cs errs st).2 ∧ Out C' M (leftToRightLoop a cs errs st).1 := by
  intro cs
  induction cs with
  | nil =>
    intro ss errs st n _ _ _ hk he hn
    exact ⟨hk, he.out (hn rfl) hhere⟩
  | cons c cs ih =>
    intro ss errs st n h2 hC hM hk he hn
    cases h2 with
    | @cons _ s _ ss hc h2 =>
    have hC2 : ∀ s' ∈ ss, ∀ y, s'.out y → C' y := fun s' h => hC s' (by simp [h])
    have hM2 : ce = none → ∀ s' ∈ ss, ∀ p z, s'.errs a p z → M (.s (s'.label.getD s'.name) :: p) z :=
      fun h0 s' h => hM h0 s' (by simp [h])
    simp only [leftToRightLoop]
    obtain ⟨k1, o1⟩ := hc.run a st hk
    generalize c.run a st = r at k1 o1
    obtain ⟨r, st1⟩ := r
    dsimp only at k1 o1 ⊢
    match r, o1 with
    | .ok v, o1 => exact ⟨k1, hC s (by simp) v o1⟩
    | .error (.lineErrors es), o1 =>
      dsimp only
      by_cases hce : ce = none
      · have hp := he.push c o1.1 (Errs.outer o1.2 (fun p z h => by
          have := hM hce s (by simp) p z h
          rw [hc.label, hc.name]; exact this))
        exact ih ss _ st1 true h2 hC2 hM2 k1 hp (fun _ => .inl rfl)
      · have hp : ErrorsOk M ce n (errs.push c es) := by
          cases errs with
          | custom t => exact he
          | errors es => exact absurd he.1 hce
        exact ih ss _ st1 n h2 hC2 hM2 k1 hp (fun _ => .inr hce)
    | .error (.internal e), _ => exact ⟨k1, trivial⟩

theorem post_leftToRight (cs : List (Choice α)) (ss : List (MemberSpec α)) (ce : Option ErrType)
    (h2 : All2 (ChoicePost m) cs ss) (hne : cs ≠ [] ∨ ce ≠ none) (hC : ∀ s ∈ ss, ∀ y, s.out y → C' y)
    (hhere : ∀ a, ce ≠ none → L' a [] a)
    (hM : ce = none → ∀ s ∈ ss, ∀ a p z, s.errs a p z → L' a (.s (s.label.getD s.name) :: p) z) :
    Post m C' L' (validateLeftToRight cs ce) := by
  intro a st hk
  exact post_leftLoop a (L' a) ce (hhere a) cs ss (.new ce) st false h2 hC (fun h0 s hs => hM h0 s hs a) hk
    (ErrorsOk.new _ _) (fun h => hne.elim (fun h' => absurd h h') .inr)

theorem post_customError (t : ErrType) {v : Validator α α} (h : Post m C L v) (hC : ∀ y, C y → C' y)
    (hhere : ∀ a, L' a [] a) : Post m C' L' (customError t v) := by
  intro a st hk
  simp only [customError]
  obtain ⟨k1, o1⟩ := h a st hk
  generalize v a st = r at k1 o1
  obtain ⟨r, st1⟩ := r
  dsimp only at k1 o1 ⊢
  cases r with
  | ok y => exact ⟨k1, hC y o1⟩
  | error e => exact ⟨k1, Out.new (hhere a)⟩

theorem post_laxOrStrict (strict : Bool) {lax strictV : Validator α α} {Cs : α → Prop}
    {Ls : α → List LocItem → α → Prop} (hl : Post m C L lax) (hs : Post m Cs Ls strictV)
    (hCl : m.getD strict = false → ∀ y, C y → C' y) (hCs : ∀ y, Cs y → C' y)
    (hLl : m.getD strict = false → ∀ a p z, L a p z → L' a p z) (hLs : ∀ a p z, Ls a p z → L' a p z) :
    Post m C' L' (laxOrStrict strict lax strictV) := by
  intro a st hk
  have hso : st.strictOr strict = m.getD strict := by simp only [VState.strictOr, hk.strict]
  simp only [laxOrStrict, hso]
  by_cases hb : m.getD strict = true
  · rw [if_pos hb]
    exact ⟨(hs a st hk).1, (hs a st hk).2.imp hCs (hLs a)⟩
  · rw [if_neg hb]
    have hb : m.getD strict = false := by simpa using hb
    by_cases hx : st.exactness.isSome = true
    · rw [if_pos hx]
      obtain ⟨k1, o1⟩ := hs a st hk
      generalize strictV a st = r at k1 o1
      obtain ⟨r, st1⟩ := r
      dsimp only at k1 o1 ⊢
      cases r with
      | ok y => exact ⟨k1, hCs y o1⟩
      | error e =>
        have := hl a _ (k1.floor .lax)
        exact ⟨this.1, this.2.imp (hCl hb) (hLl hb a)⟩
    · rw [if_neg hx]
      exact ⟨(hl a st hk).1, (hl a st hk).2.imp (hCl hb) (hLl hb a)⟩

theorem post_withDefault (dflt : Option α) {v : Validator α α} (h : Post m C L v) : Post m C L (withDefault dflt v) := by
  intro a st hk
  simp only [withDefault]
  obtain ⟨k1, o1⟩ := h a st hk
  generalize v a st = r at k1 o1
  obtain ⟨r, st1⟩ := r
  dsimp only at k1 o1 ⊢
  match r, o1, dflt with
  | .ok y, o1, none => exact ⟨k1, o1⟩
  | .ok y, o1, some _ => exact ⟨k1, o1⟩
  | .error (.lineErrors es), o1, none => exact ⟨k1, o1⟩
  | .error (.lineErrors es), o1, some _ => exact ⟨k1, o1⟩
  | .error (.internal e), o1, none => exact ⟨k1, trivial⟩
  | .error (.internal e), o1, some _ => exact ⟨k1, trivial⟩

theorem post_definitionRef (E : Env α) (name : Nat) {v : Validator α α} (h : Post m C L v) (hC : ∀ y, C y → C' y)
    (hL : ∀ a p z, L a p z → L' a p z) (hhere : ∀ a, L' a [] a) (hpanic : ∀ a, Out C' (L' a) E.panic) :
    Post m C' L' (definitionRef E name v) := by
  intro a st hk
  simp only [definitionRef]
  have hk0 : Keeps m ({ st with allowPartial := .ofBool false } : VState α) := ⟨hk.1, rfl⟩
  cases E.world.identity a with
  | none => exact ⟨(h a _ hk0).1, (h a _ hk0).2.imp hC (hL a)⟩
  | some id =>
    dsimp only
    generalize Guard.enter _ _ _ = g
    obtain ⟨g0, g⟩ := g
    cases g0 with
    | error e => exact ⟨⟨hk.1, rfl⟩, Out.new (hhere a)⟩
    | ok u =>
      dsimp only
      have hk1 : Keeps m ({ st with allowPartial := .ofBool false, guard := g } : VState α) := ⟨hk.1, rfl⟩
      obtain ⟨k1, o1⟩ := h a _ hk1
      generalize v a _ = r at k1 o1
      obtain ⟨r, st1⟩ := r
      dsimp only at k1 o1 ⊢
      cases Guard.leave st1.guard (id, name) with
      | none => exact ⟨k1, hpanic a⟩
      | some g' => exact ⟨⟨k1.1, k1.2⟩, o1.imp hC (hL a)⟩

end PC.Engine
