import Verif.Model.Union

/-
Properties of union validation (C01, C02, C03, C04).
-/

namespace PC.Union
variable {α : Type}

/-! ## Specification vocabulary -/

/-- What one member of the union does with the input: its outcome and, on success, how exact
the match was and how many model fields it set (`none`: no model involved). -/
structure Attempt (α : Type) where
  outcome : ValResult α α
  exactness : Option Exactness
  fieldsSet : Option Nat

/-- A member tried on a fresh exactness record. -/
def fresh (st : VState α) : VState α := { st with exactness := some .exact, fieldsSetCount := none }

def attemptOf (input : α) (st : VState α) (c : Choice α) : Attempt α :=
  let r := c.run input (fresh st)
  ⟨r.1, r.2.exactness, r.2.fieldsSetCount⟩

/-- All members tried one after the other, each on a fresh exactness record. -/
def attempts (input : α) : List (Choice α) → VState α → List (Attempt α)
  | [], _ => []
  | c :: cs, st => attemptOf input st c :: attempts input cs (c.run input (fresh st)).2

namespace Attempt

def Succeeds (a : Attempt α) : Prop := ∃ v, a.outcome = .ok v

/-- Ended with a value or with ordinary validation errors (not an exception, an omitted value
or a request for the default). -/
def Ordinary (a : Attempt α) : Prop :=
  (∃ v, a.outcome = .ok v) ∨ ∃ ls, a.outcome = .error (.lineErrors ls)

/-- The documented preference: more fields set first, then exactness. -/
def score (a : Attempt α) : Nat × Nat := (a.fieldsSet.getD 0, (a.exactness.getD .lax).rank)

end Attempt

/-- Lexicographic order on scores. -/
def Below (x y : Nat × Nat) : Prop := x.1 < y.1 ∨ (x.1 = y.1 ∧ x.2 < y.2)

def NotAbove (x y : Nat × Nat) : Prop := x = y ∨ Below x y

/-! ## Helper lemmas -/

private def Best.score (b : Best α) : Nat × Nat := (b.fieldsSet.getD 0, b.exactness.rank)

private theorem isBetter_iff (b : Best α) (e : Exactness) (f : Option Nat)
    (h : b.fieldsSet.isSome = f.isSome) :
    isBetter (some b) e f = true ↔ Below b.score (f.getD 0, e.rank) := by
  rcases b with ⟨v, be, bf⟩
  cases bf <;> cases f <;> simp_all [isBetter, Best.score, Below]
  split <;> omega

private theorem below_trans {x y z : Nat × Nat} (h1 : Below x y) (h2 : Below y z) : Below x z := by
  unfold Below at *; omega

private theorem notAbove_below {x y z : Nat × Nat} (h1 : NotAbove x y) (h2 : Below y z) :
    Below x z := by
  rcases h1 with rfl | h1
  · exact h2
  · exact below_trans h1 h2

private theorem below_notAbove {x y z : Nat × Nat} (h1 : Below x y) (h2 : NotAbove y z) :
    Below x z := by
  rcases h2 with rfl | h2
  · exact h1
  · exact below_trans h1 h2

private theorem not_below_iff {x y : Nat × Nat} : ¬ Below x y ↔ NotAbove y x := by
  unfold NotAbove Below
  constructor
  · intro h
    by_cases h2 : y = x
    · exact .inl h2
    · right
      have : ¬ (y.1 = x.1 ∧ y.2 = x.2) := fun ⟨a, b⟩ => h2 (Prod.ext a b)
      omega
  · rintro (rfl | h) <;> omega

private theorem rank_le (e : Exactness) : e.rank ≤ 2 := by cases e <;> decide

private theorem rank_lt_of_ne {e : Exactness} (h : e ≠ .exact) : e.rank < 2 := by
  cases e <;> simp_all [Exactness.rank]

/-- How the loop continues in each case. -/
private theorem smartLoop_cons (oldE : Option Exactness) (oldF : Option Nat) (input : α)
    (c : Choice α) (cs : List (Choice α)) (best : Option (Best α)) (m : MaybeErrors α)
    (st : VState α) :
    smartLoop oldE oldF input (c :: cs) best m st =
      (let a := attemptOf input st c
       let st1 := (c.run input (fresh st)).2
       match a.outcome with
       | .ok v =>
         if a.exactness = some .exact ∧ a.fieldsSet = none then
           .returned (.ok v) { st1 with exactness := oldE, fieldsSetCount := oldF }
         else if isBetter best (a.exactness.getD .lax) a.fieldsSet then
           smartLoop oldE oldF input cs (some ⟨v, a.exactness.getD .lax, a.fieldsSet⟩) m st1
         else smartLoop oldE oldF input cs best m st1
       | .error (.lineErrors lines) =>
         smartLoop oldE oldF input cs best (if best.isNone then m.push c lines else m) st1
       | .error e => .returned (.error e) st1) := by
  rw [smartLoop]
  delta attemptOf fresh
  dsimp only
  cases h : (c.run input { st with exactness := some .exact, fieldsSetCount := none }).1 with
  | ok v =>
    simp only
    split
    · next h1 h2 => simp [h1, h2]
    · next h1 =>
      split
      · next hb => rw [if_neg (fun hh => h1 hh.1 hh.2)]
      · next hb => rw [if_neg (fun hh => h1 hh.1 hh.2)]
  | error e => cases e <;> rfl

/-- Everything the main theorems need about the loop when the scores are comparable. -/
private theorem loop_best (oldE : Option Exactness) (oldF : Option Nat) (input : α) (U : Bool) :
    ∀ (cs : List (Choice α)) (best : Option (Best α)) (m : MaybeErrors α) (st : VState α),
      (∀ a ∈ attempts input cs st, a.Ordinary) →
      (∀ a ∈ attempts input cs st, a.Succeeds → a.fieldsSet.isSome = U) →
      (∀ b, best = some b → b.fieldsSet.isSome = U ∧
        ¬ (b.exactness = .exact ∧ b.fieldsSet = none)) →
      match smartLoop oldE oldF input cs best m st with
      | .returned r _ => ∃ pre a post v, attempts input cs st = pre ++ a :: post ∧
          a.outcome = .ok v ∧ r = .ok v ∧ (a.exactness = some .exact ∧ a.fieldsSet = none) ∧
          (∀ x ∈ pre, x.Succeeds → Below x.score a.score) ∧
          (∀ x ∈ post, x.Succeeds → NotAbove x.score a.score)
      | .finished none _ _ => best = none ∧ ∀ a ∈ attempts input cs st, ¬ a.Succeeds
      | .finished (some b) _ _ =>
          (best = some b ∧ ∀ x ∈ attempts input cs st, x.Succeeds → NotAbove x.score b.score) ∨
          (∃ pre a post, attempts input cs st = pre ++ a :: post ∧
            a.outcome = .ok b.value ∧ a.score = b.score ∧
            (∀ b', best = some b' → Below b'.score b.score) ∧
            (∀ x ∈ pre, x.Succeeds → Below x.score a.score) ∧
            (∀ x ∈ post, x.Succeeds → NotAbove x.score a.score)) := by
  have hbelow : ∀ x a' : Attempt α, x.fieldsSet.isSome = U →
      ¬ (x.exactness = some .exact ∧ x.fieldsSet = none) →
      (a'.exactness = some .exact ∧ a'.fieldsSet = none) → a'.fieldsSet.isSome = U →
      Below x.score a'.score := by
    intro x a' h1 h2 h3 h4
    have hf : x.fieldsSet = none := by
      rw [h3.2] at h4; simp at h4; subst h4; simpa using h1
    have hne : x.exactness.getD .lax ≠ .exact := by
      intro h; apply h2; refine ⟨?_, hf⟩
      cases hxe : x.exactness with
      | none => simp [hxe] at h
      | some e => simp [hxe] at h; simp [h]
    have := rank_lt_of_ne hne
    right
    exact ⟨by simp [Attempt.score, hf, h3.2], by simpa [Attempt.score, h3.1, Exactness.rank] using this⟩
  intro cs
  induction cs with
  | nil =>
    intro best m st _ _ _
    cases best <;> simp [smartLoop, attempts]
  | cons c cs ih =>
    intro best m st hord hU hbest
    rw [smartLoop_cons]
    simp only [attempts] at hord hU ⊢
    generalize hst1 : (c.run input (fresh st)).2 = st1 at *
    generalize ha : attemptOf input st c = a at *
    have hordt : ∀ x ∈ attempts input cs st1, x.Ordinary :=
      fun x hx => hord x (List.mem_cons_of_mem _ hx)
    have hUt : ∀ x ∈ attempts input cs st1, x.Succeeds → x.fieldsSet.isSome = U :=
      fun x hx => hU x (List.mem_cons_of_mem _ hx)
    have horda := hord a List.mem_cons_self
    cases ho : a.outcome with
    | ok v =>
      have hsucc : a.Succeeds := ⟨v, ho⟩
      have hUa := hU a List.mem_cons_self hsucc
      simp only
      by_cases hex : a.exactness = some .exact ∧ a.fieldsSet = none
      · rw [if_pos hex]
        refine ⟨[], a, attempts input cs st1, v, rfl, ho, rfl, hex, by simp, ?_⟩
        intro x hx hxs
        have hxU := hUt x hx hxs
        have hf : x.fieldsSet = none := by
          rw [hex.2] at hUa; simp at hUa; subst hUa; simpa using hxU
        have := rank_le (x.exactness.getD .lax)
        rw [← not_below_iff]
        simp only [Attempt.score, hex.1, hex.2, hf, Below]
        have h2 : ((some Exactness.exact).getD .lax).rank = 2 := rfl
        omega
      · rw [if_neg hex]
        by_cases hb : isBetter best (a.exactness.getD .lax) a.fieldsSet = true
        · rw [if_pos hb]
          have hnb : ∀ b, some (⟨v, a.exactness.getD .lax, a.fieldsSet⟩ : Best α) = some b →
              b.fieldsSet.isSome = U ∧ ¬ (b.exactness = .exact ∧ b.fieldsSet = none) := by
            intro b hb'
            cases hb'
            refine ⟨hUa, fun ⟨h1, h2⟩ => hex ⟨?_, h2⟩⟩
            cases hae : a.exactness with
            | none => simp [hae] at h1
            | some e => simp [hae] at h1; simp [h1]
          have hscore : Best.score (⟨v, a.exactness.getD .lax, a.fieldsSet⟩ : Best α) = a.score :=
            rfl
          have hbb : ∀ b', best = some b' → Below b'.score a.score := by
            intro b' hb'
            subst hb'
            exact (isBetter_iff b' _ _ (by rw [(hbest b' rfl).1, hUa])).1 hb
          have h := ih (some ⟨v, a.exactness.getD .lax, a.fieldsSet⟩) m st1 hordt hUt hnb
          split at h
          · next r st2 heq =>
            obtain ⟨pre, a', post, v', h1, h2, h3, he, h4, h5⟩ := h
            refine ⟨a :: pre, a', post, v', by rw [h1]; rfl, h2, h3, he, ?_, h5⟩
            intro x hx hxs
            rcases List.mem_cons.1 hx with rfl | hx
            · exact hbelow x a' hUa hex he (hUt a' (by simp [h1]) ⟨v', h2⟩)
            · exact h4 x hx hxs
          · next heq => exact absurd h.1 (by simp)
          · next b m2 st2 heq =>
            right
            rcases h with ⟨h1, h2⟩ | ⟨pre, a', post, h1, h2, h3, h4, h5, h6⟩
            · cases h1
              exact ⟨[], a, attempts input cs st1, rfl, ho, rfl, hbb, by simp, h2⟩
            · refine ⟨a :: pre, a', post, by rw [h1]; rfl, h2, h3, ?_, ?_, h6⟩
              · intro b' hb'
                exact below_trans (hbb b' hb') (h4 _ rfl)
              · intro x hx hxs
                rcases List.mem_cons.1 hx with rfl | hx
                · rw [h3]; exact h4 _ rfl
                · exact h5 x hx hxs
        · rw [if_neg hb]
          cases best with
          | none => exact absurd rfl hb
          | some b0 =>
          have hna : NotAbove a.score b0.score := by
            rw [← not_below_iff]
            intro hlt
            exact hb ((isBetter_iff b0 _ _ (by rw [(hbest b0 rfl).1, hUa])).2 hlt)
          have h := ih (some b0) m st1 hordt hUt hbest
          split at h
          · next r st2 heq =>
            obtain ⟨pre, a', post, v', h1, h2, h3, he, h4, h5⟩ := h
            refine ⟨a :: pre, a', post, v', by rw [h1]; rfl, h2, h3, he, ?_, h5⟩
            intro x hx hxs
            rcases List.mem_cons.1 hx with rfl | hx
            · exact hbelow x a' hUa hex he (hUt a' (by simp [h1]) ⟨v', h2⟩)
            · exact h4 x hx hxs
          · next heq => exact absurd h.1 (by simp)
          · next b m2 st2 heq =>
            rcases h with ⟨h1, h2⟩ | ⟨pre, a', post, h1, h2, h3, h4, h5, h6⟩
            · left
              refine ⟨h1, ?_⟩
              cases h1
              intro x hx hxs
              rcases List.mem_cons.1 hx with rfl | hx
              · exact hna
              · exact h2 x hx hxs
            · right
              refine ⟨a :: pre, a', post, by rw [h1]; rfl, h2, h3, h4, ?_, h6⟩
              intro x hx hxs
              rcases List.mem_cons.1 hx with rfl | hx
              · rw [h3]; exact notAbove_below hna (h4 _ rfl)
              · exact h5 x hx hxs
    | error e =>
      have hns : ¬ a.Succeeds := by rintro ⟨v, hv⟩; rw [ho] at hv; cases hv
      cases e with
      | lineErrors ls =>
        simp only
        have h := ih best (if best.isNone then m.push c ls else m) st1 hordt hUt hbest
        split at h
        · next r st2 heq =>
          obtain ⟨pre, a', post, v', h1, h2, h3, he, h4, h5⟩ := h
          refine ⟨a :: pre, a', post, v', by rw [h1]; rfl, h2, h3, he, ?_, h5⟩
          intro x hx hxs
          rcases List.mem_cons.1 hx with rfl | hx
          · exact absurd hxs hns
          · exact h4 x hx hxs
        · next heq =>
          refine ⟨h.1, ?_⟩
          intro x hx
          rcases List.mem_cons.1 hx with rfl | hx
          · exact hns
          · exact h.2 x hx
        · next b m2 st2 heq =>
          rcases h with ⟨h1, h2⟩ | ⟨pre, a', post, h1, h2, h3, h4, h5, h6⟩
          · left
            refine ⟨h1, ?_⟩
            intro x hx hxs
            rcases List.mem_cons.1 hx with rfl | hx
            · exact absurd hxs hns
            · exact h2 x hx hxs
          · right
            refine ⟨a :: pre, a', post, by rw [h1]; rfl, h2, h3, h4, ?_, h6⟩
            intro x hx hxs
            rcases List.mem_cons.1 hx with rfl | hx
            · exact absurd hxs hns
            · exact h5 x hx hxs
      | internal e => rcases horda with ⟨v, hv⟩ | ⟨ls, hv⟩ <;> rw [ho] at hv <;> cases hv
      | omitted => rcases horda with ⟨v, hv⟩ | ⟨ls, hv⟩ <;> rw [ho] at hv <;> cases hv
      | useDefault => rcases horda with ⟨v, hv⟩ | ⟨ls, hv⟩ <;> rw [ho] at hv <;> cases hv

/-! ## C01: smart mode -/

/-- **C01** (choice of the member).  If every member ends with a value or with ordinary
validation errors, at least one accepts the input, and the accepting members are comparable
(all of them report a number of fields set, or none does), then the union returns the output of
the member with the lexicographically greatest (fields set, exactness), the earliest such member
on a tie.

Full claim: the same without the comparability hypothesis; `smart_union_mixed_not_best` shows
that the code does not have that property. -/
theorem smart_union_best_partial (choices : List (Choice α)) (ce : Option ErrType) (input : α)
    (st : VState α)
    (hord : ∀ a ∈ attempts input choices st, a.Ordinary)
    (hcmp : (∀ a ∈ attempts input choices st, a.Succeeds → a.fieldsSet ≠ none) ∨
      (∀ a ∈ attempts input choices st, a.Succeeds → a.fieldsSet = none))
    (hsome : ∃ a ∈ attempts input choices st, a.Succeeds) :
    ∃ pre winner post v, attempts input choices st = pre ++ winner :: post ∧
      winner.outcome = .ok v ∧ (validateSmart choices ce input st).1 = .ok v ∧
      (∀ x ∈ pre, x.Succeeds → Below x.score winner.score) ∧
      (∀ x ∈ post, x.Succeeds → NotAbove x.score winner.score) := by
  have hU : ∃ U, ∀ a ∈ attempts input choices st, a.Succeeds → a.fieldsSet.isSome = U := by
    rcases hcmp with h | h
    · exact ⟨true, fun a ha hs => by simpa [Option.isSome_iff_ne_none] using h a ha hs⟩
    · exact ⟨false, fun a ha hs => by simp [h a ha hs]⟩
  obtain ⟨U, hU⟩ := hU
  have h := loop_best st.exactness st.fieldsSetCount input U choices none (.new ce) st hord hU
    (by simp)
  unfold validateSmart
  split at h
  · next r st1 heq =>
    obtain ⟨pre, a, post, v, h1, h2, h3, _, h4, h5⟩ := h
    exact ⟨pre, a, post, v, h1, h2, by simp [heq, h3], h4, h5⟩
  · next heq =>
    obtain ⟨a, ha, hs⟩ := hsome
    exact absurd hs (h.2 a ha)
  · next b m st1 heq =>
    rcases h with ⟨h, _⟩ | ⟨pre, a, post, h1, h2, h3, _, h5, h6⟩
    · cases h
    · exact ⟨pre, a, post, b.value, h1, h2, by simp [heq], h5, h6⟩

private theorem loop_sound (oldE : Option Exactness) (oldF : Option Nat) (input : α) :
    ∀ (cs : List (Choice α)) (best : Option (Best α)) (m : MaybeErrors α) (st : VState α),
      match smartLoop oldE oldF input cs best m st with
      | .returned r _ => (∃ a ∈ attempts input cs st, a.outcome = r) ∧
          ∀ ls, r ≠ .error (.lineErrors ls)
      | .finished none _ _ => best = none ∧
          ∀ a ∈ attempts input cs st, ∃ ls, a.outcome = .error (.lineErrors ls)
      | .finished (some b) _ _ =>
          (∀ a ∈ attempts input cs st, a.Ordinary) ∧
          (best = some b ∨ ∃ a ∈ attempts input cs st, a.outcome = .ok b.value) := by
  intro cs
  induction cs with
  | nil =>
    intro best m st
    cases best <;> simp [smartLoop, attempts]
  | cons c cs ih =>
    intro best m st
    rw [smartLoop_cons]
    simp only [attempts]
    generalize hst1 : (c.run input (fresh st)).2 = st1 at *
    generalize ha : attemptOf input st c = a at *
    cases ho : a.outcome with
    | ok v =>
      simp only
      by_cases hex : a.exactness = some .exact ∧ a.fieldsSet = none
      · rw [if_pos hex]
        exact ⟨⟨a, List.mem_cons_self, ho⟩, by simp⟩
      · rw [if_neg hex]
        by_cases hb : isBetter best (a.exactness.getD .lax) a.fieldsSet = true
        · rw [if_pos hb]
          have h := ih (some ⟨v, a.exactness.getD .lax, a.fieldsSet⟩) m st1
          split at h
          · exact ⟨by obtain ⟨x, hx, hx'⟩ := h.1; exact ⟨x, List.mem_cons_of_mem _ hx, hx'⟩, h.2⟩
          · exact absurd h.1 (by simp)
          · refine ⟨List.forall_mem_cons.2 ⟨.inl ⟨v, ho⟩, h.1⟩, .inr ?_⟩
            rcases h.2 with h | ⟨x, hx, hx'⟩
            · cases h; exact ⟨a, List.mem_cons_self, ho⟩
            · exact ⟨x, List.mem_cons_of_mem _ hx, hx'⟩
        · rw [if_neg hb]
          have h := ih best m st1
          split at h
          · exact ⟨by obtain ⟨x, hx, hx'⟩ := h.1; exact ⟨x, List.mem_cons_of_mem _ hx, hx'⟩, h.2⟩
          · rw [h.1] at hb; exact absurd rfl hb
          · refine ⟨List.forall_mem_cons.2 ⟨.inl ⟨v, ho⟩, h.1⟩, ?_⟩
            rcases h.2 with h | ⟨x, hx, hx'⟩
            · exact .inl h
            · exact .inr ⟨x, List.mem_cons_of_mem _ hx, hx'⟩
    | error e =>
      cases e with
      | lineErrors ls =>
        simp only
        have h := ih best (if best.isNone then m.push c ls else m) st1
        split at h
        · next heq =>
          exact ⟨by obtain ⟨x, hx, hx'⟩ := h.1; exact ⟨x, List.mem_cons_of_mem _ hx, hx'⟩, h.2⟩
        · exact ⟨h.1, List.forall_mem_cons.2 ⟨⟨ls, ho⟩, h.2⟩⟩
        · refine ⟨List.forall_mem_cons.2 ⟨.inr ⟨ls, ho⟩, h.1⟩, ?_⟩
          rcases h.2 with h | ⟨x, hx, hx'⟩
          · exact .inl h
          · exact .inr ⟨x, List.mem_cons_of_mem _ hx, hx'⟩
      | internal e => exact ⟨⟨a, List.mem_cons_self, ho⟩, by simp⟩
      | omitted => exact ⟨⟨a, List.mem_cons_self, ho⟩, by simp⟩
      | useDefault => exact ⟨⟨a, List.mem_cons_self, ho⟩, by simp⟩

/-- **C01** (soundness, no hypotheses).  Whatever value a smart union returns is the output of
one of its members on this very input. -/
theorem smart_union_sound (choices : List (Choice α)) (ce : Option ErrType) (input : α)
    (st : VState α) (v : α) (h : (validateSmart choices ce input st).1 = .ok v) :
    ∃ a ∈ attempts input choices st, a.outcome = .ok v := by
  have hl := loop_sound st.exactness st.fieldsSetCount input choices none (.new ce) st
  unfold validateSmart at h
  split at hl
  · next heq =>
    simp only [heq] at h
    obtain ⟨⟨a, ha, h1⟩, _⟩ := hl; exact ⟨a, ha, by rw [h1, h]⟩
  · next heq => simp only [heq] at h; cases h
  · next heq =>
    simp only [heq] at h
    cases h
    rcases hl.2 with h | h
    · cases h
    · exact h

/-- **C01** (completeness).  A smart union all of whose members end in a value or in ordinary
validation errors fails exactly when every member fails. -/
theorem smart_union_accepts_iff (choices : List (Choice α)) (ce : Option ErrType) (input : α)
    (st : VState α) (hord : ∀ a ∈ attempts input choices st, a.Ordinary) :
    (∃ v, (validateSmart choices ce input st).1 = .ok v) ↔
      ∃ a ∈ attempts input choices st, a.Succeeds := by
  constructor
  · rintro ⟨v, h⟩
    obtain ⟨a, ha, h⟩ := smart_union_sound choices ce input st v h
    exact ⟨a, ha, v, h⟩
  · rintro ⟨a, ha, hs⟩
    have hl := loop_sound st.exactness st.fieldsSetCount input choices none (.new ce) st
    unfold validateSmart
    split at hl
    · next r st1 heq =>
      simp only [heq]
      obtain ⟨⟨x, hx, h1⟩, h2⟩ := hl
      rcases hord x hx with ⟨v, hv⟩ | ⟨ls, hv⟩
      · exact ⟨v, by rw [← h1, hv]⟩
      · exact absurd (by rw [← h1, hv]) (h2 ls)
    · next heq =>
      obtain ⟨ls, h⟩ := hl.2 a ha
      obtain ⟨v, hv⟩ := hs
      rw [hv] at h; cases h
    · next b m st1 heq => exact ⟨b.value, by simp [heq]⟩

/-- **C01** (exact scalar match).  In every union, mixed or not: if no member before it ended
exceptionally or in an exact match without fields, an exact match without fields is returned. -/
theorem smart_union_first_exact_wins (choices : List (Choice α)) (ce : Option ErrType) (input : α)
    (st : VState α) (pre post : List (Attempt α)) (a : Attempt α) (v : α)
    (hsplit : attempts input choices st = pre ++ a :: post)
    (hpre : ∀ x ∈ pre, x.Ordinary ∧
      (x.Succeeds → ¬ (x.exactness = some .exact ∧ x.fieldsSet = none)))
    (ha : a.outcome = .ok v) (hex : a.exactness = some .exact) (hf : a.fieldsSet = none) :
    (validateSmart choices ce input st).1 = .ok v := by
  have key : ∀ (cs : List (Choice α)) (best : Option (Best α)) (m : MaybeErrors α)
      (st0 : VState α) (pre : List (Attempt α)), attempts input cs st0 = pre ++ a :: post →
      (∀ x ∈ pre, x.Ordinary ∧
        (x.Succeeds → ¬ (x.exactness = some .exact ∧ x.fieldsSet = none))) →
      ∃ st2, smartLoop st.exactness st.fieldsSetCount input cs best m st0 =
        .returned (.ok v) st2 := by
    intro cs
    induction cs with
    | nil => intro best m st0 pre h; simp [attempts] at h
    | cons c cs ih =>
      intro best m st0 pre h hpre
      rw [smartLoop_cons]
      rw [attempts] at h
      cases pre with
      | nil =>
        simp only [List.nil_append, List.cons.injEq] at h
        rw [h.1]
        simp only [ha, hex, hf, and_self, if_true]
        exact ⟨_, rfl⟩
      | cons p pre =>
        simp only [List.cons_append, List.cons.injEq] at h
        have hp := hpre p List.mem_cons_self
        have hpre' := fun x hx => hpre x (List.mem_cons_of_mem _ hx)
        rw [h.1]
        simp only
        rcases hp.1 with ⟨w, hw⟩ | ⟨ls, hw⟩
        · simp only [hw]
          rw [if_neg (hp.2 ⟨w, hw⟩)]
          split <;> exact ih _ _ _ _ h.2 hpre'
        · simp only [hw]
          exact ih _ _ _ _ h.2 hpre'
  obtain ⟨st2, h⟩ := key choices none (.new ce) st pre hsplit hpre
  simp [validateSmart, h]

/-- A member that ends exceptionally (Python exception, omit, use-default) ends the union with
that same outcome, unless an earlier member was an exact match without fields. -/
theorem smart_union_propagates (choices : List (Choice α)) (ce : Option ErrType) (input : α)
    (st : VState α) (pre post : List (Attempt α)) (a : Attempt α) (e : ValError α)
    (hsplit : attempts input choices st = pre ++ a :: post)
    (hpre : ∀ x ∈ pre, x.Ordinary ∧
      (x.Succeeds → ¬ (x.exactness = some .exact ∧ x.fieldsSet = none)))
    (ha : a.outcome = .error e) (hne : ∀ ls, e ≠ .lineErrors ls) :
    (validateSmart choices ce input st).1 = .error e := by
  have key : ∀ (cs : List (Choice α)) (best : Option (Best α)) (m : MaybeErrors α)
      (st0 : VState α) (pre : List (Attempt α)), attempts input cs st0 = pre ++ a :: post →
      (∀ x ∈ pre, x.Ordinary ∧
        (x.Succeeds → ¬ (x.exactness = some .exact ∧ x.fieldsSet = none))) →
      ∃ st2, smartLoop st.exactness st.fieldsSetCount input cs best m st0 =
        .returned (.error e) st2 := by
    intro cs
    induction cs with
    | nil => intro best m st0 pre h; simp [attempts] at h
    | cons c cs ih =>
      intro best m st0 pre h hpre
      rw [smartLoop_cons]
      rw [attempts] at h
      cases pre with
      | nil =>
        simp only [List.nil_append, List.cons.injEq] at h
        rw [h.1]
        simp only [ha]
        cases e with
        | lineErrors ls => exact absurd rfl (hne ls)
        | internal e => exact ⟨_, rfl⟩
        | omitted => exact ⟨_, rfl⟩
        | useDefault => exact ⟨_, rfl⟩
      | cons p pre =>
        simp only [List.cons_append, List.cons.injEq] at h
        have hp := hpre p List.mem_cons_self
        have hpre' := fun x hx => hpre x (List.mem_cons_of_mem _ hx)
        rw [h.1]
        simp only
        rcases hp.1 with ⟨w, hw⟩ | ⟨ls, hw⟩
        · simp only [hw]
          rw [if_neg (hp.2 ⟨w, hw⟩)]
          split <;> exact ih _ _ _ _ h.2 hpre'
        · simp only [hw]
          exact ih _ _ _ _ h.2 hpre'
  obtain ⟨st2, h⟩ := key choices none (.new ce) st pre hsplit hpre
  simp [validateSmart, h]

/-- The members' attempts are independent of one another, hence of their order, when members
give back the recursion guard, partial mode and options as they found them and do not look at
the exactness record they are given (which the union resets anyway). -/
theorem attempts_independent (input : α) (choices : List (Choice α)) (st : VState α)
    (h : ∀ c ∈ choices, ∀ s, fresh (c.run input s).2 = fresh s) :
    attempts input choices st = choices.map (attemptOf input st) := by
  have key : ∀ (cs : List (Choice α)) (s : VState α), (∀ c ∈ cs, c ∈ choices) →
      fresh s = fresh st → attempts input cs s = cs.map (attemptOf input st) := by
    intro cs
    induction cs with
    | nil => intros; rfl
    | cons c cs ih =>
      intro s hc hs
      rw [attempts, List.map_cons]
      congr 1
      · simp [attemptOf, hs]
      · refine ih _ (fun c' hc' => hc c' (List.mem_cons_of_mem _ hc')) ?_
        rw [h c (hc c List.mem_cons_self), ← hs]
        rfl
  exact key choices st (fun _ h => h) rfl

/-! ### Concrete members for examples and counterexamples -/

/-- A member that accepts with `v`, reporting exactness `e` and `f` fields set. -/
def accepting (name : String) (v : String) (e : Exactness) (f : Option Nat) : Choice String where
  name := name
  label := none
  run := fun _ st => (.ok v, { st with exactness := some e, fieldsSetCount := f })

/-- A member that rejects. -/
def rejecting (name : String) (t : ErrType) : Choice String where
  name := name
  label := none
  run := fun i st => (.error (ValError.newWithLoc t i (.i 3)), st)

def st0 : VState String := VState.new {} Guard.State.init .off

example : ∃ pre winner post v,
    attempts "x" [rejecting "a" .missing, accepting "m" "M" .lax (some 2),
      accepting "n" "N" .exact (some 1), accepting "o" "O" .strict (some 2)] st0 =
        pre ++ winner :: post ∧ winner.outcome = .ok v ∧
    (validateSmart [rejecting "a" .missing, accepting "m" "M" .lax (some 2),
      accepting "n" "N" .exact (some 1), accepting "o" "O" .strict (some 2)] none "x" st0).1 =
        .ok v ∧
    (∀ x ∈ pre, x.Succeeds → Below x.score winner.score) ∧
    (∀ x ∈ post, x.Succeeds → NotAbove x.score winner.score) := by
  apply smart_union_best_partial
  · simp [attempts, attemptOf, rejecting, accepting, Attempt.Ordinary, ValError.newWithLoc]
  · left; simp [attempts, attemptOf, rejecting, accepting, Attempt.Succeeds]
  · simp [attempts, attemptOf, rejecting, accepting, Attempt.Succeeds]

/-- The value chosen there is that of "o": most fields set, then most exact. -/
example : (validateSmart [rejecting "a" .missing, accepting "m" "M" .lax (some 2),
      accepting "n" "N" .exact (some 1), accepting "o" "O" .strict (some 2)] none "x" st0).1 =
    .ok "O" := by decide

/-- Non-vacuity of `smart_union_sound` / `smart_union_accepts_iff`. -/
example : (validateSmart [rejecting "a" .missing, accepting "m" "M" .lax none] none "x" st0).1 =
    .ok "M" := by decide

/-- Non-vacuity of `smart_union_first_exact_wins`. -/
example : (validateSmart [rejecting "a" .missing, accepting "m" "M" .exact (some 5),
    accepting "i" "I" .exact none] none "x" st0).1 = .ok "I" := by
  apply smart_union_first_exact_wins (pre := [attemptOf "x" st0 (rejecting "a" .missing),
    attemptOf "x" st0 (accepting "m" "M" .exact (some 5))]) (post := [])
    (a := attemptOf "x" st0 (accepting "i" "I" .exact none))
  · rfl
  · simp [attemptOf, rejecting, accepting, Attempt.Ordinary, Attempt.Succeeds, ValError.newWithLoc]
  · rfl
  · rfl
  · rfl

/-- Non-vacuity of `smart_union_propagates`: an exception after a lax success. -/
example : (validateSmart [accepting "m" "M" .lax none,
    ⟨"f", none, fun _ st => (.error (.internal ⟨"TypeError"⟩), st)⟩] none "x" st0).1 =
    .error (.internal ⟨"TypeError"⟩) := by
  apply smart_union_propagates (pre := [attemptOf "x" st0 (accepting "m" "M" .lax none)])
    (post := []) (a := attemptOf "x" st0
      ⟨"f", none, fun _ st => (.error (.internal ⟨"TypeError"⟩), st)⟩)
  · rfl
  · simp [attemptOf, accepting, Attempt.Ordinary]
  · rfl
  · simp

/-- Non-vacuity of `attempts_independent`. -/
example : ∀ c ∈ [rejecting "a" .missing, accepting "m" "M" .lax (some 2)], ∀ s,
    fresh (c.run "x" s).2 = fresh s := by
  simp [rejecting, accepting, fresh]

/-- **C01, negation of the full claim.**  When some accepting members report fields set and
others do not, the result need not be the best match: the last member here sets fewer fields
than the first, yet it is returned. -/
theorem smart_union_mixed_not_best :
    ∃ (choices : List (Choice String)) (st : VState String) (x winner : Attempt String),
      (∀ a ∈ attempts "x" choices st, a.Succeeds) ∧
      x ∈ attempts "x" choices st ∧ winner ∈ attempts "x" choices st ∧
      (validateSmart choices none "x" st).1 = winner.outcome ∧ winner.outcome ≠ x.outcome ∧
      x.fieldsSet = some 2 ∧ winner.fieldsSet = some 1 ∧ Below winner.score x.score := by
  refine ⟨[accepting "x" "X" .lax (some 2), accepting "y" "Y" .strict none,
    accepting "z" "Z" .exact (some 1)], st0,
    attemptOf "x" st0 (accepting "x" "X" .lax (some 2)),
    attemptOf "x" st0 (accepting "z" "Z" .exact (some 1)), ?_, ?_, ?_, ?_, ?_, ?_, ?_, ?_⟩
  · simp [attempts, attemptOf, accepting, Attempt.Succeeds]
  · simp [attempts]
  · simp [attempts, attemptOf, accepting]
  · rfl
  · simp [attemptOf, accepting]
  · rfl
  · rfl
  · left; decide

/-! ## State after a smart union (part of C50) -/

/-- After a smart union whose members all end ordinarily, the exactness and fields-set record
are the ones before it when the union fails; when it succeeds by an attempt `a` that is not an
exact match without fields, exactness becomes the minimum of what it was and `a`'s (if it was
being tracked at all) and `a`'s fields are added. -/
theorem smart_union_state (choices : List (Choice α)) (ce : Option ErrType) (input : α)
    (st : VState α) (hord : ∀ a ∈ attempts input choices st, a.Ordinary) :
    let r := validateSmart choices ce input st
    (r.2.exactness = st.exactness ∧ r.2.fieldsSetCount = st.fieldsSetCount) ∨
    ∃ (e : Exactness) (f : Option Nat),
      r.2.exactness = st.exactness.map (fun o => if e.rank < o.rank then e else o) ∧
      r.2.fieldsSetCount = (match f with
        | none => st.fieldsSetCount
        | some n => some (st.fieldsSetCount.getD 0 + n)) ∧
      ∃ a ∈ attempts input choices st, a.outcome = r.1 ∧ a.Succeeds ∧
        a.exactness.getD .lax = e ∧ a.fieldsSet = f := by
  have key : ∀ (cs : List (Choice α)) (best : Option (Best α)) (m : MaybeErrors α)
      (s : VState α), (∀ a ∈ attempts input cs s, a.Ordinary) →
      match smartLoop st.exactness st.fieldsSetCount input cs best m s with
      | .returned _ s2 => s2.exactness = st.exactness ∧ s2.fieldsSetCount = st.fieldsSetCount
      | .finished none _ _ => True
      | .finished (some b) _ _ => best = some b ∨
          ∃ a ∈ attempts input cs s, a.outcome = .ok b.value ∧
            a.exactness.getD .lax = b.exactness ∧ a.fieldsSet = b.fieldsSet := by
    intro cs
    induction cs with
    | nil => intro best m s _; cases best <;> simp [smartLoop]
    | cons c cs ih =>
      intro best m s hord
      rw [smartLoop_cons]
      simp only [attempts] at hord ⊢
      generalize hst1 : (c.run input (fresh s)).2 = st1 at *
      generalize ha : attemptOf input s c = a at *
      have hordt : ∀ x ∈ attempts input cs st1, x.Ordinary :=
        fun x hx => hord x (List.mem_cons_of_mem _ hx)
      have horda := hord a List.mem_cons_self
      rcases horda with ⟨v, ho⟩ | ⟨ls, ho⟩
      · simp only [ho]
        by_cases hex : a.exactness = some .exact ∧ a.fieldsSet = none
        · rw [if_pos hex]; exact ⟨rfl, rfl⟩
        · rw [if_neg hex]
          by_cases hb : isBetter best (a.exactness.getD .lax) a.fieldsSet = true
          · rw [if_pos hb]
            have h := ih (some ⟨v, a.exactness.getD .lax, a.fieldsSet⟩) m st1 hordt
            split at h
            · exact h
            · trivial
            · right
              rcases h with h | ⟨x, hx, h⟩
              · cases h; exact ⟨a, List.mem_cons_self, ho, rfl, rfl⟩
              · exact ⟨x, List.mem_cons_of_mem _ hx, h⟩
          · rw [if_neg hb]
            have h := ih best m st1 hordt
            split at h
            · exact h
            · trivial
            · rcases h with h | ⟨x, hx, h⟩
              · exact .inl h
              · exact .inr ⟨x, List.mem_cons_of_mem _ hx, h⟩
      · simp only [ho]
        have h := ih best (if best.isNone then m.push c ls else m) st1 hordt
        split at h
        · exact h
        · trivial
        · rcases h with h | ⟨x, hx, h⟩
          · exact .inl h
          · exact .inr ⟨x, List.mem_cons_of_mem _ hx, h⟩
  have h := key choices none (.new ce) st hord
  simp only [validateSmart]
  split at h
  · next heq => left; simpa [heq] using h
  · next heq => left; simp [heq]
  · next b m s2 heq =>
    right
    rcases h with h | ⟨a, ha, h1, h2, h3⟩
    · cases h
    · refine ⟨b.exactness, b.fieldsSet, ?_, ?_, a, ha, ?_, ⟨_, h1⟩, h2, h3⟩
      · simp only [heq]
        cases hf : b.fieldsSet <;> simp only [VState.floorExactness, VState.addFieldsSet]
        all_goals
          cases he : st.exactness with
          | none => rfl
          | some o => cases o <;> cases b.exactness <;> simp [Exactness.rank]
      · simp only [heq]
        cases hf : b.fieldsSet <;> simp only [VState.floorExactness, VState.addFieldsSet]
        all_goals
          cases he : st.exactness with
          | none => rfl
          | some o => cases o <;> cases b.exactness <;> simp
      · simp [heq, h1]

/-- The exceptional outcomes do *not* restore the record: here a union run while exactness is
already `lax` leaves it `exact` after a member asked for the value to be omitted. -/
theorem smart_union_state_not_restored_on_omit :
    ∃ (choices : List (Choice String)) (st : VState String),
      st.exactness = some .lax ∧ (validateSmart choices none "x" st).1 = .error .omitted ∧
      (validateSmart choices none "x" st).2.exactness = some .exact :=
  ⟨[⟨"o", none, fun _ st => (.error .omitted, st)⟩, accepting "m" "M" .lax none],
    { st0 with exactness := some .lax }, rfl, rfl, rfl⟩

example : ∀ a ∈ attempts "x" [rejecting "a" .missing, accepting "m" "M" .lax (some 2)]
    { st0 with exactness := some .strict, fieldsSetCount := some 1 }, a.Ordinary := by
  simp [attempts, attemptOf, rejecting, accepting, Attempt.Ordinary, ValError.newWithLoc]

/-! ## C03: errors of a failed union -/

/-- What the user sees of a line error. -/
def seen (e : LineError α) : ErrType × List LocItem × α := (e.type, e.loc.toPy, e.input)

/-- The label under which a member's errors are reported. -/
def Choice.shown (c : Choice α) : String := c.label.getD c.name

/-- The error lines of one member as reported by the union: same type and input, the member's
label prepended to the location. -/
def reported (c : Choice α) (r : ValResult α α) : List (ErrType × List LocItem × α) :=
  match r with
  | .error (.lineErrors ls) => ls.map fun e => (e.type, .s c.shown :: e.loc.toPy, e.input)
  | _ => []

theorem seen_withOuter (e : LineError α) (item : LocItem) :
    seen (e.withOuterLocation item) = (e.type, item :: e.loc.toPy, e.input) := by
  rcases e with ⟨t, l, i⟩
  cases l <;>
    simp [seen, LineError.withOuterLocation, Location.withOuter, Location.toPy, Location.newSome]

private def MaybeErrors.list : MaybeErrors α → List (ChoiceErrors α)
  | .custom _ => []
  | .errors es => es

private theorem intoValError_seen (es : List (ChoiceErrors α)) (input : α) :
    ∃ ls, (MaybeErrors.errors es).intoValError input = .lineErrors ls ∧
      ls.map seen = es.flatMap fun c => c.lines.map fun e => (e.type, .s c.caseLabel :: e.loc.toPy,
        e.input) := by
  refine ⟨_, rfl, ?_⟩
  simp only [List.map_flatMap, List.map_map]
  congr 1
  funext c
  congr 1
  funext e
  exact seen_withOuter e _

/-- **C03** (smart mode).  If every member rejects the input with validation errors, the union
reports the errors of every member, in member order, each under the member's label; with a
custom error configured exactly that one error. -/
theorem smart_union_errors (choices : List (Choice α)) (ce : Option ErrType) (input : α)
    (st : VState α)
    (hfail : ∀ a ∈ attempts input choices st, ∃ ls, a.outcome = .error (.lineErrors ls)) :
    ∃ ls, (validateSmart choices ce input st).1 = .error (.lineErrors ls) ∧
      ls.map seen = (match ce with
        | some t => [(t, [], input)]
        | none => (choices.zip (attempts input choices st)).flatMap
            fun ca => reported ca.1 ca.2.outcome) := by
  have key : ∀ (cs : List (Choice α)) (m : MaybeErrors α) (s : VState α),
      (∀ a ∈ attempts input cs s, ∃ ls, a.outcome = .error (.lineErrors ls)) →
      ∃ s2 m2, smartLoop st.exactness st.fieldsSetCount input cs none m s = .finished none m2 s2 ∧
        (∀ t, m = .custom t → m2 = .custom t) ∧
        (∀ es, m = .errors es → ∃ es', m2 = .errors (es ++ es') ∧
          (es'.flatMap fun c => c.lines.map fun e =>
            ((e.type, .s c.caseLabel :: e.loc.toPy, e.input) : ErrType × List LocItem × α)) =
            (cs.zip (attempts input cs s)).flatMap fun ca => reported ca.1 ca.2.outcome) := by
    intro cs
    induction cs with
    | nil =>
      intro m s _
      exact ⟨s, m, rfl, fun _ h => h, fun es h => ⟨[], by simp [h], rfl⟩⟩
    | cons c cs ih =>
      intro m s h
      rw [attempts] at h
      obtain ⟨ls, ho⟩ := h _ List.mem_cons_self
      obtain ⟨s2, m2, h1, h2, h3⟩ := ih (m.push c ls) (c.run input (fresh s)).2
        (fun a ha => h a (List.mem_cons_of_mem _ ha))
      refine ⟨s2, m2, ?_, ?_, ?_⟩
      · rw [smartLoop_cons]
        simp only [ho]
        exact h1
      · intro t ht
        subst ht
        exact h2 t rfl
      · intro es hes
        subst hes
        obtain ⟨es', h4, h5⟩ := h3 (es ++ [⟨c.label.getD c.name, ls⟩]) rfl
        refine ⟨⟨c.label.getD c.name, ls⟩ :: es', by simp [h4], ?_⟩
        rw [attempts, List.zip_cons_cons, List.flatMap_cons, List.flatMap_cons, h5]
        simp [reported, ho, Choice.shown]
  obtain ⟨s2, m2, h1, h2, h3⟩ := key choices (.new ce) st hfail
  cases ce with
  | some t =>
    refine ⟨[LineError.new t input], ?_, rfl⟩
    simp only [validateSmart, h1, h2 t rfl, MaybeErrors.intoValError, ValError.new]
  | none =>
    obtain ⟨es', h4, h5⟩ := h3 [] rfl
    obtain ⟨ls, h6, h7⟩ := intoValError_seen es' input
    refine ⟨ls, ?_, by simp only [h7, h5]⟩
    simp only [validateSmart, h1, h4, List.nil_append, h6]

example : ∃ ls, (validateSmart [rejecting "a" .missing, rejecting "b" .extraForbidden] none "x"
      st0).1 = .error (.lineErrors ls) ∧
    ls.map seen = [(.missing, [.s "a", .i 3], "x"), (.extraForbidden, [.s "b", .i 3], "x")] := by
  have h := smart_union_errors [rejecting "a" .missing, rejecting "b" .extraForbidden] none "x" st0
    (by simp [attempts, attemptOf, rejecting, ValError.newWithLoc])
  exact h

/-! ## C02: left-to-right mode -/

/-- Members tried in order without resetting the exactness record. -/
def plainAttempts (input : α) : List (Choice α) → VState α → List (ValResult α α)
  | [], _ => []
  | c :: cs, st => (c.run input st).1 :: plainAttempts input cs (c.run input st).2

private theorem ltr_first (input : α) (r : ValResult α α) (hr : ∀ ls, r ≠ .error (.lineErrors ls)) :
    ∀ (cs : List (Choice α)) (m : MaybeErrors α) (st : VState α)
      (pre post : List (ValResult α α)), plainAttempts input cs st = pre ++ r :: post →
      (∀ x ∈ pre, ∃ ls, x = .error (.lineErrors ls)) → (leftToRightLoop input cs m st).1 = r := by
  intro cs
  induction cs with
  | nil => intro m st pre post h; simp [plainAttempts] at h
  | cons c cs ih =>
    intro m st pre post h hpre
    rw [plainAttempts] at h
    cases pre with
    | nil =>
      simp only [List.nil_append, List.cons.injEq] at h
      simp only [leftToRightLoop]
      split
      · next ls hls => exact absurd (h.1 ▸ hls) (hr ls)
      · exact h.1
    | cons p pre =>
      simp only [List.cons_append, List.cons.injEq] at h
      obtain ⟨ls, hp⟩ := hpre p List.mem_cons_self
      simp only [leftToRightLoop, h.1, hp]
      exact ih _ _ pre post h.2 (fun x hx => hpre x (List.mem_cons_of_mem _ hx))

/-- **C02.**  If the members before it reject with validation errors, the first member that does
anything else (accepts, raises, omits, asks for the default) determines the result exactly. -/
theorem left_to_right_first (choices : List (Choice α)) (ce : Option ErrType) (input : α)
    (st : VState α) (pre post : List (ValResult α α)) (r : ValResult α α)
    (hsplit : plainAttempts input choices st = pre ++ r :: post)
    (hpre : ∀ x ∈ pre, ∃ ls, x = .error (.lineErrors ls))
    (hr : ∀ ls, r ≠ .error (.lineErrors ls)) :
    (validateLeftToRight choices ce input st).1 = r :=
  ltr_first input r hr choices _ st pre post hsplit hpre

/-- **C02** (converse).  If the union accepts with `v`, then `v` is the output of some member
and every member before it rejected the input with validation errors. -/
theorem left_to_right_accepts (choices : List (Choice α)) (ce : Option ErrType) (input : α)
    (st : VState α) (v : α) (h : (validateLeftToRight choices ce input st).1 = .ok v) :
    ∃ pre post, plainAttempts input choices st = pre ++ .ok v :: post ∧
      ∀ x ∈ pre, ∃ ls, x = .error (.lineErrors ls) := by
  have key : ∀ (cs : List (Choice α)) (m : MaybeErrors α) (s : VState α),
      (leftToRightLoop input cs m s).1 = .ok v →
      ∃ pre post, plainAttempts input cs s = pre ++ .ok v :: post ∧
        ∀ x ∈ pre, ∃ ls, x = .error (.lineErrors ls) := by
    intro cs
    induction cs with
    | nil => intro m s h; cases m <;> simp [leftToRightLoop] at h
    | cons c cs ih =>
      intro m s h
      simp only [leftToRightLoop] at h
      split at h
      · next ls hls =>
        obtain ⟨pre, post, h1, h2⟩ := ih _ _ h
        refine ⟨(c.run input s).1 :: pre, post, by rw [plainAttempts, h1]; rfl, ?_⟩
        exact List.forall_mem_cons.2 ⟨⟨ls, hls⟩, h2⟩
      · exact ⟨[], plainAttempts input cs (c.run input s).2, by rw [plainAttempts]; congr 1, by simp⟩
  exact key choices _ st h

/-- **C02** (later members are never run).  Replacing the members after the first accepting one
by any others changes neither the result nor the state. -/
theorem left_to_right_ignores_later (pre post post' : List (Choice α)) (c : Choice α)
    (ce : Option ErrType) (input : α) (st : VState α)
    (hacc : ∃ p v q, plainAttempts input (pre ++ [c]) st = p ++ .ok v :: q) :
    validateLeftToRight (pre ++ c :: post) ce input st =
      validateLeftToRight (pre ++ c :: post') ce input st := by
  have key : ∀ (pre : List (Choice α)) (m : MaybeErrors α) (s : VState α),
      (∃ p v q, plainAttempts input (pre ++ [c]) s = p ++ .ok v :: q) →
      leftToRightLoop input (pre ++ c :: post) m s =
        leftToRightLoop input (pre ++ c :: post') m s := by
    intro pre
    induction pre with
    | nil =>
      rintro m s ⟨p, v, q, h⟩
      simp only [List.nil_append, plainAttempts] at h
      cases p with
      | nil =>
        simp only [List.nil_append, List.cons.injEq] at h
        simp [leftToRightLoop, h.1]
      | cons x p => simp at h
    | cons d pre ih =>
      rintro m s ⟨p, v, q, h⟩
      simp only [List.cons_append, plainAttempts] at h
      simp only [List.cons_append, leftToRightLoop]
      split
      · next ls hls =>
        apply ih
        cases p with
        | nil =>
          simp only [List.nil_append, List.cons.injEq] at h
          rw [h.1] at hls; cases hls
        | cons x p =>
          simp only [List.cons_append, List.cons.injEq] at h
          exact ⟨p, v, q, h.2⟩
      · rfl
  exact key pre _ st hacc

/-- **C03** (left-to-right mode). -/
theorem left_to_right_errors (choices : List (Choice α)) (ce : Option ErrType) (input : α)
    (st : VState α)
    (hfail : ∀ r ∈ plainAttempts input choices st, ∃ ls, r = .error (.lineErrors ls)) :
    ∃ ls, (validateLeftToRight choices ce input st).1 = .error (.lineErrors ls) ∧
      ls.map seen = (match ce with
        | some t => [(t, [], input)]
        | none => (choices.zip (plainAttempts input choices st)).flatMap
            fun ca => reported ca.1 ca.2) := by
  have key : ∀ (cs : List (Choice α)) (m : MaybeErrors α) (s : VState α),
      (∀ r ∈ plainAttempts input cs s, ∃ ls, r = .error (.lineErrors ls)) →
      ∃ m2 : MaybeErrors α, (leftToRightLoop input cs m s).1 = .error (m2.intoValError input) ∧
        (∀ t, m = .custom t → m2 = .custom t) ∧
        (∀ es, m = .errors es → ∃ es', m2 = .errors (es ++ es') ∧
          (es'.flatMap fun c => c.lines.map fun e =>
            ((e.type, .s c.caseLabel :: e.loc.toPy, e.input) : ErrType × List LocItem × α)) =
            (cs.zip (plainAttempts input cs s)).flatMap fun ca => reported ca.1 ca.2) := by
    intro cs
    induction cs with
    | nil =>
      intro m s _
      exact ⟨m, rfl, fun _ h => h, fun es h => ⟨[], by simp [h], rfl⟩⟩
    | cons c cs ih =>
      intro m s h
      rw [plainAttempts] at h
      obtain ⟨ls, ho⟩ := h _ List.mem_cons_self
      obtain ⟨m2, h1, h2, h3⟩ := ih (m.push c ls) (c.run input s).2
        (fun a ha => h a (List.mem_cons_of_mem _ ha))
      refine ⟨m2, ?_, ?_, ?_⟩
      · simp only [leftToRightLoop, ho]
        exact h1
      · intro t ht
        subst ht
        exact h2 t rfl
      · intro es hes
        subst hes
        obtain ⟨es', h4, h5⟩ := h3 (es ++ [⟨c.label.getD c.name, ls⟩]) rfl
        refine ⟨⟨c.label.getD c.name, ls⟩ :: es', by simp [h4], ?_⟩
        rw [plainAttempts, List.zip_cons_cons, List.flatMap_cons, List.flatMap_cons, h5]
        simp [reported, ho, Choice.shown]
  obtain ⟨m2, h1, h2, h3⟩ := key choices (.new ce) st hfail
  cases ce with
  | some t =>
    refine ⟨[LineError.new t input], ?_, rfl⟩
    simp only [validateLeftToRight, h1, h2 t rfl, MaybeErrors.intoValError, ValError.new]
  | none =>
    obtain ⟨es', h4, h5⟩ := h3 [] rfl
    obtain ⟨ls, h6, h7⟩ := intoValError_seen es' input
    refine ⟨ls, ?_, by simp only [h7, h5]⟩
    simp only [validateLeftToRight, h1, h4, List.nil_append, h6]

example : (validateLeftToRight [rejecting "a" .missing, accepting "m" "M" .lax none,
    accepting "n" "N" .exact none] none "x" st0).1 = .ok "M" :=
  left_to_right_first _ none "x" st0 [.error (ValError.newWithLoc .missing "x" (.i 3))]
    [.ok "N"] (.ok "M") rfl (by simp [ValError.newWithLoc]) (by simp)

/-- Non-vacuity of `left_to_right_accepts`. -/
example : (validateLeftToRight [rejecting "a" .missing, accepting "m" "M" .lax none] none "x"
    st0).1 = .ok "M" := by decide

/-- Non-vacuity of `left_to_right_ignores_later`. -/
example : ∃ p v q, plainAttempts "x" ([rejecting "a" .missing] ++ [accepting "m" "M" .lax none])
    st0 = p ++ .ok v :: q :=
  ⟨[.error (ValError.newWithLoc .missing "x" (.i 3))], "M", [], rfl⟩

/-- Non-vacuity of `left_to_right_errors`. -/
example : ∀ r ∈ plainAttempts "x" [rejecting "a" .missing, rejecting "b" .extraForbidden] st0,
    ∃ ls, r = .error (.lineErrors ls) := by
  simp [plainAttempts, rejecting, ValError.newWithLoc]

/-! ## C04: tagged unions -/

/-- The tag of the input, as the discriminator reads it: an error, no tag, or a tag. -/
def Tagged.tagOf (u : Tagged α) (input : α) (st : VState α) : ValResult α (Option α) :=
  match u.discriminator with
  | .lookupKey find =>
    find (st.extra.strict.getD false) (st.extra.fromAttributes.getD u.fromAttributes) input
  | .function call isNone => (call input).map fun t => if isNone t then none else some t

/-- **C04.**  The result of a tagged union, completely: the registered validator's value
unchanged, its errors with the tag prepended; otherwise a single error. -/
theorem tagged_union_dispatch (u : Tagged α) (input : α) (st : VState α) :
    (∀ e, u.tagOf input st = .error e → u.validate input st = (.error e, st)) ∧
    (u.tagOf input st = .ok none → u.validate input st = (.error (ValError.new
      (u.customError.getD (.unionTagNotFound u.discriminatorRepr)) input), st)) ∧
    (∀ tag, u.tagOf input st = .ok (some tag) → u.lookup tag = none →
      u.validate input st = (.error (ValError.new (u.customError.getD
        (.unionTagInvalid u.discriminatorRepr (u.tagString tag) u.tagsRepr)) input), st)) ∧
    (∀ tag key v, u.tagOf input st = .ok (some tag) → u.lookup tag = some (key, v) →
      (u.validate input st).2 = (v input st).2 ∧
      (∀ out, (v input st).1 = .ok out → (u.validate input st).1 = .ok out) ∧
      (∀ ls, (v input st).1 = .error (.lineErrors ls) →
        ∃ ls', (u.validate input st).1 = .error (.lineErrors ls') ∧
          ls'.map seen = ls.map fun e => (e.type, key :: e.loc.toPy, e.input)) ∧
      (∀ e, (v input st).1 = .error e → (∀ ls, e ≠ .lineErrors ls) →
        (u.validate input st).1 = .error e)) := by
  have hval : u.validate input st = (match u.tagOf input st with
      | .error e => (.error e, st)
      | .ok none => (.error (u.tagNotFound input), st)
      | .ok (some tag) => u.findCallValidator tag input st) := by
    unfold Tagged.validate Tagged.tagOf
    cases u.discriminator with
    | lookupKey find => rfl
    | function call isNone =>
      simp only
      cases call input with
      | error e => rfl
      | ok t => simp only [Except.map]; cases isNone t <;> rfl
  refine ⟨?_, ?_, ?_, ?_⟩
  · intro e h; rw [hval, h]
  · intro h; rw [hval, h]; unfold Tagged.tagNotFound; cases u.customError <;> rfl
  · intro tag h hl
    rw [hval, h]; simp only [Tagged.findCallValidator, hl]; cases u.customError <;> rfl
  · intro tag key v h hl
    rw [hval, h]
    simp only [Tagged.findCallValidator, hl]
    cases hr : (v input st).1 with
    | ok out => exact ⟨rfl, by simp, by simp, by simp⟩
    | error e =>
      refine ⟨rfl, by simp, ?_, ?_⟩
      · rintro ls ⟨⟩
        refine ⟨_, rfl, ?_⟩
        rw [List.map_map]
        congr 1
        funext x
        exact seen_withOuter x key
      · rintro e' ⟨⟩ hne
        cases e with
        | lineErrors ls => exact absurd rfl (hne ls)
        | _ => rfl

/-- **C04** (no other member matters).  Two tagged unions that register the same validator for
the input's tag, and read the same tag, behave the same, whatever else they contain. -/
theorem tagged_union_other_members_irrelevant (u w : Tagged α) (input : α) (st : VState α)
    (tag : α) (entry : LocItem × Validator α α)
    (hu : u.tagOf input st = .ok (some tag)) (hw : w.tagOf input st = .ok (some tag))
    (hlu : u.lookup tag = some entry) (hlw : w.lookup tag = some entry) :
    u.validate input st = w.validate input st := by
  have hval : ∀ u : Tagged α, u.tagOf input st = .ok (some tag) →
      u.validate input st = u.findCallValidator tag input st := by
    intro u hu
    unfold Tagged.validate
    unfold Tagged.tagOf at hu
    cases hd : u.discriminator with
    | lookupKey find =>
      rw [hd] at hu
      have : find (st.strictOr false) (st.extra.fromAttributes.getD u.fromAttributes) input =
        .ok (some tag) := hu
      simp [this]
    | function call isNone =>
      rw [hd] at hu
      simp only at hu ⊢
      cases hc : call input with
      | error e => rw [hc] at hu; cases hu
      | ok t =>
        rw [hc] at hu
        simp only [Except.map, Except.ok.injEq] at hu
        split at hu
        · cases hu
        · next hn => cases hu; simp [hn]
  rw [hval u hu, hval w hw]
  simp [Tagged.findCallValidator, hlu, hlw]

/-- A concrete tagged union for the examples. -/
def exTagged : Tagged String where
  discriminator := .function (fun i => .ok (if i.startsWith "c" then "cat" else "dog")) (· == "")
  fromAttributes := true
  lookup := fun t => if t = "cat" then some (.s "cat", (rejecting "a" .missing).run) else none
  tagString := id
  customError := none
  tagsRepr := "'cat'"
  discriminatorRepr := "kind()"

example : exTagged.tagOf "cxx" st0 = .ok (some "cat") ∧ exTagged.lookup "cat" ≠ none ∧
    exTagged.tagOf "xx" st0 = .ok (some "dog") ∧ exTagged.lookup "dog" = none ∧
    (exTagged.validate "cxx" st0).1 =
      .error (.lineErrors [⟨.missing, .list [.i 3, .s "cat"], "cxx"⟩]) := by
  refine ⟨?_, ?_, ?_, ?_, ?_⟩ <;> simp [exTagged, Tagged.tagOf, Except.map] <;> decide

end PC.Union
