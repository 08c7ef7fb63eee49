import Verif.Lemmas.LaxRetry
import Verif.Model.SerUnion

/-
C100: whether unions try their members again does not depend on what was serialised before.
-/

namespace PC.LaxRetry

/- A schema of the kind the theorems are about, used in the examples: `a = list[ref 1]`,
`b = union[union[ref 2, str], Model]`, with `ref 0` and `ref 2` pointing to `a` and `ref 1` to `b`. -/
private def inner : Ser := .or (.ref 2) (.leaf false)
private def exBody : Nat → Ser
  | 1 => .or inner (.leaf true)
  | _ => .ref 1

/-- **C100.** Asking always comes to an end, however the definitions refer to each other: with as many nested
references as there are references in the schema, and one more. -/
theorem answer_exists (body : Nat → Ser) (m : Nat) (hw : Within body m) (ys : List Ser) (x : Ser)
    (hys : ∀ y ∈ ys, ∀ i, y.Mentions i → i < m) (hx : ∀ i, x.Mentions i → i < m) :
    ∃ b, askAll body (m + 1) ys x .new = some b := by
  have key : ∀ (y : Ser) (s : Caches), (∀ i, y.Mentions i → i < m) → s.busy = [] →
      ∃ b s', ask body (m + 1) y s = some (b, s') ∧ s'.busy = [] := by
    intro y s hy hs
    refine askWith_total m _ [] (fun i t hi ht => ?_) y hy s hs
    obtain ⟨b, s', h1, h2⟩ := askRef_total body m hw (m + 1) i t hi
      ⟨by rw [ht]; exact List.nodup_nil, by rw [ht]; intro k hk; cases hk⟩ (by omega)
    exact ⟨b, s', h1, h2.trans ht⟩
  have : ∀ (s : Caches), s.busy = [] → ∃ b, askAll body (m + 1) ys x s = some b := by
    induction ys with
    | nil =>
      intro s hs
      obtain ⟨b, s', h1, _⟩ := key x s hx hs
      exact ⟨b, by simp only [askAll, h1, Option.map_some]⟩
    | cons y ys ih =>
      intro s hs
      obtain ⟨b, s', h1, h2⟩ := key y s (hys y List.mem_cons_self) hs
      obtain ⟨c, hc⟩ := ih (fun z hz => hys z (List.mem_cons_of_mem _ hz)) s' h2
      exact ⟨c, by simp only [askAll, h1, hc]⟩
  exact this .new rfl

example : Within exBody 3 ∧ (∃ b, askAll exBody 4 [.ref 0, inner] inner .new = some b) := by
  have hw : Within exBody 3 := by
    intro i j hi hj
    match i, hi with
    | 0, _ => simp only [exBody, Ser.Mentions] at hj; omega
    | 1, _ => simp only [exBody, inner, Ser.Mentions, or_false] at hj; omega
    | 2, _ => simp only [exBody, Ser.Mentions] at hj; omega
  refine ⟨hw, answer_exists exBody 3 hw _ _ ?_ ?_⟩
  · intro y hy i hi
    simp only [List.mem_cons, List.not_mem_nil, or_false] at hy
    rcases hy with rfl | rfl <;> simp only [inner, Ser.Mentions, or_false] at hi <;> omega
  · intro i hi; simp only [inner, Ser.Mentions, or_false] at hi; omega

/-- **C100.** A second try is never made for nothing: whatever was asked before, the answer is yes only if a
serialiser that accepts more the second time can be reached. -/
theorem never_wrongly_yes (body : Nat → Ser) (n : Nat) (ys : List Ser) (x : Ser)
    (h : askAll body n ys x .new = some true) : Reaches body x := by
  obtain ⟨t, s', ht, ha⟩ := askAll_split body n (Sound body)
    (fun x s b s' hs ha => ((asks_of_ask ha).sound hs).1) ys x .new (fun i hi => by cases hi) true h
  exact ((asks_of_ask ha).sound ht).2 rfl

example : askAll exBody 4 [.ref 0] (.ref 1) .new = some true := by decide

/-- **C100.** The first question asked of a serialiser is answered correctly, also if definitions are
recursive. -/
theorem first_answer (body : Nat → Ser) (n : Nat) (x : Ser) (b : Bool)
    (h : askAll body n [] x .new = some b) : b = true ↔ Reaches body x := by
  constructor
  · intro hb; subst hb; exact never_wrongly_yes body n [] x h
  · intro hr
    simp only [askAll] at h
    cases ha : ask body n x .new with
    | none => rw [ha] at h; cases h
    | some p =>
      obtain ⟨r, s'⟩ := p
      rw [ha] at h
      simp only [Option.map_some, Option.some.injEq] at h
      subst h
      cases r with
      | true => rfl
      | false =>
        have ha := asks_of_ask ha
        have hs := ha.searched rfl (fun i hi => by cases hi)
        exact absurd hr (not_reaches hs.1 ha.busy_eq hs.2)

example : askAll exBody 4 [] inner .new = some true := by decide
example : askAll exBody 4 [] (.or (.leaf false) (.ref 1)) .new = some true := by decide

/-- **C100, in part.** If the definitions are not recursive, every answer is right, whatever was asked before.
Missing: recursive definitions, for which it is false (`history_matters`) but for the first question
(`first_answer`) and questions answered yes (`never_wrongly_yes`). -/
theorem every_answer_partial (body : Nat → Ser) (hn : NotRecursive body) (n : Nat) (ys : List Ser) (x : Ser)
    (b : Bool) (h : askAll body n ys x .new = some b) : b = true ↔ Reaches body x := by
  refine ⟨fun hb => by subst hb; exact never_wrongly_yes body n ys x h, fun hr => ?_⟩
  obtain ⟨rank, hrank⟩ := hn
  obtain ⟨t, s', ⟨h1, h2, h3⟩, ha⟩ := askAll_split body n
    (fun s => s.busy = [] ∧ Sound body s ∧ Complete body s)
    (fun x s b s' hs ha => by
      have ha := asks_of_ask ha
      exact ⟨ha.busy_eq.trans hs.1, (ha.sound hs.2.1).1,
        (ha.ranked hrank (fun i _ j hj => by rw [hs.1] at hj; cases hj) hs.2.1 hs.2.2).1⟩)
    ys x .new ⟨rfl, (fun i hi => by cases hi), (fun i hi => by cases hi)⟩ b h
  cases b with
  | true => rfl
  | false =>
    exact absurd hr (((asks_of_ask ha).ranked hrank (fun i _ j hj => by rw [h1] at hj; cases hj) h2 h3).2 rfl)

private def flatBody : Nat → Ser
  | 0 => .or (.ref 1) (.ref 2)
  | 1 => .leaf false
  | 2 => .leaf true
  | _ => .leaf false

example : NotRecursive flatBody ∧ askAll flatBody 4 [.ref 1, .ref 0] (.ref 0) .new = some true := by
  refine ⟨⟨fun i => if i = 0 then 1 else 0, ?_⟩, by decide⟩
  intro i j hj
  match i with
  | 0 => simp only [flatBody, Ser.Mentions] at hj; rcases hj with rfl | rfl <;> decide
  | 1 => exact hj.elim
  | 2 => exact hj.elim
  | _ + 3 => exact hj.elim

/-- **C100.** A question that was answered gets the same answer ever after, whatever is asked in between. -/
theorem answer_stays (body : Nat → Ser) (n : Nat) (zs ys : List Ser) (x : Ser) (b c : Bool)
    (h : askAll body (n + 1) zs x .new = some b)
    (h' : askAll body (n + 1) (zs ++ x :: ys) x .new = some c) : c = b := by
  have key : ∀ (s : Caches), s.busy = [] → askAll body (n + 1) zs x s = some b →
      askAll body (n + 1) (zs ++ x :: ys) x s = some c → c = b := by
    clear h h'
    induction zs with
    | nil =>
      intro s hs h h'
      simp only [askAll, List.nil_append] at h h'
      cases ha : ask body (n + 1) x s with
      | none => rw [ha] at h; cases h
      | some p =>
        obtain ⟨r, s'⟩ := p
        rw [ha] at h h'
        simp only [Option.map_some, Option.some.injEq] at h
        subst h
        obtain ⟨t, t', ht, hc⟩ := askAll_split body (n + 1)
          (fun t => ∀ i d, s'.cached i = some d → t.cached i = some d)
          (fun y u e u' hu ha i d hi => (asks_of_ask ha).keeps (hu i d hi)) ys x s' (fun _ _ h => h) c h'
        rw [(asks_of_ask ha).settled hs n t ht] at hc
        simp only [Option.some.injEq, Prod.mk.injEq] at hc
        exact hc.1.symm
    | cons z zs ih =>
      intro s hs h h'
      simp only [askAll, List.cons_append] at h h'
      cases ha : ask body (n + 1) z s with
      | none => rw [ha] at h; cases h
      | some p =>
        obtain ⟨r, s'⟩ := p
        rw [ha] at h h'
        exact ih s' ((asks_of_ask ha).busy_eq.trans hs) h h'
  exact key .new rfl h h'

example : askAll exBody 4 [.ref 0] inner .new = some false ∧
    askAll exBody 4 ([.ref 0] ++ inner :: [.ref 1]) inner .new = some false := by decide

/-- The union `inner` of the schema `exBody` serialising a list of instances of a subclass of the model: the
reference to `a` takes it only on a second try, writing the fields of the model only, the string serialiser
does not take it. `retry` is what the reference answers. -/
private def innerMembers (retry : Bool) : List (SerUnion.Member String (List String)) :=
  [⟨fun c w => if c = .lax then (.ok ["field of the model"], w) else (.error "expected the model", w), retry⟩,
   ⟨fun _ w => (.error "expected str", w), false⟩]

/-- **C100 fails for recursive definitions.** There is a schema in which a union tries its members a second
time or not depending on which other part of the schema was asked before (by serialising something with it, or
by taking the `repr` of the serialiser), and hence serialises the same value differently: by the member that
takes it, or with warnings by its type, with all the fields of the subclass. -/
theorem history_matters :
    ∃ (body : Nat → Ser) (other : Ser) (i : Nat), Within body 3 ∧ Reaches body (.ref i) ∧
      ∃ first later, askAll body 4 [] (.ref i) .new = some first ∧
        askAll body 4 [other] (.ref i) .new = some later ∧
        let out (retry : Bool) := SerUnion.toPython true (fun _ => "") (fun w =>
          (.ok ["field of the model", "field of the subclass"], w)) .none (innerMembers retry) []
        out first = (.ok ["field of the model"], []) ∧
        out later = (.ok ["field of the model", "field of the subclass"],
          ["expected the model", "expected str"]) := by
  refine ⟨exBody, .ref 0, 2, ?_, .ref (.ref (.right .leaf)), true, false, by decide, by decide, by rfl, by rfl⟩
  intro i j hi hj
  match i, hi with
  | 0, _ => simp only [exBody, Ser.Mentions] at hj; omega
  | 1, _ => simp only [exBody, inner, Ser.Mentions, or_false] at hj; omega
  | 2, _ => simp only [exBody, Ser.Mentions] at hj; omega

end PC.LaxRetry
