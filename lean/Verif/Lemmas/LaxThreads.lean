import Verif.Lemmas.LaxRetry
import Verif.Spec.LaxThreads

/-
Lemmas about threads that share a serialiser.
-/

namespace PC.LaxRetry

/-- What a thread that asked `x` is looking at, given what is left to do: `y` is a part of `x` or of a definition
that can be reached from `x`. -/
inductive Leads (body : Nat → Ser) (x : Ser) : Ser → List Frame → Prop
  | start : Leads body x x []
  | left {a b st} : Leads body x (.or a b) st → Leads body x a (.orElse b :: st)
  | right {a b st} : Leads body x (.or a b) st → Leads body x b st
  | body {i st} : Leads body x (.ref i) st → Leads body x (body i) (.store i :: st)
  | reset {i st} : Leads body x (.ref i) st → Leads body x (.ref i) (.reset i :: st)

/-- Invariant of a thread that asked `x`. -/
def Thread.Ok (body : Nat → Ser) (x : Ser) (t : Thread) : Prop :=
  match t.focus with
  | .eval y => Leads body x y t.stack
  | .tryFlag i => Leads body x (.ref i) t.stack
  | .enter i => Leads body x (.ref i) t.stack
  | .answer b => ∃ y, Leads body x y t.stack ∧ (b = true → Reaches body y)

theorem leads_orElse {body x y b st} (h : Leads body x y (.orElse b :: st)) :
    ∃ z, Leads body x z st ∧ (Reaches body y → Reaches body z) ∧ Leads body x b st := by
  generalize hs : Frame.orElse b :: st = fs at h
  induction h with
  | start => cases hs
  | left h _ => cases hs; exact ⟨_, h, .left, .right h⟩
  | right h ih =>
    obtain ⟨z, h1, h2, h3⟩ := ih hs
    exact ⟨z, h1, fun hr => h2 (.right hr), h3⟩
  | body _ _ => cases hs
  | reset _ _ => cases hs

theorem leads_store {body x y i st} (h : Leads body x y (.store i :: st)) :
    Leads body x (.ref i) st ∧ (Reaches body y → Reaches body (.ref i)) := by
  generalize hs : Frame.store i :: st = fs at h
  induction h with
  | start => cases hs
  | left _ _ => cases hs
  | right h ih =>
    obtain ⟨h1, h2⟩ := ih hs
    exact ⟨h1, fun hr => h2 (.right hr)⟩
  | body h _ => cases hs; exact ⟨h, .ref⟩
  | reset _ _ => cases hs

theorem leads_reset {body x y i st} (h : Leads body x y (.reset i :: st)) :
    Leads body x (.ref i) st ∧ (Reaches body y → Reaches body (.ref i)) := by
  generalize hs : Frame.reset i :: st = fs at h
  induction h with
  | start => cases hs
  | left _ _ => cases hs
  | right h ih =>
    obtain ⟨h1, h2⟩ := ih hs
    exact ⟨h1, fun hr => h2 (.right hr)⟩
  | body _ _ => cases hs
  | reset h _ => cases hs; exact ⟨h, id⟩

theorem leads_end {body x y} (h : Leads body x y []) : Reaches body y → Reaches body x := by
  generalize hs : ([] : List Frame) = fs at h
  induction h with
  | start => exact id
  | left _ _ => cases hs
  | right h ih => exact fun hr => ih hs (.right hr)
  | body _ _ => cases hs
  | reset _ _ => cases hs

theorem step_ok {body x} {t t' : Thread} {s s' : Caches} (h : t.step body s = some (t', s'))
    (ht : t.Ok body x) (hs : Sound body s) : t'.Ok body x ∧ Sound body s' := by
  obtain ⟨f, st⟩ := t
  cases f with
  | eval y =>
    cases y with
    | leaf b =>
      simp only [Thread.step, Option.some.injEq, Prod.mk.injEq] at h
      obtain ⟨rfl, rfl⟩ := h
      exact ⟨⟨_, ht, fun hb => by subst hb; exact .leaf⟩, hs⟩
    | or a b =>
      simp only [Thread.step, Option.some.injEq, Prod.mk.injEq] at h
      obtain ⟨rfl, rfl⟩ := h
      exact ⟨Leads.left ht, hs⟩
    | ref i =>
      simp only [Thread.step] at h
      cases hc : s.cached i with
      | some b =>
        rw [hc] at h
        simp only [Option.some.injEq, Prod.mk.injEq] at h
        obtain ⟨rfl, rfl⟩ := h
        exact ⟨⟨_, ht, fun hb => by subst hb; exact .ref (hs i hc)⟩, hs⟩
      | none =>
        rw [hc] at h
        simp only [Option.some.injEq, Prod.mk.injEq] at h
        obtain ⟨rfl, rfl⟩ := h
        exact ⟨ht, hs⟩
  | tryFlag i =>
    simp only [Thread.step] at h
    by_cases hb : i ∈ s.busy
    · rw [if_pos hb] at h
      simp only [Option.some.injEq, Prod.mk.injEq] at h
      obtain ⟨rfl, rfl⟩ := h
      exact ⟨⟨_, ht, fun hb => by cases hb⟩, hs⟩
    · rw [if_neg hb] at h
      simp only [Option.some.injEq, Prod.mk.injEq] at h
      obtain ⟨rfl, rfl⟩ := h
      exact ⟨ht, hs⟩
  | enter i =>
    simp only [Thread.step] at h
    cases hc : s.cached i with
    | some b =>
      rw [hc] at h
      simp only [Option.some.injEq, Prod.mk.injEq] at h
      obtain ⟨rfl, rfl⟩ := h
      exact ⟨⟨_, Leads.reset ht, fun hb => by subst hb; exact .ref (hs i hc)⟩, hs⟩
    | none =>
      rw [hc] at h
      simp only [Option.some.injEq, Prod.mk.injEq] at h
      obtain ⟨rfl, rfl⟩ := h
      exact ⟨Leads.body ht, hs⟩
  | answer b =>
    obtain ⟨y, hy, hr⟩ := ht
    cases st with
    | nil => simp only [Thread.step] at h; cases h
    | cons fr st =>
      cases fr with
      | orElse z =>
        obtain ⟨w, h1, h2, h3⟩ := leads_orElse hy
        cases b with
        | true =>
          simp only [Thread.step, if_true, Option.some.injEq, Prod.mk.injEq] at h
          obtain ⟨rfl, rfl⟩ := h
          exact ⟨⟨w, h1, fun hb => h2 (hr hb)⟩, hs⟩
        | false =>
          simp only [Thread.step, Bool.false_eq_true, if_false, Option.some.injEq, Prod.mk.injEq] at h
          obtain ⟨rfl, rfl⟩ := h
          exact ⟨h3, hs⟩
      | store i =>
        obtain ⟨h1, h2⟩ := leads_store hy
        simp only [Thread.step, Option.some.injEq, Prod.mk.injEq] at h
        obtain ⟨rfl, rfl⟩ := h
        refine ⟨⟨_, Leads.reset h1, fun hb => h2 (hr hb)⟩, ?_⟩
        intro j hj
        by_cases hji : j = i
        · subst hji
          simp only [Caches.set, if_true, Option.some.injEq] at hj
          cases h2 (hr hj) with
          | ref h => exact h
        · simp only [Caches.set, if_neg hji] at hj
          exact hs j hj
      | reset i =>
        obtain ⟨h1, h2⟩ := leads_reset hy
        simp only [Thread.step, Option.some.injEq, Prod.mk.injEq] at h
        obtain ⟨rfl, rfl⟩ := h
        exact ⟨⟨_, h1, fun hb => h2 (hr hb)⟩, hs⟩

theorem step_holds {body} {t t' : Thread} {s s' : Caches} (h : t.step body s = some (t', s')) :
    (t'.holds = t.holds ∧ s'.busy = s.busy) ∨
    (∃ i, i ∉ s.busy ∧ t'.holds = i :: t.holds ∧ s'.busy = i :: s.busy) ∨
    (∃ i, t.holds = i :: t'.holds ∧ s'.busy = s.busy.erase i) := by
  obtain ⟨f, st⟩ := t
  cases f with
  | eval y =>
    cases y with
    | leaf b =>
      simp only [Thread.step, Option.some.injEq, Prod.mk.injEq] at h
      obtain ⟨rfl, rfl⟩ := h
      exact Or.inl ⟨rfl, rfl⟩
    | or a b =>
      simp only [Thread.step, Option.some.injEq, Prod.mk.injEq] at h
      obtain ⟨rfl, rfl⟩ := h
      exact Or.inl ⟨rfl, rfl⟩
    | ref i =>
      simp only [Thread.step] at h
      cases hc : s.cached i with
      | some b =>
        rw [hc] at h
        simp only [Option.some.injEq, Prod.mk.injEq] at h
        obtain ⟨rfl, rfl⟩ := h
        exact Or.inl ⟨rfl, rfl⟩
      | none =>
        rw [hc] at h
        simp only [Option.some.injEq, Prod.mk.injEq] at h
        obtain ⟨rfl, rfl⟩ := h
        exact Or.inl ⟨rfl, rfl⟩
  | tryFlag i =>
    simp only [Thread.step] at h
    by_cases hb : i ∈ s.busy
    · rw [if_pos hb] at h
      simp only [Option.some.injEq, Prod.mk.injEq] at h
      obtain ⟨rfl, rfl⟩ := h
      exact Or.inl ⟨rfl, rfl⟩
    · rw [if_neg hb] at h
      simp only [Option.some.injEq, Prod.mk.injEq] at h
      obtain ⟨rfl, rfl⟩ := h
      exact Or.inr (Or.inl ⟨i, hb, rfl, rfl⟩)
  | enter i =>
    simp only [Thread.step] at h
    cases hc : s.cached i with
    | some b =>
      rw [hc] at h
      simp only [Option.some.injEq, Prod.mk.injEq] at h
      obtain ⟨rfl, rfl⟩ := h
      exact Or.inl ⟨rfl, rfl⟩
    | none =>
      rw [hc] at h
      simp only [Option.some.injEq, Prod.mk.injEq] at h
      obtain ⟨rfl, rfl⟩ := h
      exact Or.inl ⟨rfl, rfl⟩
  | answer b =>
    cases st with
    | nil => simp only [Thread.step] at h; cases h
    | cons fr st =>
      cases fr with
      | orElse z =>
        cases b with
        | true =>
          simp only [Thread.step, if_true, Option.some.injEq, Prod.mk.injEq] at h
          obtain ⟨rfl, rfl⟩ := h
          exact Or.inl ⟨rfl, rfl⟩
        | false =>
          simp only [Thread.step, Bool.false_eq_true, if_false, Option.some.injEq, Prod.mk.injEq] at h
          obtain ⟨rfl, rfl⟩ := h
          exact Or.inl ⟨rfl, rfl⟩
      | store i =>
        simp only [Thread.step, Option.some.injEq, Prod.mk.injEq] at h
        obtain ⟨rfl, rfl⟩ := h
        exact Or.inl ⟨rfl, rfl⟩
      | reset i =>
        simp only [Thread.step, Option.some.injEq, Prod.mk.injEq] at h
        obtain ⟨rfl, rfl⟩ := h
        exact Or.inr (Or.inr ⟨i, rfl, rfl⟩)

theorem perm_set (ts : List Thread) (n : Nat) (t t' : Thread) (h : ts[n]? = some t) :
    ∃ rest, (ts.flatMap Thread.holds).Perm (t.holds ++ rest) ∧
      ((ts.set n t').flatMap Thread.holds).Perm (t'.holds ++ rest) := by
  induction ts generalizing n with
  | nil => cases h
  | cons u ts ih =>
    cases n with
    | zero =>
      simp only [List.getElem?_cons_zero, Option.some.injEq] at h
      subst h
      exact ⟨ts.flatMap Thread.holds, by simp, by simp⟩
    | succ n =>
      simp only [List.getElem?_cons_succ] at h
      obtain ⟨rest, h1, h2⟩ := ih n h
      refine ⟨u.holds ++ rest, ?_, ?_⟩
      · simp only [List.flatMap_cons]
        exact (h1.append_left _).trans (List.perm_append_comm_assoc ..)
      · simp only [List.set_cons_succ, List.flatMap_cons]
        exact (h2.append_left _).trans (List.perm_append_comm_assoc ..)

/-- Invariant of all threads: the flags set are those the threads hold, each held once. -/
def Held (c : List Thread × Caches) : Prop := (c.1.flatMap Thread.holds).Perm c.2.busy ∧ c.2.busy.Nodup

theorem held_step {body} {c d : List Thread × Caches} (h : Step body c d) (hc : Held c) : Held d := by
  cases h with
  | step n t t' s' hn hs =>
    rename_i ts s
    obtain ⟨rest, h1, h2⟩ := perm_set ts n t t' hn
    obtain ⟨hp, hnd⟩ := hc
    dsimp only at hp hnd
    rcases step_holds hs with ⟨e1, e2⟩ | ⟨i, hi, e1, e2⟩ | ⟨i, e1, e2⟩
    · refine ⟨?_, by dsimp only; rw [e2]; exact hnd⟩
      dsimp only
      rw [e2]
      rw [e1] at h2
      exact h2.trans (h1.symm.trans hp)
    · refine ⟨?_, by dsimp only; rw [e2]; exact List.nodup_cons.2 ⟨hi, hnd⟩⟩
      dsimp only
      rw [e2]
      rw [e1] at h2
      exact h2.trans ((h1.symm.trans hp).cons i)
    · refine ⟨?_, by dsimp only; rw [e2]; exact hnd.erase i⟩
      dsimp only
      rw [e2]
      rw [e1] at h1
      have h3 : (i :: (t'.holds ++ rest)).Perm s.busy := h1.symm.trans hp
      have h4 := h3.erase i
      simp only [List.erase_cons_head] at h4
      exact h2.trans h4

theorem keeps_step {body} {t t' : Thread} {s s' : Caches} (h : t.step body s = some (t', s')) {i : Nat} {b : Bool}
    (hi : s.cached i = some b) : s'.cached i = some b ∨ ∃ st, t.stack = .store i :: st := by
  obtain ⟨f, st⟩ := t
  cases f with
  | eval y =>
    cases y with
    | leaf b =>
      simp only [Thread.step, Option.some.injEq, Prod.mk.injEq] at h
      obtain ⟨rfl, rfl⟩ := h
      exact Or.inl hi
    | or a b =>
      simp only [Thread.step, Option.some.injEq, Prod.mk.injEq] at h
      obtain ⟨rfl, rfl⟩ := h
      exact Or.inl hi
    | ref j =>
      simp only [Thread.step] at h
      cases hc : s.cached j <;> rw [hc] at h <;> simp only [Option.some.injEq, Prod.mk.injEq] at h <;>
        (obtain ⟨rfl, rfl⟩ := h; exact Or.inl hi)
  | tryFlag j =>
    simp only [Thread.step] at h
    split at h <;> simp only [Option.some.injEq, Prod.mk.injEq] at h <;> (obtain ⟨rfl, rfl⟩ := h; exact Or.inl hi)
  | enter j =>
    simp only [Thread.step] at h
    cases hc : s.cached j <;> rw [hc] at h <;> simp only [Option.some.injEq, Prod.mk.injEq] at h <;>
      (obtain ⟨rfl, rfl⟩ := h; exact Or.inl hi)
  | answer c =>
    cases st with
    | nil => simp only [Thread.step] at h; cases h
    | cons fr st =>
      cases fr with
      | orElse z =>
        simp only [Thread.step] at h
        split at h <;> simp only [Option.some.injEq, Prod.mk.injEq] at h <;> (obtain ⟨rfl, rfl⟩ := h; exact Or.inl hi)
      | store j =>
        simp only [Thread.step, Option.some.injEq, Prod.mk.injEq] at h
        obtain ⟨rfl, rfl⟩ := h
        by_cases hij : i = j
        · subst hij; exact Or.inr ⟨st, rfl⟩
        · left; simp only [Caches.set, if_neg hij]; exact hi
      | reset j =>
        simp only [Thread.step, Option.some.injEq, Prod.mk.injEq] at h
        obtain ⟨rfl, rfl⟩ := h
        exact Or.inl hi

/-- While a thread is computing the answer of a reference nothing is cached for it. -/
def Uncached (c : List Thread × Caches) : Prop := ∀ t ∈ c.1, ∀ i, Frame.store i ∈ t.stack → c.2.cached i = none

theorem nodup_of_held {c : List Thread × Caches} (hc : Held c) : (c.1.flatMap Thread.holds).Nodup :=
  (hc.1.nodup_iff).2 hc.2

theorem mem_holds {t : Thread} {i : Nat} (h : Frame.store i ∈ t.stack) : i ∈ t.holds :=
  List.mem_append.2 (Or.inr (List.mem_flatMap.2 ⟨_, h, List.mem_singleton.2 rfl⟩))

theorem stack_step {body} {t t' : Thread} {s s' : Caches} (h : t.step body s = some (t', s')) {i : Nat}
    (hi : Frame.store i ∈ t'.stack) : Frame.store i ∈ t.stack ∨ s'.cached i = none := by
  obtain ⟨f, st⟩ := t
  cases f with
  | eval y =>
    cases y with
    | leaf b =>
      simp only [Thread.step, Option.some.injEq, Prod.mk.injEq] at h
      obtain ⟨rfl, rfl⟩ := h
      exact Or.inl hi
    | or a b =>
      simp only [Thread.step, Option.some.injEq, Prod.mk.injEq] at h
      obtain ⟨rfl, rfl⟩ := h
      left; simpa using hi
    | ref j =>
      simp only [Thread.step] at h
      cases hc : s.cached j <;> rw [hc] at h <;> simp only [Option.some.injEq, Prod.mk.injEq] at h <;>
        (obtain ⟨rfl, rfl⟩ := h; exact Or.inl hi)
  | tryFlag j =>
    simp only [Thread.step] at h
    split at h <;> simp only [Option.some.injEq, Prod.mk.injEq] at h <;> (obtain ⟨rfl, rfl⟩ := h; exact Or.inl hi)
  | enter j =>
    simp only [Thread.step] at h
    cases hc : s.cached j with
    | some b =>
      rw [hc] at h; simp only [Option.some.injEq, Prod.mk.injEq] at h
      obtain ⟨rfl, rfl⟩ := h
      left; simpa using hi
    | none =>
      rw [hc] at h; simp only [Option.some.injEq, Prod.mk.injEq] at h
      obtain ⟨rfl, rfl⟩ := h
      simp only [List.mem_cons, Frame.store.injEq] at hi
      rcases hi with rfl | hi
      · exact Or.inr hc
      · exact Or.inl hi
  | answer c =>
    cases st with
    | nil => simp only [Thread.step] at h; cases h
    | cons fr st =>
      cases fr with
      | orElse z =>
        simp only [Thread.step] at h
        split at h <;> simp only [Option.some.injEq, Prod.mk.injEq] at h <;>
          (obtain ⟨rfl, rfl⟩ := h; exact Or.inl (List.mem_cons_of_mem _ hi))
      | store j =>
        simp only [Thread.step, Option.some.injEq, Prod.mk.injEq] at h
        obtain ⟨rfl, rfl⟩ := h
        left
        refine List.mem_cons_of_mem _ ?_
        simpa using hi
      | reset j =>
        simp only [Thread.step, Option.some.injEq, Prod.mk.injEq] at h
        obtain ⟨rfl, rfl⟩ := h
        exact Or.inl (List.mem_cons_of_mem _ hi)

theorem store_step {body} {t t' : Thread} {s s' : Caches} (h : t.step body s = some (t', s')) {i : Nat}
    (hi : s.cached i = none) : s'.cached i = none ∨ ∃ st b, t.stack = .store i :: st ∧ t'.stack = .reset i :: st ∧
      t.focus = .answer b := by
  obtain ⟨f, st⟩ := t
  cases f with
  | eval y =>
    cases y with
    | leaf b =>
      simp only [Thread.step, Option.some.injEq, Prod.mk.injEq] at h
      obtain ⟨rfl, rfl⟩ := h
      exact Or.inl hi
    | or a b =>
      simp only [Thread.step, Option.some.injEq, Prod.mk.injEq] at h
      obtain ⟨rfl, rfl⟩ := h
      exact Or.inl hi
    | ref j =>
      simp only [Thread.step] at h
      cases hc : s.cached j <;> rw [hc] at h <;> simp only [Option.some.injEq, Prod.mk.injEq] at h <;>
        (obtain ⟨rfl, rfl⟩ := h; exact Or.inl hi)
  | tryFlag j =>
    simp only [Thread.step] at h
    split at h <;> simp only [Option.some.injEq, Prod.mk.injEq] at h <;> (obtain ⟨rfl, rfl⟩ := h; exact Or.inl hi)
  | enter j =>
    simp only [Thread.step] at h
    cases hc : s.cached j <;> rw [hc] at h <;> simp only [Option.some.injEq, Prod.mk.injEq] at h <;>
      (obtain ⟨rfl, rfl⟩ := h; exact Or.inl hi)
  | answer c =>
    cases st with
    | nil => simp only [Thread.step] at h; cases h
    | cons fr st =>
      cases fr with
      | orElse z =>
        simp only [Thread.step] at h
        split at h <;> simp only [Option.some.injEq, Prod.mk.injEq] at h <;> (obtain ⟨rfl, rfl⟩ := h; exact Or.inl hi)
      | store j =>
        simp only [Thread.step, Option.some.injEq, Prod.mk.injEq] at h
        obtain ⟨rfl, rfl⟩ := h
        by_cases hij : i = j
        · subst hij; exact Or.inr ⟨st, c, rfl, rfl, rfl⟩
        · left; simp only [Caches.set, if_neg hij]; exact hi
      | reset j =>
        simp only [Thread.step, Option.some.injEq, Prod.mk.injEq] at h
        obtain ⟨rfl, rfl⟩ := h
        exact Or.inl hi

/-- Two threads hold different flags. -/
theorem holds_disjoint {ts : List Thread} (h : (ts.flatMap Thread.holds).Nodup) {n m : Nat} {t u : Thread}
    (hn : ts[n]? = some t) (hm : ts[m]? = some u) (hnm : n ≠ m) {i : Nat} (hi : i ∈ t.holds) : i ∉ u.holds := by
  induction ts generalizing n m with
  | nil => cases hn
  | cons v ts ih =>
    rw [List.flatMap_cons, List.nodup_append] at h
    have mem : ∀ {k : Nat} {w : Thread}, ts[k]? = some w → ∀ j ∈ w.holds, j ∈ ts.flatMap Thread.holds :=
      fun hk j hj => List.mem_flatMap.2 ⟨_, List.mem_of_getElem? hk, hj⟩
    cases n with
    | zero =>
      cases m with
      | zero => exact absurd rfl hnm
      | succ m =>
        simp only [List.getElem?_cons_zero, Option.some.injEq, List.getElem?_cons_succ] at hn hm
        subst hn
        intro hu
        exact h.2.2 i hi i (mem hm i hu) rfl
    | succ n =>
      cases m with
      | zero =>
        simp only [List.getElem?_cons_zero, Option.some.injEq, List.getElem?_cons_succ] at hn hm
        subst hm
        intro hu
        exact h.2.2 i hu i (mem hn i hi) rfl
      | succ m =>
        simp only [List.getElem?_cons_succ] at hn hm
        exact ih h.2.1 hn hm (fun e => hnm (by rw [e]))

theorem uncached_step {body} {c d : List Thread × Caches} (h : Step body c d) (hc : Held c) (hu : Uncached c) :
    Uncached d := by
  have hd := held_step h hc
  cases h with
  | step n t t' s' hn hs =>
    rename_i ts s
    intro u hu' i hi
    dsimp only at hu' ⊢
    obtain ⟨m, hm⟩ := List.mem_iff_getElem?.1 hu'
    have hnlt : n < ts.length := by
      rcases Nat.lt_or_ge n ts.length with h | h
      · exact h
      · rw [List.getElem?_eq_none h] at hn; cases hn
    have hn' : (ts.set n t')[n]? = some t' := by simp [hnlt]
    -- the cache of `i` is empty before the step, or filled in it
    have before : s'.cached i = none ∨ s.cached i = none := by
      by_cases hmn : m = n
      · subst hmn
        rw [hn'] at hm
        cases hm
        rcases stack_step hs hi with h | h
        · exact Or.inr (hu t (List.mem_of_getElem? hn) i h)
        · exact Or.inl h
      · right
        rw [List.getElem?_set_ne (Ne.symm hmn)] at hm
        exact hu u (List.mem_of_getElem? hm) i hi
    rcases before with h | h
    · exact h
    rcases store_step hs h with h | ⟨st, b, h1, h2, h3⟩
    · exact h
    · -- the stepping thread fills it, so that it holds the flag both in `t'` and in `u`
      exfalso
      have hmem : i ∈ t'.holds := by
        simp [Thread.holds, h2, Frame.holds]
      by_cases hmn : m = n
      · subst hmn
        rw [hn'] at hm
        cases hm
        obtain ⟨rest, hp1, hp2⟩ := perm_set ts m t t' hn
        have hnd := hp2.nodup_iff.1 (nodup_of_held hd)
        have hnd' : t'.holds.Nodup := (List.nodup_append.1 hnd).1
        have hst : Frame.store i ∈ st := by
          rw [h2] at hi; simpa using hi
        obtain ⟨pre, this⟩ : ∃ pre, t'.holds = pre ++ i :: st.flatMap Frame.holds :=
          ⟨_, by simp only [Thread.holds, h2, List.flatMap_cons, Frame.holds]; rfl⟩
        rw [this] at hnd'
        have h4 := (List.nodup_append.1 hnd').2.1
        rw [List.nodup_cons] at h4
        exact h4.1 (List.mem_flatMap.2 ⟨_, hst, List.mem_singleton.2 rfl⟩)
      · exact holds_disjoint (nodup_of_held hd) hn' hm (Ne.symm hmn) hmem (mem_holds hi)

theorem keep_step {body} {c d : List Thread × Caches} (h : Step body c d) (hu : Uncached c) {i : Nat} {b : Bool}
    (hi : c.2.cached i = some b) : d.2.cached i = some b := by
  cases h with
  | step n t t' s' hn hs =>
    rename_i ts s
    rcases keeps_step hs hi with h | ⟨st, h⟩
    · exact h
    · have := hu t (List.mem_of_getElem? hn) i (by rw [h]; exact List.mem_cons_self)
      rw [this] at hi; cases hi

theorem start_holds (xs : List Ser) : (xs.map Thread.asking).flatMap Thread.holds = [] := by
  induction xs with
  | nil => rfl
  | cons x xs ih => rw [List.map_cons, List.flatMap_cons, ih]; rfl

theorem start_ok (xs : List Ser) : Held (start xs) ∧ Uncached (start xs) := by
  refine ⟨⟨?_, List.nodup_nil⟩, ?_⟩
  · show ((xs.map Thread.asking).flatMap Thread.holds).Perm []
    rw [start_holds]
  · intro t ht i hi
    obtain ⟨x, _, rfl⟩ := List.mem_map.1 ht
    cases hi

theorem len_steps {body} {c d : List Thread × Caches} (h : Steps body c d) : d.1.length = c.1.length := by
  induction h with
  | refl => rfl
  | tail _ hs ih => cases hs with | step n t t' s' hn hs => simpa using ih

theorem steps_ok {body} {c d : List Thread × Caches} (h : Steps body c d) (hc : Held c ∧ Uncached c) :
    Held d ∧ Uncached d := by
  induction h with
  | refl => exact hc
  | tail _ hs ih => exact ⟨held_step hs ih.1, uncached_step hs ih.1 ih.2⟩

theorem Steps.trans {body : Nat → Ser} {c d e} (h : Steps body c d) (h' : Steps body d e) : Steps body c e := by
  induction h' with
  | refl => exact h
  | tail _ hs ih => exact .tail ih hs

/-- A thread on its own takes the steps of `ask`. -/
theorem alone {body : Nat → Ser} {x s b s'} (h : Asks body x s b s') (st : List Frame) :
    Steps body ([⟨.eval x, st⟩], s) ([⟨.answer b, st⟩], s') := by
  have one : ∀ {t t' : Thread} {s s' : Caches}, t.step body s = some (t', s') → Steps body ([t], s) ([t'], s') :=
    fun h => .tail .refl (.step 0 _ _ _ rfl h)
  induction h generalizing st with
  | leaf => exact one rfl
  | orTrue _ ih => exact ((one rfl).trans (ih _)).trans (one rfl)
  | orFalse _ _ iha ihb => exact (((one rfl).trans (iha _)).trans (one rfl)).trans (ihb _)
  | cached hc => exact one (by simp only [Thread.step, hc])
  | busy hc hb =>
    rename_i i s
    refine (one (t' := ⟨.tryFlag i, st⟩) (s' := s) (by simp only [Thread.step, hc])).trans (one ?_)
    simp only [Thread.step, if_pos hb]
  | new hc hb _ ih =>
    rename_i i s b s' ha
    refine (((((one (t' := ⟨.tryFlag i, st⟩) (s' := s) (by simp only [Thread.step, hc])).trans
      (one (t' := ⟨.enter i, st⟩) (s' := { s with busy := i :: s.busy }) (by simp only [Thread.step, if_neg hb]))).trans
      (one (t' := ⟨.eval (body i), .store i :: st⟩) (by simp only [Thread.step, hc]))).trans (ih _)).trans
      (one (t' := ⟨.answer b, .reset i :: st⟩) rfl)).trans (one ?_)
    rfl

/-- The run of a schedule, a list of the threads that take the steps. -/
def runs (body : Nat → Ser) : List Nat → List Thread × Caches → Option (List Thread × Caches)
  | [], c => some c
  | n :: ns, (ts, s) =>
    match ts[n]? with
    | none => none
    | some t =>
      match t.step body s with
      | none => none
      | some (t', s') => runs body ns (ts.set n t', s')

theorem runs_steps (body : Nat → Ser) (ns : List Nat) (c d : List Thread × Caches) (h : runs body ns c = some d) :
    Steps body c d := by
  induction ns generalizing c with
  | nil => simp only [runs, Option.some.injEq] at h; subst h; exact .refl
  | cons n ns ih =>
    obtain ⟨ts, s⟩ := c
    simp only [runs] at h
    cases hn : ts[n]? with
    | none => rw [hn] at h; cases h
    | some t =>
      rw [hn] at h
      dsimp only at h
      cases hs : t.step body s with
      | none => rw [hs] at h; cases h
      | some p =>
        obtain ⟨t', s'⟩ := p
        rw [hs] at h
        exact (Steps.tail .refl (.step n t t' s' hn hs)).trans (ih _ h)

end PC.LaxRetry
