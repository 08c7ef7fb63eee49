import Verif.Lemmas.LaxThreads

/-
C102: threads that share a serialiser.
-/

namespace PC.LaxRetry

/-- `a = list[b]`, `b` a model; no recursion. -/
private def pair : Nat → Ser
  | 0 => .ref 1
  | _ => .leaf true

/-- **C102.** No thread ever waits: a thread has a next step unless it has its answer. -/
theorem no_waiting (body : Nat → Ser) (t : Thread) (s : Caches) :
    (∃ t' s', t.step body s = some (t', s')) ∨ ∃ b, t = ⟨.answer b, []⟩ := by
  obtain ⟨f, st⟩ := t
  cases f with
  | eval x =>
    cases x with
    | leaf b => exact Or.inl ⟨_, _, rfl⟩
    | or a b => exact Or.inl ⟨_, _, rfl⟩
    | ref i => cases hc : s.cached i <;> exact Or.inl ⟨_, _, by simp only [Thread.step, hc]; rfl⟩
  | tryFlag i =>
    by_cases hb : i ∈ s.busy
    · exact Or.inl ⟨_, _, by simp only [Thread.step, if_pos hb]; rfl⟩
    · exact Or.inl ⟨_, _, by simp only [Thread.step, if_neg hb]; rfl⟩
  | enter i => cases hc : s.cached i <;> exact Or.inl ⟨_, _, by simp only [Thread.step, hc]; rfl⟩
  | answer b =>
    cases st with
    | nil => exact Or.inr ⟨b, rfl⟩
    | cons fr st =>
      cases fr with
      | orElse x => cases b <;> exact Or.inl ⟨_, _, rfl⟩
      | store i => exact Or.inl ⟨_, _, rfl⟩
      | reset i => exact Or.inl ⟨_, _, rfl⟩

/-- **C102.** However the steps of threads are mixed, no two threads compute the answer of the same reference at
the same time, and no thread computes it within its own computation. -/
theorem one_computation (body : Nat → Ser) (xs : List Ser) (ts : List Thread) (s : Caches)
    (h : Steps body (start xs) (ts, s)) :
    (∀ (n m : Nat) (t u : Thread) (i : Nat), ts[n]? = some t → ts[m]? = some u → n ≠ m → i ∈ t.holds → i ∉ u.holds) ∧
    (∀ t ∈ ts, t.holds.Nodup) := by
  have hd := nodup_of_held (steps_ok h (start_ok xs)).1
  refine ⟨fun n m t u i hn hm hnm hi => holds_disjoint hd hn hm hnm hi, fun t ht => ?_⟩
  obtain ⟨n, hn⟩ := List.mem_iff_getElem?.1 ht
  obtain ⟨rest, hp, _⟩ := perm_set ts n t t hn
  exact (List.nodup_append.1 (hp.nodup_iff.1 hd)).1

-- the first thread computes the answer of 1, the second that of 0
example : ∃ t u, (runs pair [0, 0, 1, 1, 1] (start [.ref 1, .ref 0])).map (·.1) = some [t, u] ∧
    t.holds = [1] ∧ u.holds = [0] := ⟨_, _, rfl, rfl, rfl⟩

/-- **C102.** However the steps of threads are mixed, an answer that was cached is never replaced. -/
theorem cached_once (body : Nat → Ser) (xs : List Ser) (c d : List Thread × Caches)
    (hc : Steps body (start xs) c) (h : Steps body c d) (i : Nat) (b : Bool) (hi : c.2.cached i = some b) :
    d.2.cached i = some b := by
  have hk := steps_ok hc (start_ok xs)
  induction h with
  | refl => exact hi
  | tail h hs ih => exact keep_step hs (steps_ok h hk).2 ih

example : ∃ c, Steps pair (start [.ref 1, .ref 0]) c ∧ c.2.cached 1 = some true ∧
    c.1[1]? = some (.asking (.ref 0)) :=
  ⟨_, runs_steps _ [0, 0, 0, 0, 0] _ _ rfl, rfl, rfl⟩

/-- **C102.** However the steps of threads are mixed, a thread is told yes only if a serialiser that accepts more
the second time can be reached from what it asked for. -/
theorem threads_never_wrongly_yes (body : Nat → Ser) (xs : List Ser) (ts : List Thread) (s : Caches)
    (h : Steps body (start xs) (ts, s)) (n : Nat) (x : Ser) (hx : xs[n]? = some x)
    (ht : ts[n]? = some ⟨.answer true, []⟩) : Reaches body x := by
  have key : ∀ {c}, Steps body (start xs) c →
      (∀ (n : Nat) (x : Ser) (t : Thread), xs[n]? = some x → c.1[n]? = some t → t.Ok body x) ∧ Sound body c.2 := by
    intro c h
    induction h with
    | refl =>
      refine ⟨fun n x t hx ht => ?_, fun i hi => by cases hi⟩
      simp only [start, List.getElem?_map, hx, Option.map_some, Option.some.injEq] at ht
      subst ht
      exact Leads.start
    | tail h0 hs ih =>
      cases hs with
      | step m t t' s' hm hst =>
        rename_i ts s
        have hmlt : m < ts.length := by
          rcases Nat.lt_or_ge m ts.length with h | h
          · exact h
          · rw [List.getElem?_eq_none h] at hm; cases hm
        refine ⟨fun n x u hx hu => ?_, ?_⟩
        · by_cases hnm : n = m
          · subst hnm
            simp only [List.getElem?_set_self hmlt, Option.some.injEq] at hu
            subst hu
            exact (step_ok hst (ih.1 n x t hx hm) ih.2).1
          · dsimp only at hu
            rw [List.getElem?_set_ne (Ne.symm hnm)] at hu
            exact ih.1 n x u hx hu
        · rcases hxm : xs[m]? with _ | x
          · exfalso
            have hl := len_steps h0
            simp only [start, List.length_map] at hl
            rw [List.getElem?_eq_none_iff] at hxm
            omega
          · exact (step_ok hst (ih.1 m x t hxm hm) ih.2).2
  obtain ⟨y, hy, hr⟩ := (key h).1 n x _ hx ht
  exact leads_end hy (hr rfl)

example : ∃ ts s, Steps pair (start [.ref 1, .ref 0]) (ts, s) ∧ ts[0]? = some ⟨.answer true, []⟩ ∧
    ts[1]? = some ⟨.answer true, []⟩ :=
  ⟨_, _, runs_steps _ [0, 0, 1, 1, 0, 0, 0, 1, 1, 1, 1, 0] _ _ rfl, rfl, rfl⟩

/-- **C102.** A thread that runs while no other does gets the answer of `ask` (C100) and leaves the caches as `ask`
does. -/
theorem alone_is_ask (body : Nat → Ser) (n : Nat) (x : Ser) (s : Caches) (b : Bool) (s' : Caches)
    (h : ask body n x s = some (b, s')) : Steps body ([.asking x], s) ([⟨.answer b, []⟩], s') :=
  alone (asks_of_ask h) []

example : (ask pair 3 (.ref 0) .new).map (·.1) = some true := by decide

/-- **C102 fails.** Although no definition is recursive, two threads that use a serialiser for the first time at the
same time can leave it with the wrong answer: one of them is told no while the other computes the answer of a
reference both need, and what it makes of that is cached. From then on everybody is told no, though a model can be
reached. -/
theorem threads_spoil :
    ∃ (body : Nat → Ser) (x y : Ser) (ts : List Thread) (s : Caches), NotRecursive body ∧ Reaches body x ∧
      Steps body (start [x, y]) (ts, s) ∧ (∀ t ∈ ts, ∃ b, t = ⟨.answer b, []⟩) ∧ s.busy = [] ∧
      ∀ n, ask body (n + 1) x s = some (false, s) := by
  refine ⟨pair, .ref 0, .ref 1, [⟨.answer false, []⟩, ⟨.answer true, []⟩],
    ((runs pair [1, 1, 0, 0, 0, 0, 0, 0, 0, 1, 1, 1, 1] (start [.ref 0, .ref 1])).get (by decide)).2,
    ⟨fun i => 1 - i, ?_⟩, .ref (.ref .leaf), runs_steps _ [1, 1, 0, 0, 0, 0, 0, 0, 0, 1, 1, 1, 1] _ _ rfl, ?_, rfl, fun n => rfl⟩
  · intro i j hj
    match i with
    | 0 => simp only [pair, Ser.Mentions] at hj; subst hj; decide
    | _ + 1 => exact hj.elim
  · intro t ht
    simp only [List.mem_cons, List.not_mem_nil, or_false] at ht
    rcases ht with rfl | rfl <;> exact ⟨_, rfl⟩

end PC.LaxRetry
