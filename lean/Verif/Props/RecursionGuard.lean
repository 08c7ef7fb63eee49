import Verif.Lemmas.RecursionGuard

/-
Properties C05, C06 and the nesting part of C07: recursion tracking.
-/

namespace PC.Guard

/-! ### Specification: an ideal guard is just the list of currently open keys. -/

mutual
/-- An attempt for an open key is a cycle; an attempt with `limit` keys open is too deep;
every other attempt succeeds and its key is open during its body, and only then. -/
def specCall (limit : Nat) (opn : List Key) : Call → Outcome
  | .node k body =>
    if k ∈ opn then .refused k .cyclic
    else if limit ≤ opn.length then .refused k .depth
    else .held k (specCalls limit (k :: opn) body)
def specCalls (limit : Nat) (opn : List Key) : List Call → List Outcome
  | [] => []
  | c :: cs => specCall limit opn c :: specCalls limit opn cs
end

mutual
/-- No attempt anywhere in the outcome was refused for being too deep. -/
def noDepth : Outcome → Bool
  | .refused _ .depth => false
  | .refused _ .cyclic => true
  | .held _ inner => noDepths inner
def noDepths : List Outcome → Bool
  | [] => true
  | o :: os => noDepth o && noDepths os
end

mutual
/-- Number of guards held at the same time at the deepest point. -/
def height : Outcome → Nat
  | .refused _ _ => 0
  | .held _ inner => 1 + heights inner
def heights : List Outcome → Nat
  | [] => 0
  | o :: os => max (height o) (heights os)
end

/-- What a caller sees of a whole run started with nothing open; `none` is a panic. -/
def outcomes (p : Platform) (cs : List Call) : Option (List Outcome) :=
  (runCalls p State.init cs).map (·.1)

/-! ### The guard never panics -/

/-- Dropping a guard never trips the "remove did not match insert"/"empty" panics: every run,
whatever is nested in whatever way and however deep, completes. -/
theorem guard_never_panics (p : Platform) (hp : p.Valid) (cs : List Call) :
    outcomes p cs ≠ none := by
  obtain ⟨o, st', h, _⟩ := runCalls_weak hp [] State.init (by simp [Weak, State.init]) cs
  simp [outcomes, h]

/-! ### C06: cycle detection is exact -/

mutual
theorem runCall_spec {p : Platform} (hp : p.Valid) (opn : List Key) (st : State)
    (h : Good p opn st) : (c : Call) → noDepth (specCall p.limit opn c) = true →
    ∃ st', runCall p st c = some (specCall p.limit opn c, st') ∧ Good p opn st'
  | .node k children, hn => by
    obtain ⟨e1, e2, e3⟩ := enter_good hp k h
    by_cases hk : k ∈ opn
    · obtain ⟨st1, he, hg⟩ := e1 hk
      simp only [runCall, he, specCall, hk, if_true]
      exact ⟨_, rfl, hg⟩
    · by_cases hlt : opn.length < p.limit
      · obtain ⟨st1, he, hg⟩ := e2 hk hlt
        have hnl : ¬ (p.limit ≤ opn.length) := by omega
        simp only [specCall, hk, hnl, if_false, noDepth] at hn
        obtain ⟨st2, hr, hg2⟩ := runCalls_spec hp (k :: opn) st1 hg children hn
        obtain ⟨st3, hl, hg3⟩ := leave_good hg2
        simp only [runCall, he, hr, hl, specCall, hk, hnl, if_false]
        exact ⟨_, rfl, hg3⟩
      · have hge : p.limit ≤ opn.length := by omega
        simp [specCall, hk, hge, noDepth] at hn
theorem runCalls_spec {p : Platform} (hp : p.Valid) (opn : List Key) (st : State)
    (h : Good p opn st) : (cs : List Call) → noDepths (specCalls p.limit opn cs) = true →
    ∃ st', runCalls p st cs = some (specCalls p.limit opn cs, st') ∧ Good p opn st'
  | [], _ => ⟨st, rfl, h⟩
  | c :: cs, hn => by
    simp only [specCalls, noDepths, Bool.and_eq_true] at hn
    obtain ⟨st1, h1, g1⟩ := runCall_spec hp opn st h c hn.1
    obtain ⟨st2, h2, g2⟩ := runCalls_spec hp opn st1 g1 cs hn.2
    simp only [runCalls, h1, h2, specCalls]
    exact ⟨_, rfl, g2⟩
end

/-- C06. In every run in which the depth limit is not reached, the guard refuses exactly the
attempts whose key is open at that moment (and runs the bodies of all the others), however
many guards are open, i.e. in either representation of the store.
Partial: once the depth limit is hit the behaviour differs from the ideal guard, see
`guard_leaks_after_depth`. -/
theorem cycle_detection_exact_partial (p : Platform) (hp : p.Valid) (cs : List Call)
    (hn : noDepths (specCalls p.limit [] cs) = true) :
    outcomes p cs = some (specCalls p.limit [] cs) := by
  obtain ⟨st', h, _⟩ := runCalls_spec hp [] State.init (good_init p) cs hn
  simp [outcomes, h]

/-- Non-vacuity: a run with a cycle, and two visits of the same key side by side. -/
example : outcomes .release
    [.node (1, 0) [.node (2, 0) [.node (1, 0) [.node (3, 0) []]], .node (2, 0) []]] =
    some [.held (1, 0) [.held (2, 0) [.refused (1, 0) .cyclic], .held (2, 0) []]] := by
  rw [cycle_detection_exact_partial .release (Or.inl ⟨rfl, rfl⟩) _ (by decide)]
  simp [specCalls, specCall, Platform.release]

/-! ### C05: tracking is restored -/

/-- C05. Whatever ran before (`before`) has no influence on what runs afterwards, provided the
depth limit was not reached in `before`; nothing is assumed about `after`.
Partial: the hypothesis on the depth limit cannot be dropped, see `guard_leaks_after_depth`. -/
theorem tracking_restored_partial (p : Platform) (hp : p.Valid) (before after : List Call)
    (hn : noDepths (specCalls p.limit [] before) = true) :
    ∃ o1 o2, outcomes p before = some o1 ∧ outcomes p after = some o2 ∧
      outcomes p (before ++ after) = some (o1 ++ o2) := by
  obtain ⟨st1, h1, g1⟩ := runCalls_spec hp [] State.init (good_init p) before hn
  have e : Equiv [] st1 State.init :=
    ⟨fun k => by rw [g1.mem, (good_init p).mem], by rw [g1.depth]; rfl, g1.keysNodup,
      (good_init p).keysNodup, good_weak g1, good_weak (good_init p)⟩
  obtain ⟨o2, a2, b2, ra, rb, _⟩ := runCalls_equiv hp [] st1 State.init e after
  refine ⟨_, o2, by simp [outcomes, h1]; rfl, by simp [outcomes, rb], ?_⟩
  simp [outcomes, runCalls_append, h1, ra]

example : noDepths (specCalls Platform.release.limit []
    [.node (1, 0) [.node (2, 0) [.node (1, 0) []]]]) = true := by decide

/-- `n` nested attempts for the distinct keys `(n-1,node), …, (0,node)`, innermost `(0,node)`. -/
def chain (node : Nat) : Nat → List Call
  | 0 => []
  | n + 1 => [.node (n, node) (chain node n)]

/-- Whether the last of the outcomes is a cyclic refusal. -/
def lastCyclic : Option (List Outcome) → Bool
  | some [_, .refused _ .cyclic] => true
  | _ => false

/-- The full C05/C06 claim is false: on the release platform, after a run nested 256 deep, the
innermost key stays recorded although nothing is open any more, so a later attempt for that
key alone is refused as cyclic. The run `[.node (0,0) []]` by itself is accepted. -/
theorem guard_leaks_after_depth :
    lastCyclic (outcomes .release (chain 0 256 ++ [.node (0, 0) []])) = true ∧
    outcomes .release [.node (0, 0) []] = some [.held (0, 0) []] := by
  constructor
  · decide +kernel
  · rfl

/-- On platforms with the saturating counter a depth refusal also permanently costs one level:
after it, a run nested exactly `limit` deep, which is accepted on its own, is refused. -/
theorem guard_depth_leaks_on_saturating_platforms :
    (outcomes ⟨49, true⟩ (chain 0 49)).any noDepths = true ∧
    (outcomes ⟨49, true⟩ (chain 0 50 ++ chain 1 49)).any
      (fun os => noDepths (os.drop 1)) = false := by
  constructor <;> decide +kernel

/-! ### C07 (nesting): never more than `limit` guards held at once -/

theorem enter_ok_depth {p : Platform} (hp : p.Valid) {st st1 : State} {k : Key}
    (h : enter p st k = (.ok (), st1)) : st1.depth = st.depth + 1 ∧ st.depth + 1 ≤ p.limit := by
  obtain ⟨hl, hl2, hl3⟩ := valid_limit hp
  have hs2 : p.saturating = true → p.limit ≤ 235 := by unfold Platform.Valid at hp; grind
  simp only [enter, State.incrDepth] at h
  cases hs : p.saturating
  · have := hl3 hs
    grind
  · have := hs2 hs
    grind

theorem enter_err_depth {p : Platform} {st st1 : State} {k : Key} {e}
    (hd : st.depth ≤ 255) (h : enter p st k = (.error e, st1)) :
    st.depth ≤ st1.depth ∧ st1.depth ≤ 255 := by
  simp only [enter, State.incrDepth] at h
  grind

theorem leave_depth {st st1 : State} {k : Key}
    (h : leave st k = some st1) : st1.depth = st.depth - 1 := by
  simp only [leave, State.decrDepth] at h
  grind

mutual
theorem runCall_height {p : Platform} (hp : p.Valid) (st : State) (hd : st.depth ≤ 255) :
    (c : Call) → ∀ o st', runCall p st c = some (o, st') →
      st.depth ≤ st'.depth ∧ st'.depth ≤ 255 ∧ (height o = 0 ∨ height o + st.depth ≤ p.limit)
  | .node k children, o, st', h => by
    obtain ⟨hl, hl2, hl3⟩ := valid_limit hp
    simp only [runCall] at h
    match heq : enter p st k with
    | (.error e, st1) =>
      simp only [heq, Option.some.injEq, Prod.mk.injEq] at h
      obtain ⟨rfl, rfl⟩ := h
      have := enter_err_depth hd heq
      exact ⟨this.1, this.2, Or.inl rfl⟩
    | (.ok (), st1) =>
      have h1 := enter_ok_depth hp heq
      simp only [heq] at h
      cases hr : runCalls p st1 children with
      | none => simp [hr] at h
      | some r =>
        obtain ⟨outs, st2⟩ := r
        have ih := runCalls_height hp st1 (by omega) children outs st2 hr
        simp only [hr] at h
        cases hlv : leave st2 k with
        | none => simp [hlv] at h
        | some st3 =>
          have hld := leave_depth hlv
          simp only [hlv, Option.some.injEq, Prod.mk.injEq] at h
          obtain ⟨rfl, rfl⟩ := h
          simp only [height]
          omega
theorem runCalls_height {p : Platform} (hp : p.Valid) (st : State) (hd : st.depth ≤ 255) :
    (cs : List Call) → ∀ os st', runCalls p st cs = some (os, st') →
      st.depth ≤ st'.depth ∧ st'.depth ≤ 255 ∧ (heights os = 0 ∨ heights os + st.depth ≤ p.limit)
  | [], os, st', h => by
    simp only [runCalls, Option.some.injEq, Prod.mk.injEq] at h
    obtain ⟨rfl, rfl⟩ := h
    simp [heights, hd]
  | c :: cs, os, st', h => by
    simp only [runCalls] at h
    cases h1 : runCall p st c with
    | none => simp [h1] at h
    | some r =>
      obtain ⟨o, st1⟩ := r
      have i1 := runCall_height hp st hd c o st1 h1
      simp only [h1] at h
      cases h2 : runCalls p st1 cs with
      | none => simp [h2] at h
      | some r2 =>
        obtain ⟨os2, st2⟩ := r2
        have i2 := runCalls_height hp st1 (by omega) cs os2 st2 h2
        simp only [h2, Option.some.injEq, Prod.mk.injEq] at h
        obtain ⟨rfl, rfl⟩ := h
        simp only [heights]
        omega
end

/-- C07 (nesting). In every run, leaks included, the number of guards held at once never
exceeds the recursion limit of the platform. -/
theorem nesting_bounded (p : Platform) (hp : p.Valid) (cs : List Call) (os : List Outcome)
    (h : outcomes p cs = some os) : heights os ≤ p.limit := by
  simp only [outcomes, Option.map_eq_some_iff] at h
  obtain ⟨⟨os', st'⟩, hr, rfl⟩ := h
  have := runCalls_height hp State.init (by simp [State.init]) cs os' st' hr
  simp [State.init] at this
  simp only
  omega

/-- Non-vacuity: the bound is attained. -/
example : (outcomes ⟨49, true⟩ (chain 0 60)).map heights = some 49 := by decide +kernel

end PC.Guard
