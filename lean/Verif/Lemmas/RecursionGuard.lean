import Verif.Model.RecursionGuard

namespace PC.Guard

/-- Members of a stack, whatever its representation. -/
def Stack.keys : Stack → List Key
  | .array d => d
  | .set s => s

/-- No-panic invariant: while the array representation is in use it holds exactly the open
keys and the depth counts them. -/
def Weak (opn : List Key) (st : State) : Prop :=
  match st.ids with
  | .array d => d = opn.reverse ∧ d.length ≤ arraySize ∧ st.depth = d.length
  | .set _ => True

theorem valid_limit {p : Platform} (hp : p.Valid) : arraySize < p.limit ∧ p.limit ≤ 255 ∧
    (p.saturating = false → p.limit = 255) := by
  simp only [arraySize]
  unfold Platform.Valid at hp
  grind

theorem enter_weak {p : Platform} (hp : p.Valid) {opn st k} (h : Weak opn st) :
    match enter p st k with
    | (.ok (), st1) => Weak (k :: opn) st1
    | (.error _, st1) => Weak opn st1 := by
  obtain ⟨hl, hl2, hl3⟩ := valid_limit hp
  obtain ⟨ids, depth⟩ := st
  cases ids with
  | set s =>
    simp only [enter, Stack.insert, setInsert, State.incrDepth]
    split <;> rename_i hh <;> simp [Weak] <;> grind
  | array d =>
    simp only [Weak] at h
    obtain ⟨h1, h2, h3⟩ := h
    simp only [enter, Stack.insert, State.incrDepth]
    by_cases hlen : d.length < arraySize
    · simp only [hlen, if_true]
      by_cases hmem : k ∈ d
      · simp [hmem, Weak, h1.symm, h2, h3]
      · simp only [hmem, if_false]
        have hsz : arraySize = 16 := rfl
        cases hs : p.saturating
        · have : d.length + 1 ≤ 255 := by omega
          simp [this, Weak, h3]
          refine ⟨by simp [h1], by omega⟩
        · have h5 : ¬ (p.limit < min (d.length + 1) 255) := by omega
          simp [h3, h5, Weak]
          refine ⟨by simp [h1], by omega, by omega⟩
    · simp only [hlen, if_false]
      split <;> rename_i hh <;> simp only [Weak] <;> grind

theorem leave_weak {opn st k} (h : Weak (k :: opn) st) :
    ∃ st', leave st k = some st' ∧ Weak opn st' := by
  obtain ⟨ids, depth⟩ := st
  cases ids with
  | set s => exact ⟨_, rfl, by simp [Weak]⟩
  | array d =>
    simp only [Weak] at h
    obtain ⟨h1, h2, h3⟩ := h
    subst h1
    simp only [leave, State.decrDepth, Stack.remove, List.reverse_cons, List.getLast?_concat,
      if_true, List.dropLast_concat]
    refine ⟨_, rfl, ?_⟩
    simp only [Weak, h3]
    simp at h2 ⊢
    omega

mutual
theorem runCall_weak {p : Platform} (hp : p.Valid) (opn : List Key) (st : State) (h : Weak opn st) :
    (c : Call) → ∃ o st', runCall p st c = some (o, st') ∧ Weak opn st'
  | .node k children => by
    have he := enter_weak hp (k := k) h
    simp only [runCall]
    match heq : enter p st k with
    | (.error e, st1) =>
      simp only [heq] at he ⊢
      exact ⟨_, _, rfl, he⟩
    | (.ok (), st1) =>
      simp only [heq] at he ⊢
      obtain ⟨outs, st2, h2, hw2⟩ := runCalls_weak hp (k :: opn) st1 he children
      obtain ⟨st3, h3, hw3⟩ := leave_weak hw2
      simp only [h2, h3]
      exact ⟨_, _, rfl, hw3⟩
theorem runCalls_weak {p : Platform} (hp : p.Valid) (opn : List Key) (st : State) (h : Weak opn st) :
    (cs : List Call) → ∃ o st', runCalls p st cs = some (o, st') ∧ Weak opn st'
  | [] => ⟨[], st, rfl, h⟩
  | c :: cs => by
    obtain ⟨o, st1, h1, hw1⟩ := runCall_weak hp opn st h c
    obtain ⟨os, st2, h2, hw2⟩ := runCalls_weak hp opn st1 hw1 cs
    simp only [runCalls, h1, h2]
    exact ⟨_, _, rfl, hw2⟩
end

/-- Strong invariant, valid as long as no depth refusal has happened: the stored keys are
exactly the open ones, once each, and the depth counts them. -/
structure Good (p : Platform) (opn : List Key) (st : State) : Prop where
  nodup : opn.Nodup
  mem : ∀ k, k ∈ st.ids.keys ↔ k ∈ opn
  keysNodup : st.ids.keys.Nodup
  depth : st.depth = opn.length
  le : opn.length ≤ p.limit
  arr : ∀ d, st.ids = .array d → d = opn.reverse ∧ d.length ≤ arraySize

theorem setOfArray_mem_aux (d s : List Key) (k : Key) :
    k ∈ d.foldl (fun s k => (setInsert s k).2) s ↔ k ∈ d ∨ k ∈ s := by
  induction d generalizing s with
  | nil => simp
  | cons x xs ih =>
    rw [List.foldl_cons, ih]
    simp only [setInsert]
    split <;> grind

theorem setOfArray_nodup_aux (d s : List Key) (hs : s.Nodup) :
    (d.foldl (fun s k => (setInsert s k).2) s).Nodup := by
  induction d generalizing s with
  | nil => simpa
  | cons x xs ih =>
    simp only [List.foldl_cons]
    apply ih
    simp only [setInsert]
    split <;> simp_all

theorem setOfArray_mem (d : List Key) (k : Key) : k ∈ setOfArray d ↔ k ∈ d := by
  simp [setOfArray, setOfArray_mem_aux]

theorem setOfArray_nodup (d : List Key) : (setOfArray d).Nodup :=
  setOfArray_nodup_aux d [] (by simp)

/-- Insertion is insertion into the set of keys, in either representation. -/
theorem insert_spec (s : Stack) (k : Key) (hn : s.keys.Nodup) :
    ((s.insert k).1 = decide (k ∉ s.keys)) ∧ (s.insert k).2.keys.Nodup ∧
    (∀ x, x ∈ (s.insert k).2.keys ↔ x = k ∨ x ∈ s.keys) := by
  cases s with
  | set s =>
    simp only [Stack.keys] at hn
    simp only [Stack.insert, setInsert, Stack.keys]
    split <;> simp_all
  | array d =>
    simp only [Stack.keys] at hn
    simp only [Stack.insert]
    split
    · split
      · simp_all [Stack.keys]
      · simp_all [Stack.keys]
        constructor
        · rw [List.nodup_append]; simp_all; grind
        · intro x y; grind
    · have h1 := setOfArray_nodup d
      simp only [setInsert, Stack.keys]
      split <;> simp_all [setOfArray_mem]

theorem enter_good {p : Platform} (hp : p.Valid) {opn st} (k : Key) (h : Good p opn st) :
    (k ∈ opn → ∃ st1, enter p st k = (.error .cyclic, st1) ∧ Good p opn st1) ∧
    (k ∉ opn → opn.length < p.limit → ∃ st1, enter p st k = (.ok (), st1) ∧ Good p (k :: opn) st1) ∧
    (k ∉ opn → p.limit ≤ opn.length → ∃ st1, enter p st k = (.error .depth, st1)) := by
  obtain ⟨hl, hl2, hl3⟩ := valid_limit hp
  obtain ⟨i1, i2, i3⟩ := insert_spec st.ids k h.keysNodup
  have hd := h.depth
  have hle := h.le
  refine ⟨fun hk => ?_, fun hk hlt => ?_, fun hk hge => ?_⟩
  · have : k ∈ st.ids.keys := (h.mem k).2 hk
    have hf : (st.ids.insert k).1 = false := by simp [i1, this]
    refine ⟨_, by simp only [enter, hf]; rfl, ?_⟩
    refine ⟨h.nodup, ?_, i2, hd, hle, ?_⟩
    · intro x; simp only [i3]; grind [h.mem]
    · intro d hdd
      simp only at hdd
      -- an array result of a refused insertion is the array we started from
      cases hids : st.ids with
      | set s => simp [hids, Stack.insert] at hdd
      | array d0 =>
        have ha := h.arr d0 hids
        have hk' : k ∈ d0 := by simpa [hids, Stack.keys] using this
        rw [hids] at hdd
        simp only [Stack.insert, hk', if_true] at hdd
        split at hdd
        · simp only [Stack.array.injEq] at hdd
          subst hdd
          exact ha
        · cases hdd
  · have hnm : k ∉ st.ids.keys := fun hc => hk ((h.mem k).1 hc)
    have ht : (st.ids.insert k).1 = true := by simp [i1, hnm]
    have hdep : ({ ids := (st.ids.insert k).2, depth := st.depth } : State).incrDepth p =
        (false, ⟨(st.ids.insert k).2, st.depth + 1⟩) := by
      simp only [State.incrDepth]
      cases hs : p.saturating
      · have : st.depth + 1 ≤ 255 := by omega
        simp [this]
      · have h1 : min (st.depth + 1) 255 = st.depth + 1 := by omega
        simp [h1]
        omega
    refine ⟨_, by simp only [enter, ht, hdep]; rfl, ?_⟩
    refine ⟨List.nodup_cons.2 ⟨hk, h.nodup⟩, ?_, i2, by simp [hd], by simp; omega, ?_⟩
    · intro x; simp only [i3, h.mem x, List.mem_cons]
    · intro d hdd
      simp only at hdd
      cases hids : st.ids with
      | set s => simp [hids, Stack.insert] at hdd
      | array d0 =>
        obtain ⟨ha, hb⟩ := h.arr d0 hids
        have hnm' : k ∉ d0 := by simpa [hids, Stack.keys] using hnm
        rw [hids] at hdd
        simp only [Stack.insert, hnm', if_false] at hdd
        split at hdd
        · rename_i hlt16
          simp only [Stack.array.injEq] at hdd
          subst hdd
          simp [ha] at hlt16 ⊢
          omega
        · cases hdd
  · have hnm : k ∉ st.ids.keys := fun hc => hk ((h.mem k).1 hc)
    have ht : (st.ids.insert k).1 = true := by simp [i1, hnm]
    have heq : opn.length = p.limit := by omega
    cases hs : p.saturating
    · have h255 := hl3 hs
      have : ¬ (st.depth + 1 ≤ 255) := by omega
      exact ⟨_, by simp [enter, ht, State.incrDepth, hs, this]; rfl⟩
    · have h1 : p.limit < min (st.depth + 1) 255 := by
        unfold Platform.Valid at hp
        grind
      exact ⟨_, by simp [enter, ht, State.incrDepth, hs, h1]; rfl⟩

theorem leave_good {p : Platform} {opn st} {k : Key} (h : Good p (k :: opn) st) :
    ∃ st', leave st k = some st' ∧ Good p opn st' := by
  have hnd := h.nodup
  have hle := h.le
  have hd := h.depth
  simp only [List.nodup_cons] at hnd
  simp only [List.length_cons] at hle hd
  cases hids : st.ids with
  | set s =>
    refine ⟨_, by simp only [leave, State.decrDepth, hids, Stack.remove]; rfl, ?_⟩
    have hm := h.mem
    have hkn := h.keysNodup
    simp only [hids, Stack.keys] at hm hkn
    refine ⟨hnd.2, ?_, ?_, by simp [hd], by omega, by intro d hdd; cases hdd⟩
    · intro x
      simp only [Stack.keys, hkn.mem_erase_iff, hm, List.mem_cons]
      grind
    · simpa [Stack.keys] using hkn.erase k
  | array d =>
    obtain ⟨ha, hb⟩ := h.arr d hids
    subst ha
    refine ⟨_, by simp only [leave, State.decrDepth, hids, Stack.remove, List.reverse_cons,
      List.getLast?_concat, if_true, List.dropLast_concat]; rfl, ?_⟩
    refine ⟨hnd.2, ?_, ?_, by simp [hd], by omega, ?_⟩
    · intro x; simp [Stack.keys]
    · simpa [Stack.keys] using (List.reverse_perm opn).nodup_iff.2 hnd.2
    · intro d hdd
      simp at hdd hb
      subst hdd
      simp; omega

end PC.Guard

namespace PC.Guard

/-! ### Two states that track the same keys at the same depth behave the same. -/

structure Equiv (opn : List Key) (a b : State) : Prop where
  mem : ∀ k, k ∈ a.ids.keys ↔ k ∈ b.ids.keys
  depth : a.depth = b.depth
  na : a.ids.keys.Nodup
  nb : b.ids.keys.Nodup
  wa : Weak opn a
  wb : Weak opn b

theorem enter_keys (p : Platform) (st : State) (k : Key) (hn : st.ids.keys.Nodup) :
    (enter p st k).2.ids.keys.Nodup ∧
    (∀ x, x ∈ (enter p st k).2.ids.keys ↔ x = k ∨ x ∈ st.ids.keys) := by
  obtain ⟨i1, i2, i3⟩ := insert_spec st.ids k hn
  have : (enter p st k).2.ids = (st.ids.insert k).2 := by
    simp only [enter, State.incrDepth]
    grind
  rw [this]; exact ⟨i2, i3⟩

theorem enter_fst_depth (p : Platform) (st : State) (k : Key) (hn : st.ids.keys.Nodup) :
    (enter p st k).1 = (if k ∈ st.ids.keys then .error .cyclic else
      if (State.incrDepth p ⟨.array [], st.depth⟩).1 then .error .depth else .ok ()) ∧
    (enter p st k).2.depth = (if k ∈ st.ids.keys then st.depth else
      (State.incrDepth p ⟨.array [], st.depth⟩).2.depth) := by
  obtain ⟨i1, i2, i3⟩ := insert_spec st.ids k hn
  simp only [enter, State.incrDepth, i1]
  grind

theorem leave_set_keys (st st' : State) (k : Key) (hn : st.ids.keys.Nodup)
    (h : leave st k = some st') :
    st'.ids.keys.Nodup ∧ st'.depth = st.depth - 1 ∧
    (∀ x, x ∈ st'.ids.keys ↔ x ≠ k ∧ x ∈ st.ids.keys) := by
  obtain ⟨ids, depth⟩ := st
  cases ids with
  | set s =>
    simp only [leave, State.decrDepth, Stack.remove, Option.some.injEq] at h
    subst h
    simp only [Stack.keys] at hn ⊢
    exact ⟨hn.erase k, trivial, fun x => by rw [hn.mem_erase_iff]⟩
  | array d =>
    simp only [leave, State.decrDepth, Stack.remove] at h
    split at h
    · cases h
    · rename_i ids hids
      simp only [Option.some.injEq] at h
      subst h
      split at hids
      · cases hids
      · rename_i last hlast
        split at hids
        · rename_i hk
          simp only [Option.some.injEq] at hids
          subst hids hk
          simp only [Stack.keys] at hn ⊢
          obtain ⟨ys, rfl⟩ := List.getLast?_eq_some_iff.1 hlast
          simp only [List.dropLast_concat]
          rw [List.nodup_append] at hn
          refine ⟨hn.1, trivial, fun x => ?_⟩
          simp only [List.mem_append, List.mem_singleton]
          grind
        · cases hids

mutual
theorem runCall_equiv {p : Platform} (hp : p.Valid) (opn : List Key) (a b : State)
    (h : Equiv opn a b) : (c : Call) →
    ∃ o a' b', runCall p a c = some (o, a') ∧ runCall p b c = some (o, b') ∧ Equiv opn a' b'
  | .node k children => by
    have ea := enter_weak hp (k := k) h.wa
    have eb := enter_weak hp (k := k) h.wb
    have ka := enter_keys p a k h.na
    have kb := enter_keys p b k h.nb
    have fa := enter_fst_depth p a k h.na
    have fb := enter_fst_depth p b k h.nb
    have hf : (enter p a k).1 = (enter p b k).1 := by
      rw [fa.1, fb.1, h.depth]; simp only [h.mem k]
    have hd : (enter p a k).2.depth = (enter p b k).2.depth := by
      rw [fa.2, fb.2, h.depth]; simp only [h.mem k]
    have hm : ∀ x, x ∈ (enter p a k).2.ids.keys ↔ x ∈ (enter p b k).2.ids.keys := by
      intro x; rw [ka.2, kb.2, h.mem]
    simp only [runCall]
    match heqa : enter p a k, heqb : enter p b k with
    | (.error e, a1), (r, b1) =>
      simp only [heqa, heqb] at *
      subst hf
      simp only at ea eb
      exact ⟨_, _, _, rfl, rfl, hm, hd, ka.1, kb.1, ea, eb⟩
    | (.ok (), a1), (r, b1) =>
      simp only [heqa, heqb] at *
      subst hf
      simp only at ea eb
      obtain ⟨os, a2, b2, ra, rb, hab⟩ :=
        runCalls_equiv hp (k :: opn) a1 b1 ⟨hm, hd, ka.1, kb.1, ea, eb⟩ children
      obtain ⟨a3, la, wa3⟩ := leave_weak hab.wa
      obtain ⟨b3, lb, wb3⟩ := leave_weak hab.wb
      have l1 := leave_set_keys _ _ _ hab.na la
      have l2 := leave_set_keys _ _ _ hab.nb lb
      simp only [ra, rb, la, lb]
      refine ⟨_, _, _, rfl, rfl, ?_, ?_, l1.1, l2.1, wa3, wb3⟩
      · intro x; rw [l1.2.2, l2.2.2, hab.mem]
      · rw [l1.2.1, l2.2.1, hab.depth]
theorem runCalls_equiv {p : Platform} (hp : p.Valid) (opn : List Key) (a b : State)
    (h : Equiv opn a b) : (cs : List Call) →
    ∃ o a' b', runCalls p a cs = some (o, a') ∧ runCalls p b cs = some (o, b') ∧ Equiv opn a' b'
  | [] => ⟨[], a, b, rfl, rfl, h⟩
  | c :: cs => by
    obtain ⟨o, a1, b1, ha1, hb1, h1⟩ := runCall_equiv hp opn a b h c
    obtain ⟨os, a2, b2, ha2, hb2, h2⟩ := runCalls_equiv hp opn a1 b1 h1 cs
    simp only [runCalls, ha1, hb1, ha2, hb2]
    exact ⟨_, _, _, rfl, rfl, h2⟩
end

theorem runCalls_append (p : Platform) (cs ds : List Call) (st : State) :
    runCalls p st (cs ++ ds) =
      match runCalls p st cs with
      | none => none
      | some (os, st1) =>
        match runCalls p st1 ds with
        | none => none
        | some (os', st2) => some (os ++ os', st2) := by
  induction cs generalizing st with
  | nil =>
    simp only [List.nil_append, runCalls]
    cases runCalls p st ds with
    | none => rfl
    | some r => rfl
  | cons c cs ih =>
    simp only [List.cons_append, runCalls]
    cases runCall p st c with
    | none => rfl
    | some r =>
      simp only [ih]
      cases runCalls p r.2 cs with
      | none => rfl
      | some r' =>
        simp only
        cases runCalls p r'.2 ds with
        | none => rfl
        | some r'' => rfl

theorem good_init (p : Platform) : Good p [] State.init :=
  ⟨by simp, by simp [State.init, Stack.keys], by simp [State.init, Stack.keys], rfl, by simp,
    by intro d hd; simp [State.init] at hd; subst hd; simp⟩

theorem good_weak {p opn st} (h : Good p opn st) : Weak opn st := by
  unfold Weak
  split
  · rename_i d hd
    obtain ⟨h1, h2⟩ := h.arr d hd
    refine ⟨h1, h2, ?_⟩
    rw [h.depth, h1]; simp
  · trivial

end PC.Guard
