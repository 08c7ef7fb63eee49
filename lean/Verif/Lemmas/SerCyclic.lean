import Verif.Lemmas.SerPlain

namespace PC.Infer
open PC.Filter (FVal Filt indexFilter keyFilter)

variable {α : Type}

theorem guarded_ok {p : Guard.Platform} {k : Guard.Key} {O : Type} {refused : SErr → Except SErr O}
    (href : ∀ e o, refused e ≠ .ok o) {body : M O} {st st' : St} {o : O}
    (h : guarded p k refused body st = (.ok o, st')) : ∃ st1 st2, body st1 = (.ok o, st2) := by
  unfold guarded at h
  split at h
  · exact absurd (congrArg Prod.fst h) (href _ _)
  · exact absurd (congrArg Prod.fst h) (href _ _)
  · rename_i g _
    cases hb : body { st with guard := g } with
    | mk r st1 =>
      rw [hb] at h
      dsimp only at h
      cases hl : Guard.leave st1.guard k with
      | none => rw [hl] at h; simp at h
      | some g1 =>
        rw [hl] at h
        simp only [Prod.mk.injEq] at h
        exact ⟨_, st1, by rw [hb, h.1]⟩

theorem mapM_ok {O P : Type} {f : O → P} {r : Except SErr O × St} {o : P} {st : St} (h : mapM f r = (.ok o, st)) :
    ∃ o', r = (.ok o', st) := by
  obtain ⟨r, st1⟩ := r
  cases r with
  | error e => simp [mapM] at h
  | ok o' => simp only [mapM, Prod.mk.injEq] at h; exact ⟨o', by rw [h.2]⟩

/-- The serialiser accepts an object, in some state, without filters. -/
def Takes (f : Extra α → α → Option FVal → Option FVal → M O) (x : Extra α) (b : α) : Prop :=
  ∃ st o st', f x b Option.none Option.none st = (.ok o, st')

theorem jsonSeqFilter_takes {rec : SerFn α} {x : Extra α} {len : Option Nat} : ∀ (xs : List (Except SErr α)) (i : Nat)
    (st : St) {o} {st' : St}, jsonSeqFilter rec x len Option.none Option.none i xs st = (.ok o, st') →
      ∀ b, Except.ok b ∈ xs → Takes rec.json x b
  | [], _, _, _, _, _, b, hb => by simp at hb
  | .error e :: _, _, _, _, _, h, b, hb => by simp [jsonSeqFilter] at h
  | .ok v :: vs, i, st, o, st', h, b, hb => by
    simp only [jsonSeqFilter, index_pass] at h
    cases hv : rec.json x v Option.none Option.none st with
    | mk r st1 =>
      rw [hv] at h
      cases r with
      | error e => simp at h
      | ok w =>
        dsimp only at h
        simp only [List.mem_cons, Except.ok.injEq] at hb
        rcases hb with rfl | hb
        · exact ⟨st, w, st1, hv⟩
        · cases ht : jsonSeqFilter rec x len Option.none Option.none (i + 1) vs st1 with
          | mk r st2 =>
            rw [ht] at h
            cases r with
            | error e => simp at h
            | ok ws => exact jsonSeqFilter_takes vs (i + 1) st1 ht b hb

theorem pySeqFilter_takes {rec : SerFn α} {x : Extra α} {len : Option Nat} : ∀ (xs : List (Except SErr α)) (i : Nat)
    (st : St) {o} {st' : St}, pySeqFilter rec x len Option.none Option.none i xs st = (.ok o, st') →
      ∀ b, Except.ok b ∈ xs → Takes rec.py x b
  | [], _, _, _, _, _, b, hb => by simp at hb
  | .error e :: _, _, _, _, _, h, b, hb => by simp [pySeqFilter] at h
  | .ok v :: vs, i, st, o, st', h, b, hb => by
    simp only [pySeqFilter, index_pass] at h
    cases hv : rec.py x v Option.none Option.none st with
    | mk r st1 =>
      rw [hv] at h
      cases r with
      | error e => simp at h
      | ok w =>
        dsimp only at h
        simp only [List.mem_cons, Except.ok.injEq] at hb
        rcases hb with rfl | hb
        · exact ⟨st, w, st1, hv⟩
        · cases ht : pySeqFilter rec x len Option.none Option.none (i + 1) vs st1 with
          | mk r st2 =>
            rw [ht] at h
            cases r with
            | error e => simp at h
            | ok ws => exact pySeqFilter_takes vs (i + 1) st1 ht b hb

theorem jsonSeq_takes {rec : SerFn α} {x : Extra α} : ∀ (xs : List α)
    (st : St) {o} {st' : St}, jsonSeq rec x Option.none Option.none xs st = (.ok o, st') →
      ∀ b, b ∈ xs → Takes rec.json x b
  | [], _, _, _, _, b, hb => by simp at hb
  | v :: vs, st, o, st', h, b, hb => by
    simp only [jsonSeq] at h
    cases hv : rec.json x v Option.none Option.none st with
    | mk r st1 =>
      rw [hv] at h
      cases r with
      | error e => simp at h
      | ok w =>
        dsimp only at h
        simp only [List.mem_cons] at hb
        rcases hb with rfl | hb
        · exact ⟨st, w, st1, hv⟩
        · cases ht : jsonSeq rec x Option.none Option.none vs st1 with
          | mk r st2 =>
            rw [ht] at h
            cases r with
            | error e => simp at h
            | ok ws => exact jsonSeq_takes vs st1 ht b hb

theorem pySeq_takes {rec : SerFn α} {x : Extra α} : ∀ (xs : List α)
    (st : St) {o} {st' : St}, pySeq rec x xs st = (.ok o, st') →
      ∀ b, b ∈ xs → Takes rec.py x b
  | [], _, _, _, _, b, hb => by simp at hb
  | v :: vs, st, o, st', h, b, hb => by
    simp only [pySeq] at h
    cases hv : rec.py x v Option.none Option.none st with
    | mk r st1 =>
      rw [hv] at h
      cases r with
      | error e => simp at h
      | ok w =>
        dsimp only at h
        simp only [List.mem_cons] at hb
        rcases hb with rfl | hb
        · exact ⟨st, w, st1, hv⟩
        · cases ht : pySeq rec x vs st1 with
          | mk r st2 =>
            rw [ht] at h
            cases r with
            | error e => simp at h
            | ok ws => exact pySeq_takes vs st1 ht b hb

theorem jsonPairs_takes {W : World α} {rec : SerFn α} {x : Extra α} : ∀ (xs : List (Except SErr (α × α)))
    (st : St) {o} {st' : St}, jsonPairs W rec x Option.none Option.none xs st = (.ok o, st') →
      ∀ k b, Except.ok (k, b) ∈ xs → Takes rec.json x b
  | [], _, _, _, _, k, b, hb => by simp at hb
  | .error e :: _, _, _, _, h, k, b, hb => by simp [jsonPairs] at h
  | .ok (k', v) :: vs, st, o, st', h, k, b, hb => by
    simp only [jsonPairs, key_pass] at h
    cases hk : inferKey W x k' with
    | error e => simp [hk] at h
    | ok t =>
    simp only [hk] at h
    cases hv : rec.json x v Option.none Option.none st with
    | mk r st1 =>
      rw [hv] at h
      cases r with
      | error e => simp at h
      | ok w =>
        dsimp only at h
        simp only [List.mem_cons, Except.ok.injEq, Prod.mk.injEq] at hb
        rcases hb with ⟨rfl, rfl⟩ | hb
        · exact ⟨st, w, st1, hv⟩
        · cases ht : jsonPairs W rec x Option.none Option.none vs st1 with
          | mk r st2 =>
            rw [ht] at h
            cases r with
            | error e => simp at h
            | ok ws => exact jsonPairs_takes vs st1 ht k b hb

theorem pyPairsJson_takes {W : World α} {rec : SerFn α} {x : Extra α} : ∀ (xs : List (Except SErr (α × α)))
    (acc : List (Text × Py α)) (st : St) {o} {st' : St}, pyPairsJson W rec x Option.none Option.none xs acc st = (.ok o, st') →
      ∀ k b, Except.ok (k, b) ∈ xs → Takes rec.py x b
  | [], _, _, _, _, _, k, b, hb => by simp at hb
  | .error e :: _, _, _, _, _, h, k, b, hb => by simp [pyPairsJson] at h
  | .ok (k', v) :: vs, acc, st, o, st', h, k, b, hb => by
    simp only [pyPairsJson, key_pass] at h
    cases hk : inferKey W x k' with
    | error e => simp [hk] at h
    | ok t =>
    simp only [hk] at h
    cases hv : rec.py x v Option.none Option.none st with
    | mk r st1 =>
      rw [hv] at h
      cases r with
      | error e => simp at h
      | ok w =>
        dsimp only at h
        simp only [List.mem_cons, Except.ok.injEq, Prod.mk.injEq] at hb
        rcases hb with ⟨rfl, rfl⟩ | hb
        · exact ⟨st, w, st1, hv⟩
        · exact pyPairsJson_takes vs _ st1 h k b hb

theorem jsonBody_takes {W : World α} {rec : SerFn α} {ser} {x : Extra α} {a b : α} (hp : Part W x a b) {st st' : St} {o}
    (h : jsonBody W rec ser x a Option.none Option.none st = (.ok o, st')) : Takes rec.json x b := by
  unfold Part at hp
  unfold jsonBody at h
  cases hs : W.shape a with
  | list xs =>
    rw [hs] at hp h
    obtain ⟨o', h⟩ := mapM_ok h
    exact jsonSeqFilter_takes _ _ _ h b (List.mem_map.2 ⟨b, hp, rfl⟩)
  | tuple xs =>
    rw [hs] at hp h
    obtain ⟨o', h⟩ := mapM_ok h
    exact jsonSeqFilter_takes _ _ _ h b (List.mem_map.2 ⟨b, hp, rfl⟩)
  | set xs =>
    rw [hs] at hp h
    obtain ⟨o', h⟩ := mapM_ok h
    exact jsonSeq_takes _ _ h b hp
  | frozenset xs =>
    rw [hs] at hp h
    obtain ⟨o', h⟩ := mapM_ok h
    exact jsonSeq_takes _ _ h b hp
  | dict es =>
    rw [hs] at hp h
    obtain ⟨o', h⟩ := mapM_ok h
    obtain ⟨k, hp⟩ := hp
    exact jsonPairs_takes _ _ h k b (List.mem_map.2 ⟨(k, b), hp, rfl⟩)
  | dataclass fields =>
    rw [hs] at hp h
    cases fields with
    | error e => exact hp.elim
    | ok es =>
      obtain ⟨o', h⟩ := mapM_ok h
      obtain ⟨k, hp⟩ := hp
      exact jsonPairs_takes _ _ h k b hp
  | generator xs =>
    rw [hs] at hp h
    obtain ⟨o', h⟩ := mapM_ok h
    exact jsonSeqFilter_takes _ _ _ h b hp
  | enum v =>
    rw [hs] at hp h
    dsimp only at hp
    subst hp
    exact ⟨st, o, st', h⟩
  | unknown =>
    rw [hs] at hp h
    obtain ⟨f, hf, hfa⟩ := hp
    dsimp only at h
    rw [hf] at h
    dsimp only at h
    rw [hfa] at h
    exact ⟨st, o, st', h⟩
  | _ => rw [hs] at hp; exact hp.elim

theorem pyJsonBody_takes {W : World α} {rec : SerFn α} {ser} {x : Extra α} {a b : α} (hp : Part W x a b) {st st' : St} {o}
    (h : pyJsonBody W rec ser x a Option.none Option.none st = (.ok o, st')) : Takes rec.py x b := by
  unfold Part at hp
  unfold pyJsonBody at h
  cases hs : W.shape a with
  | list xs =>
    rw [hs] at hp h
    obtain ⟨o', h⟩ := mapM_ok h
    exact pySeqFilter_takes _ _ _ h b (List.mem_map.2 ⟨b, hp, rfl⟩)
  | tuple xs =>
    rw [hs] at hp h
    obtain ⟨o', h⟩ := mapM_ok h
    exact pySeqFilter_takes _ _ _ h b (List.mem_map.2 ⟨b, hp, rfl⟩)
  | set xs =>
    rw [hs] at hp h
    obtain ⟨o', h⟩ := mapM_ok h
    exact pySeq_takes _ _ h b hp
  | frozenset xs =>
    rw [hs] at hp h
    obtain ⟨o', h⟩ := mapM_ok h
    exact pySeq_takes _ _ h b hp
  | dict es =>
    rw [hs] at hp h
    obtain ⟨o', h⟩ := mapM_ok h
    obtain ⟨k, hp⟩ := hp
    exact pyPairsJson_takes _ _ _ h k b (List.mem_map.2 ⟨(k, b), hp, rfl⟩)
  | dataclass fields =>
    rw [hs] at hp h
    cases fields with
    | error e => exact hp.elim
    | ok es =>
      obtain ⟨o', h⟩ := mapM_ok h
      obtain ⟨k, hp⟩ := hp
      exact pyPairsJson_takes _ _ _ h k b hp
  | generator xs =>
    rw [hs] at hp h
    obtain ⟨o', h⟩ := mapM_ok h
    exact pySeqFilter_takes _ _ _ h b hp
  | enum v =>
    rw [hs] at hp h
    dsimp only at hp
    subst hp
    exact ⟨st, o, st', h⟩
  | unknown =>
    rw [hs] at hp h
    obtain ⟨f, hf, hfa⟩ := hp
    dsimp only at h
    rw [hf] at h
    dsimp only at h
    rw [hfa] at h
    exact ⟨st, o, st', h⟩
  | _ => rw [hs] at hp; exact hp.elim

/-- Nothing beyond the fuel succeeds. -/
def deadEnd : Recs α :=
  ⟨⟨fun _ _ _ _ st => (.error .panic, st), fun _ _ _ _ st => (.error .panic, st)⟩,
    fun _ => ⟨fun _ _ _ _ st => (.error .panic, st), fun _ _ _ _ st => (.error .panic, st)⟩⟩

theorem json_takes_acc {E : Env α} {x : Extra α} (hu : x.serializeUnknown = false) : ∀ (n : Nat) (a : α),
    Takes (recs E deadEnd n).infer.json x a → Acc (fun b a => Part E.world x a b) a
  | 0, a, ⟨st, o, st', h⟩ => by simp [recs, deadEnd] at h
  | n + 1, a, ⟨st, o, st', h⟩ => by
    simp only [recs, inferJson, hu] at h
    obtain ⟨st1, st2, h⟩ := guarded_ok (by simp) h
    exact ⟨_, fun b hb => json_takes_acc hu n b (jsonBody_takes hb h)⟩

theorem py_takes_acc {E : Env α} {x : Extra α} (hm : x.mode = .json) : ∀ (n : Nat) (a : α),
    Takes (recs E deadEnd n).infer.py x a → Acc (fun b a => Part E.world x a b) a
  | 0, a, ⟨st, o, st', h⟩ => by simp [recs, deadEnd] at h
  | n + 1, a, ⟨st, o, st', h⟩ => by
    simp only [recs, inferPy, hm] at h
    obtain ⟨st1, st2, h⟩ := guarded_ok (by simp) h
    exact ⟨_, fun b hb => py_takes_acc hm n b (pyJsonBody_takes hb h)⟩

theorem Reaches.trans {W : World α} {x : Extra α} {a b c : α} (h : Reaches W x a b) (h' : Reaches W x b c) :
    Reaches W x a c := by
  induction h with
  | part h => exact .step h h'
  | step h _ ih => exact .step h (ih h')

theorem acc_not_cyclic {W : World α} {x : Extra α} {a : α} (h : Acc (fun b a => Part W x a b) a) :
    ¬ Reaches W x a a ∧ ∀ b, Reaches W x a b → ¬ Reaches W x b b := by
  induction h with
  | intro a _ ih =>
    have hb : ∀ b, Reaches W x a b → ¬ Reaches W x b b := by
      intro b hab
      cases hab with
      | part h => exact (ih _ h).1
      | step h hs => exact (ih _ h).2 _ hs
    refine ⟨fun haa => ?_, hb⟩
    exact hb a haa haa

end PC.Infer
