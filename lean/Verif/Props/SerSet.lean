import Verif.Spec.SerSet

/-
C114: serialised sets.
-/

namespace PC.SerSet

variable {α β δ ε σ : Type}

theorem collect_iff (item : α → σ → Except ε β × σ) : ∀ (xs : List α) (st : σ) (bs : List β) (st' : σ),
    collect item xs st = (.ok bs, st') ↔ Each item xs st bs st' := by
  intro xs
  induction xs with
  | nil =>
    intro st bs st'
    constructor
    · intro h; cases h; exact .nil
    · intro h; cases h; rfl
  | cons x xs ih =>
    intro st bs st'
    unfold collect
    constructor
    · intro h
      cases h1 : item x st with
      | mk r st1 =>
        rw [h1] at h
        cases r with
        | error e => cases h
        | ok b =>
          dsimp only at h
          cases h2 : collect item xs st1 with
          | mk r2 st2 =>
            rw [h2] at h
            cases r2 with
            | error e => cases h
            | ok bs' => cases h; exact .cons h1 ((ih ..).1 h2)
    · intro h
      cases h with
      | cons h1 h2 => rw [h1]; dsimp only; rw [(ih ..).2 h2]

theorem each_length {item : α → σ → Except ε β × σ} {xs : List α} {st : σ} {bs : List β} {st' : σ}
    (h : Each item xs st bs st') : bs.length = xs.length := by
  induction h with
  | nil => rfl
  | cons _ _ ih => simp [ih]

theorem addAll_ok (I : Items β ε) : ∀ (bs acc : List β), (∃ os, addAll I bs acc = .ok os) ↔ ∀ b ∈ bs, I.hashable b = true := by
  intro bs
  induction bs with
  | nil => intro acc; simp [addAll]
  | cons b bs ih =>
    intro acc
    unfold addAll
    cases hb : I.hashable b with
    | false => simp [hb]
    | true =>
      rw [if_pos rfl]
      split <;> simp [ih, hb]

theorem addAll_spec (I : Items β ε) : ∀ (bs acc os : List β), addAll I bs acc = .ok os →
    acc.Pairwise (fun a b => I.eq b a = false) →
    (∃ new, os = acc ++ new ∧ new.Sublist bs) ∧ os.Pairwise (fun a b => I.eq b a = false) ∧
      ∀ b ∈ bs, b ∈ os ∨ ∃ o ∈ os, I.eq b o = true := by
  intro bs
  induction bs with
  | nil =>
    intro acc os h hp
    cases h
    exact ⟨⟨[], by simp, List.Sublist.refl _⟩, hp, by simp⟩
  | cons b bs ih =>
    intro acc os h hp
    unfold addAll at h
    split at h
    · split at h
      · rename_i hany
        obtain ⟨⟨new, rfl, hn⟩, hp', hc⟩ := ih acc os h hp
        refine ⟨⟨new, rfl, hn.cons _⟩, hp', ?_⟩
        intro c hcm
        rcases List.mem_cons.1 hcm with rfl | hm
        · obtain ⟨o, ho, he⟩ := List.any_eq_true.1 hany
          exact .inr ⟨o, List.mem_append.2 (.inl ho), he⟩
        · exact hc c hm
      · rename_i hany
        have hp2 : (acc ++ [b]).Pairwise (fun a b => I.eq b a = false) := by
          rw [List.pairwise_append]
          refine ⟨hp, List.pairwise_singleton _ _, ?_⟩
          intro a ha c hcm
          rw [List.mem_singleton] at hcm
          subst hcm
          cases hac : I.eq c a with
          | false => rfl
          | true => exact absurd (List.any_eq_true.2 ⟨a, ha, hac⟩) hany
        obtain ⟨⟨new, rfl, hn⟩, hp', hc⟩ := ih (acc ++ [b]) os h hp2
        refine ⟨⟨b :: new, by simp, hn.cons_cons _⟩, hp', ?_⟩
        intro c hcm
        rcases List.mem_cons.1 hcm with rfl | hm
        · exact .inl (by simp)
        · exact hc c hm
    · cases h

/-- **C114**: in Python mode, a set is serialised exactly if all its items are and can be hashed. -/
theorem python_accepts_iff (I : Items β ε) (k : Kind) (item : α → σ → Except ε β × σ) (fb : Val α → σ → Except ε β × σ)
    (mode : Mode) (hm : mode ≠ .json) (xs : List α) (st : σ) :
    (∃ o st', toPython I k item fb mode (.set k xs) st = (.ok o, st')) ↔
      ∃ bs st', Each item xs st bs st' ∧ ∀ b ∈ bs, I.hashable b = true := by
  unfold toPython
  dsimp only
  rw [if_pos rfl]
  constructor
  · rintro ⟨o, st', h⟩
    cases h1 : collect item xs st with
    | mk r st1 =>
      rw [h1] at h
      cases r with
      | error e => cases h
      | ok bs =>
        dsimp only at h
        rw [if_neg hm] at h
        cases h2 : addAll I bs [] with
        | error e => rw [h2] at h; cases h
        | ok os => exact ⟨bs, st1, (collect_iff ..).1 h1, (addAll_ok I bs []).1 ⟨os, h2⟩⟩
  · rintro ⟨bs, st', he, hh⟩
    obtain ⟨os, ho⟩ := (addAll_ok I bs []).2 hh
    rw [(collect_iff ..).2 he]
    dsimp only
    rw [if_neg hm, ho]
    exact ⟨_, _, rfl⟩

/-- **C114**: what comes out is a set of the same kind, of the different ones among the serialised items. -/
theorem python_set_of_different (I : Items β ε) (k : Kind) (item : α → σ → Except ε β × σ)
    (fb : Val α → σ → Except ε β × σ) (mode : Mode) (hm : mode ≠ .json) (xs : List α) (st : σ) (o : Out β) (st' : σ)
    (h : toPython I k item fb mode (.set k xs) st = (.ok o, st')) :
    ∃ bs os, Each item xs st bs st' ∧ Different I.eq bs os ∧ o = .set k os := by
  unfold toPython at h
  dsimp only at h
  rw [if_pos rfl] at h
  cases h1 : collect item xs st with
  | mk r st1 =>
    rw [h1] at h
    cases r with
    | error e => cases h
    | ok bs =>
      dsimp only at h
      rw [if_neg hm] at h
      cases h2 : addAll I bs [] with
      | error e => rw [h2] at h; cases h
      | ok os =>
        rw [h2] at h
        cases h
        obtain ⟨⟨new, he, hn⟩, hp, hc⟩ := addAll_spec I bs [] os h2 List.Pairwise.nil
        rw [List.nil_append] at he
        subst he
        exact ⟨bs, os, (collect_iff ..).1 h1, ⟨hn, hp, hc⟩, rfl⟩

/-- **C114**: in JSON mode, a set comes out as the list of all its serialised items, equal ones and those that cannot be
hashed included. -/
theorem json_mode_list (I : Items β ε) (k : Kind) (item : α → σ → Except ε β × σ) (fb : Val α → σ → Except ε β × σ)
    (xs : List α) (st : σ) (o : Out β) (st' : σ) :
    toPython I k item fb .json (.set k xs) st = (.ok o, st') ↔ ∃ bs, Each item xs st bs st' ∧ o = .list bs := by
  unfold toPython
  dsimp only
  rw [if_pos rfl]
  constructor
  · intro h
    cases h1 : collect item xs st with
    | mk r st1 =>
      rw [h1] at h
      cases r with
      | error e => cases h
      | ok bs => cases h; exact ⟨bs, (collect_iff ..).1 h1, rfl⟩
  · rintro ⟨bs, he, rfl⟩
    rw [(collect_iff ..).2 he]
    rfl

/-- **C114**: `to_json` writes the array of all its serialised items. -/
theorem to_json_array (k : Kind) (item : α → σ → Except ε δ × σ) (fb : Val α → σ → Except ε (List δ) × σ)
    (xs : List α) (st : σ) (ds : List δ) (st' : σ) :
    toJson k item fb (.set k xs) st = (.ok ds, st') ↔ Each item xs st ds st' := by
  unfold toJson
  dsimp only
  rw [if_pos rfl]
  exact collect_iff ..

theorem addAll_all (I : Items β ε) : ∀ (bs acc : List β), (∀ b ∈ bs, I.hashable b = true) →
    (acc ++ bs).Pairwise (fun a b => I.eq b a = false) → addAll I bs acc = .ok (acc ++ bs) := by
  intro bs
  induction bs with
  | nil => intro acc _ _; simp [addAll]
  | cons b bs ih =>
    intro acc hh hp
    unfold addAll
    have hany : ¬ (acc.any (I.eq b) = true) := by
      intro h
      obtain ⟨a, ha, he⟩ := List.any_eq_true.1 h
      have := (List.pairwise_append.1 hp).2.2 a ha b (by simp)
      rw [this] at he
      cases he
    rw [if_pos (hh b (by simp)), if_neg hany, ih _ (fun c hc => hh c (by simp [hc])) (by simpa using hp)]
    simp

/-- **C114**: if different items are serialised to different values that can be hashed, both modes give the same values,
as many as the set has. -/
theorem same_items_partial (I : Items β ε) (k : Kind) (item : α → σ → Except ε β × σ) (fb : Val α → σ → Except ε β × σ)
    (xs : List α) (st : σ) (bs : List β) (st' : σ) (he : Each item xs st bs st')
    (hh : ∀ b ∈ bs, I.hashable b = true) (hp : bs.Pairwise fun a b => I.eq b a = false) :
    toPython I k item fb .python (.set k xs) st = (.ok (.set k bs), st') ∧
    toPython I k item fb .json (.set k xs) st = (.ok (.list bs), st') ∧ bs.length = xs.length := by
  refine ⟨?_, (json_mode_list ..).2 ⟨bs, he, rfl⟩, each_length he⟩
  unfold toPython
  dsimp only
  rw [if_pos rfl, (collect_iff ..).2 he]
  dsimp only
  rw [if_neg (by decide), addAll_all I bs [] hh (by simpa using hp)]
  rfl

/-- **C114**: what is not of the kind of the schema is inferred: a frozenset for a set, a set for a frozenset. -/
theorem other_kind_inferred (I : Items β ε) (k : Kind) (item : α → σ → Except ε β × σ) (fb : Val α → σ → Except ε β × σ)
    (mode : Mode) (v : Val α) (hv : ∀ xs, v ≠ .set k xs) (st : σ) :
    toPython I k item fb mode v st = ((fb v st).1.map Out.inferred, (fb v st).2) := by
  unfold toPython
  dsimp only
  cases hf : fb v st with
  | mk r st1 =>
    cases v with
    | other a => cases r <;> rfl
    | set k' xs =>
      dsimp only
      rw [if_neg (fun h => hv xs (by rw [h]))]
      cases r <;> rfl

/-! ### Witnesses -/

/-- Serialised items: a number, or a dict. -/
def nums : Items (Option Nat) String where
  hashable := Option.isSome
  eq a b := a == b
  unhashable _ := "TypeError: unhashable type: 'dict'"

/-- Numbers are serialised to their tens, 0 (a model) to a dict. -/
def tens (n : Nat) (u : Unit) : Except String (Option Nat) × Unit :=
  (.ok (if n = 0 then none else some (n / 10)), u)

def noFallback (_ : Val Nat) (u : Unit) : Except String (Option Nat) × Unit := (.error "not a set", u)

/-- False in general: items that are serialised alike become one in Python mode, and stay several in JSON mode. -/
theorem items_merged :
    toPython nums .set tens noFallback .python (.set .set [11, 12, 25]) () = (.ok (.set .set [some 1, some 2]), ()) ∧
    toPython nums .set tens noFallback .json (.set .set [11, 12, 25]) () = (.ok (.list [some 1, some 1, some 2]), ()) ∧
    ¬ KeepsSize nums .set tens noFallback := by
  refine ⟨rfl, rfl, ?_⟩
  intro h
  obtain ⟨os, ho, hl⟩ := h [11, 12] () _ _ rfl
  cases ho
  cases hl

/-- False in general: a set of models cannot be serialised in Python mode, since dicts cannot be hashed; in JSON mode it
can. -/
theorem set_of_models_raises :
    toPython nums .set tens noFallback .python (.set .set [11, 0]) () = (.error "TypeError: unhashable type: 'dict'", ()) ∧
    toPython nums .set tens noFallback .json (.set .set [11, 0]) () = (.ok (.list [some 1, none]), ()) := ⟨rfl, rfl⟩

example : Each tens [11, 25] () [some 1, some 2] () := .cons rfl (.cons rfl .nil)

example : (∀ b ∈ [some 1, some 2], nums.hashable b = true) ∧
    [some 1, some 2].Pairwise fun a b => nums.eq b a = false := by decide

example : toPython nums .set tens noFallback .python (.set .frozenset [11]) () = (.error "not a set", ()) := rfl

end PC.SerSet
