import Mathlib.Data.List.Perm.Subperm
import Verif.Spec.LaxRetry

/-
Lemmas about the recursion-safe caches.
-/

namespace PC.LaxRetry

/-- The runs of `ask`, as a relation. -/
inductive Asks (body : Nat → Ser) : Ser → Caches → Bool → Caches → Prop
  | leaf {b s} : Asks body (.leaf b) s b s
  | orTrue {a b s s'} : Asks body a s true s' → Asks body (.or a b) s true s'
  | orFalse {a b s s' r s''} : Asks body a s false s' → Asks body b s' r s'' → Asks body (.or a b) s r s''
  | cached {i s b} : s.cached i = some b → Asks body (.ref i) s b s
  | busy {i s} : s.cached i = none → i ∈ s.busy → Asks body (.ref i) s false s
  | new {i s b s'} : s.cached i = none → i ∉ s.busy →
      Asks body (body i) { s with busy := i :: s.busy } b s' →
      Asks body (.ref i) s b { s'.set i b with busy := s'.busy.erase i }

theorem asks_with (body : Nat → Ser) (ref : Nat → Caches → Option (Bool × Caches))
    (hr : ∀ i s b s', ref i s = some (b, s') → Asks body (.ref i) s b s')
    (x : Ser) (s : Caches) (b : Bool) (s' : Caches) (h : askWith ref x s = some (b, s')) :
    Asks body x s b s' := by
  induction x generalizing s b s' with
  | leaf c =>
    simp only [askWith, Option.some.injEq, Prod.mk.injEq] at h
    obtain ⟨rfl, rfl⟩ := h; exact .leaf
  | ref i => exact hr _ _ _ _ h
  | or a c iha ihc =>
    simp only [askWith] at h
    cases ha : askWith ref a s with
    | none => rw [ha] at h; cases h
    | some p =>
      obtain ⟨r, t⟩ := p
      rw [ha] at h
      cases r with
      | true =>
        simp only [Option.some.injEq, Prod.mk.injEq] at h
        obtain ⟨rfl, rfl⟩ := h
        exact .orTrue (iha _ _ _ ha)
      | false => exact .orFalse (iha _ _ _ ha) (ihc _ _ _ h)

theorem asks_ref (body : Nat → Ser) (n i : Nat) (s : Caches) (b : Bool) (s' : Caches)
    (h : askRef body n i s = some (b, s')) : Asks body (.ref i) s b s' := by
  induction n generalizing i s b s' with
  | zero => cases h
  | succ n ih =>
    simp only [askRef] at h
    cases hc : s.cached i with
    | some r =>
      rw [hc] at h; simp only [Option.some.injEq, Prod.mk.injEq] at h
      obtain ⟨rfl, rfl⟩ := h; exact .cached hc
    | none =>
      rw [hc] at h
      dsimp only at h
      by_cases hb : i ∈ s.busy
      · rw [if_pos hb] at h; simp only [Option.some.injEq, Prod.mk.injEq] at h
        obtain ⟨rfl, rfl⟩ := h; exact .busy hc hb
      · rw [if_neg hb] at h
        cases hr : askWith (askRef body n) (body i) { s with busy := i :: s.busy } with
        | none => rw [hr] at h; cases h
        | some p =>
          obtain ⟨r, t⟩ := p
          rw [hr] at h
          simp only [Option.some.injEq, Prod.mk.injEq] at h
          obtain ⟨rfl, rfl⟩ := h
          exact .new hc hb (asks_with body _ ih _ _ _ _ hr)

theorem asks_of_ask {body : Nat → Ser} {n : Nat} {x : Ser} {s : Caches} {b : Bool} {s' : Caches}
    (h : ask body n x s = some (b, s')) : Asks body x s b s' :=
  asks_with body _ (asks_ref body n) _ _ _ _ h

/-- The flags set afterwards are those set before. -/
theorem Asks.busy_eq {body : Nat → Ser} {x s b s'} (h : Asks body x s b s') : s'.busy = s.busy := by
  induction h with
  | leaf => rfl
  | orTrue _ ih => exact ih
  | orFalse _ _ iha ihb => rw [ihb, iha]
  | cached _ => rfl
  | busy _ _ => rfl
  | new _ _ _ ih => dsimp only at ih ⊢; rw [ih]; simp

/-- What is cached stays. -/
theorem Asks.keeps {body : Nat → Ser} {x s b s'} (h : Asks body x s b s') {i : Nat} {c : Bool}
    (hi : s.cached i = some c) : s'.cached i = some c := by
  induction h with
  | leaf => exact hi
  | orTrue _ ih => exact ih hi
  | orFalse _ _ iha ihb => exact ihb (iha hi)
  | cached _ => exact hi
  | busy _ _ => exact hi
  | new hn _ _ ih =>
    rename_i j s b s' hb ha
    have hne : i ≠ j := by rintro rfl; rw [hn] at hi; cases hi
    simp only [Caches.set, if_neg hne]
    exact ih hi

/-- Whatever is cached as true is true. -/
def Sound (body : Nat → Ser) (s : Caches) : Prop := ∀ i, s.cached i = some true → Reaches body (body i)

/-- Whatever is cached as false is false. -/
def Complete (body : Nat → Ser) (s : Caches) : Prop := ∀ i, s.cached i = some false → ¬ Reaches body (body i)

theorem Asks.sound {body : Nat → Ser} {x s b s'} (h : Asks body x s b s') (hs : Sound body s) :
    Sound body s' ∧ (b = true → Reaches body x) := by
  induction h with
  | leaf => exact ⟨hs, fun hb => by subst hb; exact .leaf⟩
  | orTrue _ ih => exact ⟨(ih hs).1, fun _ => .left ((ih hs).2 rfl)⟩
  | orFalse _ _ iha ihb =>
    have h2 := ihb (iha hs).1
    exact ⟨h2.1, fun hb => .right (h2.2 hb)⟩
  | cached hc => exact ⟨hs, fun hb => by subst hb; exact .ref (hs _ hc)⟩
  | busy _ _ => exact ⟨hs, fun hb => by cases hb⟩
  | new hn _ _ ih =>
    rename_i i s b s' hb ha
    have h2 := ih hs
    refine ⟨?_, fun hb => .ref (h2.2 hb)⟩
    intro j hj
    by_cases hji : j = i
    · subst hji
      simp only [Caches.set, if_true] at hj
      exact h2.2 (by simpa using hj)
    · simp only [Caches.set, if_neg hji] at hj
      exact h2.1 j hj

/-- No true leaf in `x`, and every reference in it is being computed or cached as false. -/
def Clean (s : Caches) : Ser → Prop
  | .leaf b => b = false
  | .or a b => Clean s a ∧ Clean s b
  | .ref i => i ∈ s.busy ∨ s.cached i = some false

/-- What is cached as false is false, or its definition was searched without success. -/
def Searched (body : Nat → Ser) (s : Caches) : Prop :=
  ∀ i, s.cached i = some false → Clean s (body i) ∨ ¬ Reaches body (body i)

theorem Clean.mono {s s' : Caches} (hb : ∀ i, i ∈ s.busy → i ∈ s'.busy ∨ s'.cached i = some false)
    (hc : ∀ i, s.cached i = some false → s'.cached i = some false) {x : Ser} (h : Clean s x) : Clean s' x := by
  induction x with
  | leaf b => exact h
  | or a b iha ihb => exact ⟨iha h.1, ihb h.2⟩
  | ref i => exact h.elim (hb i) (fun h => Or.inr (hc i h))

theorem Asks.searched {body : Nat → Ser} {x s b s'} (h : Asks body x s b s') (hb : b = false)
    (hs : Searched body s) : Searched body s' ∧ Clean s' x := by
  induction h with
  | leaf => exact ⟨hs, hb⟩
  | orTrue _ _ => cases hb
  | orFalse ha hc iha ihb =>
    have h1 := iha rfl hs
    have h2 := ihb hb h1.1
    refine ⟨h2.1, Clean.mono (fun i hi => Or.inl ?_) (fun i hi => hc.keeps hi) h1.2, h2.2⟩
    rw [hc.busy_eq]; exact hi
  | cached hc => subst hb; exact ⟨hs, Or.inr hc⟩
  | busy _ hi => exact ⟨hs, Or.inl hi⟩
  | new hn hi ha ih =>
    rename_i i s b s'
    subst hb
    have hbusy : s'.busy = i :: s.busy := ha.busy_eq
    have h1 : Searched body s' ∧ Clean s' (body i) := by
      refine ih rfl (fun j hj => Or.imp (fun hc => ?_) id (hs j hj))
      refine Clean.mono (s := s) (s' := { s with busy := i :: s.busy }) ?_ (fun _ h => h) hc
      exact fun k hk => Or.inl (List.mem_cons_of_mem _ hk)
    have hmono : ∀ {y}, Clean s' y → Clean { s'.set i false with busy := s'.busy.erase i } y := by
      intro y hy
      refine Clean.mono ?_ ?_ hy
      · intro k hk
        by_cases hki : k = i
        · right; subst hki; simp [Caches.set]
        · left
          dsimp only
          rw [hbusy] at hk ⊢
          simpa [hki] using hk
      · intro k hk
        by_cases hki : k = i
        · subst hki; simp [Caches.set]
        · simp only [Caches.set, if_neg hki]; exact hk
    refine ⟨?_, Or.inr (by simp [Caches.set])⟩
    intro j hj
    by_cases hji : j = i
    · subst hji; exact Or.inl (hmono h1.2)
    · simp only [Caches.set, if_neg hji] at hj
      exact (h1.1 j hj).imp hmono id

theorem not_reaches {body : Nat → Ser} {s : Caches} (hs : Searched body s) (hb : s.busy = []) {x : Ser}
    (hc : Clean s x) : ¬ Reaches body x := by
  intro hr
  induction hr with
  | leaf => cases hc
  | left _ ih => exact ih hc.1
  | right _ ih => exact ih hc.2
  | ref hr ih =>
    rename_i i
    rcases hc with h | h
    · rw [hb] at h; cases h
    · rcases hs i h with h | h
      · exact ih h
      · exact h hr

/-- Where definitions are not recursive, what is cached is right. -/
theorem Asks.ranked {body : Nat → Ser} {rank : Nat → Nat}
    (hrank : ∀ i j, (body i).Mentions j → rank j < rank i) {x s b s'} (h : Asks body x s b s')
    (hx : ∀ i, x.Mentions i → ∀ j ∈ s.busy, rank i < rank j)
    (hs : Sound body s) (hc : Complete body s) :
    Complete body s' ∧ (b = false → ¬ Reaches body x) := by
  induction h with
  | leaf => exact ⟨hc, fun hb hr => by subst hb; cases hr⟩
  | orTrue _ ih => exact ⟨(ih (fun i hi => hx i (Or.inl hi)) hs hc).1, fun h => by cases h⟩
  | orFalse ha hb iha ihb =>
    have h1 := iha (fun i hi => hx i (Or.inl hi)) hs hc
    have h2 := ihb (fun i hi j hj => hx i (Or.inr hi) j (by rw [← ha.busy_eq]; exact hj)) (ha.sound hs).1 h1.1
    refine ⟨h2.1, fun hf hr => ?_⟩
    cases hr with
    | left hr => exact h1.2 rfl hr
    | right hr => exact h2.2 hf hr
  | cached hi =>
    refine ⟨hc, fun hf hr => ?_⟩
    subst hf
    cases hr with
    | ref hr => exact hc _ hi hr
  | busy _ hi =>
    exact absurd (hx _ rfl _ hi) (Nat.lt_irrefl _)
  | new hn hi ha ih =>
    rename_i i s b s'
    have h1 := ih (by
      intro j hj k hk
      rcases List.mem_cons.1 hk with rfl | hk
      · exact hrank _ _ hj
      · exact Nat.lt_trans (hrank _ _ hj) (hx i rfl k hk)) hs hc
    refine ⟨?_, fun hf hr => ?_⟩
    · intro j hj
      by_cases hji : j = i
      · subst hji
        simp only [Caches.set, if_true] at hj
        exact h1.2 (by simpa using hj)
      · simp only [Caches.set, if_neg hji] at hj
        exact h1.1 j hj
    · cases hr with
      | ref hr => exact h1.2 hf hr

/-- A question answered outside of any computation gets the same answer ever after. -/
theorem Asks.settled {body : Nat → Ser} {x s b s'} (h : Asks body x s b s') (hb : s.busy = []) (n : Nat)
    (t : Caches) (ht : ∀ i c, s'.cached i = some c → t.cached i = some c) :
    ask body (n + 1) x t = some (b, t) := by
  induction h with
  | leaf => rfl
  | orTrue _ ih =>
    have := ih hb ht
    simp only [ask, askWith] at this ⊢
    rw [this]
  | orFalse ha hc iha ihb =>
    have h1 := iha hb (fun i c hi => ht i c (hc.keeps hi))
    have h2 := ihb (by rw [ha.busy_eq]; exact hb) ht
    simp only [ask, askWith] at h1 h2 ⊢
    rw [h1]
    exact h2
  | cached hc => simp only [ask, askWith, askRef, ht _ _ hc]
  | busy _ hi => rw [hb] at hi; cases hi
  | new hn hi ha ih =>
    rename_i i s b s'
    have : t.cached i = some b := ht i b (by simp [Caches.set])
    simp only [ask, askWith, askRef, this]

/-- What holds of the caches of a new serialiser and is kept by every question holds after any questions. -/
theorem askAll_split (body : Nat → Ser) (n : Nat) (P : Caches → Prop)
    (hP : ∀ x s b s', P s → ask body n x s = some (b, s') → P s') (ys : List Ser) (x : Ser) (s : Caches)
    (hs : P s) (b : Bool) (h : askAll body n ys x s = some b) :
    ∃ t s', P t ∧ ask body n x t = some (b, s') := by
  induction ys generalizing s with
  | nil =>
    simp only [askAll] at h
    cases ha : ask body n x s with
    | none => rw [ha] at h; cases h
    | some p =>
      obtain ⟨r, s'⟩ := p
      rw [ha] at h
      simp only [Option.map_some, Option.some.injEq] at h
      subst h
      exact ⟨s, s', hs, ha⟩
  | cons y ys ih =>
    simp only [askAll] at h
    cases ha : ask body n y s with
    | none => rw [ha] at h; cases h
    | some p =>
      obtain ⟨r, s'⟩ := p
      rw [ha] at h
      exact ih s' (hP _ _ _ _ hs ha) h

/-- Flags are set for different references of the schema. -/
def BusyOk (m : Nat) (s : Caches) : Prop := s.busy.Nodup ∧ ∀ i ∈ s.busy, i < m

theorem BusyOk.length {m : Nat} {s : Caches} (h : BusyOk m s) : s.busy.length ≤ m := by
  have := (List.subperm_of_subset h.1 (l₂ := List.range m) (fun i hi => by simpa using h.2 i hi)).length_le
  simpa using this

theorem askWith_total (m : Nat) (ref : Nat → Caches → Option (Bool × Caches)) (bz : List Nat)
    (href : ∀ i s, i < m → s.busy = bz → ∃ b s', ref i s = some (b, s') ∧ s'.busy = bz)
    (x : Ser) (hx : ∀ i, x.Mentions i → i < m) (s : Caches) (hs : s.busy = bz) :
    ∃ b s', askWith ref x s = some (b, s') ∧ s'.busy = bz := by
  induction x generalizing s with
  | leaf b => exact ⟨b, s, rfl, hs⟩
  | ref i => exact href i s (hx i rfl) hs
  | or a c iha ihc =>
    obtain ⟨b, s', h1, h2⟩ := iha (fun i hi => hx i (Or.inl hi)) s hs
    simp only [askWith, h1]
    cases b with
    | true => exact ⟨true, s', rfl, h2⟩
    | false => exact ihc (fun i hi => hx i (Or.inr hi)) s' h2

theorem askRef_total (body : Nat → Ser) (m : Nat) (hw : Within body m) (n i : Nat) (s : Caches)
    (hi : i < m) (hs : BusyOk m s) (hn : m < n + s.busy.length) :
    ∃ b s', askRef body n i s = some (b, s') ∧ s'.busy = s.busy := by
  induction n generalizing i s with
  | zero => have := hs.length; omega
  | succ n ih =>
    simp only [askRef]
    cases hc : s.cached i with
    | some b => exact ⟨b, s, rfl, rfl⟩
    | none =>
      dsimp only
      by_cases hb : i ∈ s.busy
      · rw [if_pos hb]; exact ⟨false, s, rfl, rfl⟩
      · rw [if_neg hb]
        obtain ⟨b, s', h1, h2⟩ := askWith_total m (askRef body n) (i :: s.busy) (by
          intro j t hj ht
          obtain ⟨b, s', h1, h2⟩ := ih j t hj ⟨by rw [ht]; exact List.nodup_cons.2 ⟨hb, hs.1⟩, by
            rw [ht]; intro k hk
            rcases List.mem_cons.1 hk with rfl | hk
            · exact hi
            · exact hs.2 k hk⟩ (by rw [ht]; simp only [List.length_cons]; omega)
          exact ⟨b, s', h1, h2.trans ht⟩) (body i) (fun j hj => hw i j hi hj)
          { s with busy := i :: s.busy } rfl
        rw [h1]
        exact ⟨b, _, rfl, by dsimp only; rw [h2]; simp⟩

end PC.LaxRetry
