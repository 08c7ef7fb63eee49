import Mathlib.Data.List.Perm.Subperm
import Verif.Spec.Naming

/-
Lemmas about the cached names of validators.
-/

namespace PC.Naming

/-- The runs of `name`, as a relation. -/
inductive Asks (body : Nat → Named) : Named → Names → String → Names → Prop
  | const {s c} : Asks body (.const s) c s c
  | listCached {l v c s} : c.lists l = some s → Asks body (.list l v) c s c
  | listDots {l v c c'} : c.lists l = none → Asks body v c "..." c' → Asks body (.list l v) c "list[...]" c'
  | listMeanwhile {l v c n c' s} : c.lists l = none → Asks body v c n c' → c'.lists l = some s →
      Asks body (.list l v) c s c'
  | listNew {l v c n c'} : c.lists l = none → Asks body v c n c' → c'.lists l = none →
      Asks body (.list l v) c ("list[" ++ n ++ "]") (c'.setList l ("list[" ++ n ++ "]"))
  | cached {d c s} : c.defs d = some s → Asks body (.ref d) c s c
  | busy {d c} : c.defs d = none → d ∈ c.busy → Asks body (.ref d) c "..." c
  | new {d c s c'} : c.defs d = none → d ∉ c.busy →
      Asks body (body d) { c with busy := d :: c.busy } s c' →
      Asks body (.ref d) c s { c'.setDef d s with busy := c'.busy.erase d }

theorem asks_with (body : Nat → Named) (ref : Nat → Names → Option (String × Names))
    (hr : ∀ d c s c', ref d c = some (s, c') → Asks body (.ref d) c s c')
    (v : Named) (c : Names) (s : String) (c' : Names) (h : nameWith ref v c = some (s, c')) :
    Asks body v c s c' := by
  induction v generalizing c s c' with
  | const t =>
    simp only [nameWith, Option.some.injEq, Prod.mk.injEq] at h
    obtain ⟨rfl, rfl⟩ := h; exact .const
  | ref d => exact hr _ _ _ _ h
  | list l v ih =>
    simp only [nameWith] at h
    cases hl : c.lists l with
    | some t =>
      rw [hl] at h
      simp only [Option.some.injEq, Prod.mk.injEq] at h
      obtain ⟨rfl, rfl⟩ := h
      exact .listCached hl
    | none =>
      rw [hl] at h
      dsimp only at h
      cases hv : nameWith ref v c with
      | none => rw [hv] at h; cases h
      | some p =>
        obtain ⟨n, t⟩ := p
        rw [hv] at h
        simp only [listName] at h
        have ha := ih _ _ _ hv
        by_cases hn : n = "..."
        · rw [if_pos hn] at h
          simp only [Option.some.injEq, Prod.mk.injEq] at h
          obtain ⟨rfl, rfl⟩ := h
          subst hn
          exact .listDots hl ha
        · rw [if_neg hn] at h
          cases ht : t.lists l with
          | some u =>
            rw [ht] at h
            simp only [Option.some.injEq, Prod.mk.injEq] at h
            obtain ⟨rfl, rfl⟩ := h
            exact .listMeanwhile hl ha ht
          | none =>
            rw [ht] at h
            simp only [Option.some.injEq, Prod.mk.injEq] at h
            obtain ⟨rfl, rfl⟩ := h
            exact .listNew hl ha ht

theorem asks_ref (body : Nat → Named) (n d : Nat) (c : Names) (s : String) (c' : Names)
    (h : nameRef body n d c = some (s, c')) : Asks body (.ref d) c s c' := by
  induction n generalizing d c s c' with
  | zero => cases h
  | succ n ih =>
    simp only [nameRef] at h
    cases hc : c.defs d with
    | some r =>
      rw [hc] at h; simp only [Option.some.injEq, Prod.mk.injEq] at h
      obtain ⟨rfl, rfl⟩ := h; exact .cached hc
    | none =>
      rw [hc] at h
      dsimp only at h
      by_cases hb : d ∈ c.busy
      · rw [if_pos hb] at h; simp only [Option.some.injEq, Prod.mk.injEq] at h
        obtain ⟨rfl, rfl⟩ := h; exact .busy hc hb
      · rw [if_neg hb] at h
        cases hr : nameWith (nameRef body n) (body d) { c with busy := d :: c.busy } with
        | none => rw [hr] at h; cases h
        | some p =>
          obtain ⟨r, t⟩ := p
          rw [hr] at h
          simp only [Option.some.injEq, Prod.mk.injEq] at h
          obtain ⟨rfl, rfl⟩ := h
          exact .new hc hb (asks_with body _ ih _ _ _ _ hr)

theorem asks_of_name {body : Nat → Named} {n : Nat} {v : Named} {c : Names} {s : String} {c' : Names}
    (h : name body n v c = some (s, c')) : Asks body v c s c' :=
  asks_with body _ (asks_ref body n) _ _ _ _ h

theorem Asks.busy_eq {body : Nat → Named} {v c s c'} (h : Asks body v c s c') : c'.busy = c.busy := by
  induction h with
  | const => rfl
  | listCached _ => rfl
  | listDots _ _ ih => exact ih
  | listMeanwhile _ _ _ ih => exact ih
  | listNew _ _ _ ih => exact ih
  | cached _ => rfl
  | busy _ _ => rfl
  | new _ _ _ ih => dsimp only at ih ⊢; rw [ih]; simp

theorem Asks.keeps {body : Nat → Named} {v c s c'} (h : Asks body v c s c') {d : Nat} {t : String}
    (hd : c.defs d = some t) : c'.defs d = some t := by
  induction h with
  | const => exact hd
  | listCached _ => exact hd
  | listDots _ _ ih => exact ih hd
  | listMeanwhile _ _ _ ih => exact ih hd
  | listNew _ _ _ ih => exact ih hd
  | cached _ => exact hd
  | busy _ _ => exact hd
  | new hn hb ha ih =>
    rename_i e c s c'
    have hne : d ≠ e := by rintro rfl; rw [hn] at hd; cases hd
    simp only [Names.setDef, if_neg hne]
    exact ih hd

/-- After asking for the name of a definition outside of any computation, it is cached. -/
theorem Asks.stored {body : Nat → Named} {d c s c'} (h : Asks body (.ref d) c s c') (hb : c.busy = []) :
    c'.defs d = some s := by
  cases h with
  | cached hc => exact hc
  | busy _ hd => rw [hb] at hd; cases hd
  | new _ _ _ => simp [Names.setDef]

/-- All lists in `v` with the number `l` have the items `items l`. -/
def Labelled (items : Nat → Named) (v : Named) : Prop := ∀ l it, v.HasList l it → it = items l

/-- The cached names are names in the sense of `P`. -/
structure Good (body items : Nat → Named) (P : Named → String → Prop) (c : Names) : Prop where
  defs : ∀ d s, c.defs d = some s → P (.ref d) s
  lists : ∀ l s, c.lists l = some s → P (.list l (items l)) s

theorem Asks.good {body items : Nat → Named} {P : Named → String → Prop} {rank : Nat → Nat}
    (hconst : ∀ s, P (.const s) s) (hlist : ∀ l v s, P v s → P (.list l v) ("list[" ++ s ++ "]"))
    (href : ∀ d s, P (body d) s → P (.ref d) s) (hlab : ∀ d, Labelled items (body d))
    {v c s c'} (h : Asks body v c s c') (hv : Labelled items v)
    (hx : (∀ d, P (.ref d) "...") ∨
      ((∀ d e, (body d).Mentions e → rank e < rank d) ∧ ∀ d, v.Mentions d → ∀ e ∈ c.busy, rank d < rank e))
    (hg : Good body items P c) : Good body items P c' ∧ P v s := by
  induction h with
  | const => exact ⟨hg, hconst _⟩
  | listCached hl =>
    rename_i l v c s
    refine ⟨hg, ?_⟩
    rw [hv l v (Or.inl ⟨rfl, rfl⟩)]
    exact hg.lists _ _ hl
  | listDots hl _ ih =>
    have h1 := ih (fun k it hk => hv k it (Or.inr hk)) hx hg
    exact ⟨h1.1, hlist _ _ _ h1.2⟩
  | listMeanwhile hl _ hm ih =>
    rename_i l v c n c' s ha
    have h1 := ih (fun k it hk => hv k it (Or.inr hk)) hx hg
    refine ⟨h1.1, ?_⟩
    rw [hv l v (Or.inl ⟨rfl, rfl⟩)]
    exact h1.1.lists _ _ hm
  | listNew hl _ hm ih =>
    rename_i l v c n c' ha
    have h1 := ih (fun k it hk => hv k it (Or.inr hk)) hx hg
    have h2 := hlist l v _ h1.2
    refine ⟨⟨h1.1.defs, fun k t hk => ?_⟩, h2⟩
    by_cases hkl : k = l
    · subst hkl
      simp only [Names.setList, if_true, Option.some.injEq] at hk
      rw [← hk, ← hv k v (Or.inl ⟨rfl, rfl⟩)]
      exact h2
    · simp only [Names.setList, if_neg hkl] at hk
      exact h1.1.lists k t hk
  | cached hc => exact ⟨hg, hg.defs _ _ hc⟩
  | busy _ hd =>
    refine ⟨hg, ?_⟩
    rcases hx with hx | hx
    · exact hx _
    · exact absurd (hx.2 _ rfl _ hd) (Nat.lt_irrefl _)
  | new hn hd ha ih =>
    rename_i d c s c'
    have h1 := ih (hlab d) (hx.imp id (fun hx => ⟨hx.1, by
      intro e he k hk
      rcases List.mem_cons.1 hk with rfl | hk
      · exact hx.1 _ _ he
      · exact Nat.lt_trans (hx.1 _ _ he) (hx.2 d rfl k hk)⟩)) ⟨hg.defs, hg.lists⟩
    have h2 := href d s h1.2
    refine ⟨⟨fun e t he => ?_, h1.1.lists⟩, h2⟩
    by_cases hed : e = d
    · subst hed
      simp only [Names.setDef, if_true, Option.some.injEq] at he
      rw [← he]; exact h2
    · simp only [Names.setDef, if_neg hed] at he
      exact h1.1.defs e t he

/-- What holds of new caches and is kept by every question holds after any questions. -/
theorem nameAll_split (body : Nat → Named) (n : Nat) (P : Names → Prop) (Q : Named → Prop)
    (hP : ∀ v c s c', Q v → P c → name body n v c = some (s, c') → P c') (ws : List Named) (hws : ∀ w ∈ ws, Q w)
    (v : Named) (c : Names) (hc : P c) (s : String) (h : nameAll body n ws v c = some s) :
    ∃ t c', P t ∧ name body n v t = some (s, c') := by
  induction ws generalizing c with
  | nil =>
    simp only [nameAll] at h
    cases ha : name body n v c with
    | none => rw [ha] at h; cases h
    | some p =>
      obtain ⟨r, c'⟩ := p
      rw [ha] at h
      simp only [Option.map_some, Option.some.injEq] at h
      subst h
      exact ⟨c, c', hc, ha⟩
  | cons w ws ih =>
    simp only [nameAll] at h
    cases ha : name body n w c with
    | none => rw [ha] at h; cases h
    | some p =>
      obtain ⟨r, c'⟩ := p
      rw [ha] at h
      exact ih (fun u hu => hws u (List.mem_cons_of_mem _ hu)) c' (hP _ _ _ _ (hws w List.mem_cons_self) hc ha) h

/-- Flags are set for different definitions of the schema. -/
def BusyOk (m : Nat) (c : Names) : Prop := c.busy.Nodup ∧ ∀ d ∈ c.busy, d < m

theorem BusyOk.length {m : Nat} {c : Names} (h : BusyOk m c) : c.busy.length ≤ m := by
  have := (List.subperm_of_subset h.1 (l₂ := List.range m) (fun i hi => by simpa using h.2 i hi)).length_le
  simpa using this

theorem nameWith_total (m : Nat) (ref : Nat → Names → Option (String × Names)) (bz : List Nat)
    (href : ∀ d c, d < m → c.busy = bz → ∃ s c', ref d c = some (s, c') ∧ c'.busy = bz)
    (v : Named) (hv : ∀ d, v.Mentions d → d < m) (c : Names) (hc : c.busy = bz) :
    ∃ s c', nameWith ref v c = some (s, c') ∧ c'.busy = bz := by
  induction v generalizing c with
  | const s => exact ⟨s, c, rfl, hc⟩
  | ref d => exact href d c (hv d rfl) hc
  | list l v ih =>
    simp only [nameWith]
    cases hl : c.lists l with
    | some s => exact ⟨s, c, rfl, hc⟩
    | none =>
      dsimp only
      obtain ⟨s, c', h1, h2⟩ := ih hv c hc
      rw [h1]
      simp only [listName]
      by_cases hn : s = "..."
      · rw [if_pos hn]; exact ⟨_, _, rfl, h2⟩
      · rw [if_neg hn]
        cases c'.lists l with
        | some t => exact ⟨_, _, rfl, h2⟩
        | none => exact ⟨_, _, rfl, h2⟩

theorem nameRef_total (body : Nat → Named) (m : Nat) (hw : Within body m) (n d : Nat) (c : Names)
    (hd : d < m) (hc : BusyOk m c) (hn : m < n + c.busy.length) :
    ∃ s c', nameRef body n d c = some (s, c') ∧ c'.busy = c.busy := by
  induction n generalizing d c with
  | zero => have := hc.length; omega
  | succ n ih =>
    simp only [nameRef]
    cases hcd : c.defs d with
    | some s => exact ⟨s, c, rfl, rfl⟩
    | none =>
      dsimp only
      by_cases hb : d ∈ c.busy
      · rw [if_pos hb]; exact ⟨_, c, rfl, rfl⟩
      · rw [if_neg hb]
        obtain ⟨s, c', h1, h2⟩ := nameWith_total m (nameRef body n) (d :: c.busy) (by
          intro e t he ht
          obtain ⟨s, c', h1, h2⟩ := ih e t he ⟨by rw [ht]; exact List.nodup_cons.2 ⟨hb, hc.1⟩, by
            rw [ht]; intro k hk
            rcases List.mem_cons.1 hk with rfl | hk
            · exact hd
            · exact hc.2 k hk⟩ (by rw [ht]; simp only [List.length_cons]; omega)
          exact ⟨s, c', h1, h2.trans ht⟩) (body d) (fun e he => hw d e hd he)
          { c with busy := d :: c.busy } rfl
        rw [h1]
        exact ⟨s, _, rfl, by dsimp only; rw [h2]; simp⟩

end PC.Naming
