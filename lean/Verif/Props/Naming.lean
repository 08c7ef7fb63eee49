import Verif.Lemmas.Naming

/-
C101: the names of validators in the locations of errors.
-/

namespace PC.Naming

/- The schema of the examples: `a = list[ref b]`, `b = list[ref a]`. -/
private def exBody : Nat → Named
  | 0 => .list 0 (.ref 1)
  | 1 => .list 1 (.ref 0)
  | _ => .const "int"

private def exItems : Nat → Named
  | 0 => .ref 1
  | _ => .ref 0

private theorem exNumbered : Numbered exBody exItems [.ref 0, .ref 1] := by
  constructor
  · intro d l it h
    match d with
    | 0 => simp only [exBody, Named.HasList, or_false] at h; obtain ⟨rfl, rfl⟩ := h; rfl
    | 1 => simp only [exBody, Named.HasList, or_false] at h; obtain ⟨rfl, rfl⟩ := h; rfl
    | _ + 2 => exact h.elim
  · intro v hv l it h
    simp only [List.mem_cons, List.not_mem_nil, or_false] at hv
    rcases hv with rfl | rfl <;> exact h.elim

/-- **C101.** Asking for names always comes to an end, however the definitions refer to each other. -/
theorem name_exists (body : Nat → Named) (m : Nat) (hw : Within body m) (ws : List Named) (v : Named)
    (hws : ∀ w ∈ ws, ∀ d, w.Mentions d → d < m) (hv : ∀ d, v.Mentions d → d < m) :
    ∃ s, nameAll body (m + 1) ws v .new = some s := by
  have key : ∀ (w : Named) (c : Names), (∀ d, w.Mentions d → d < m) → c.busy = [] →
      ∃ s c', name body (m + 1) w c = some (s, c') ∧ c'.busy = [] := by
    intro w c hw' hc
    refine nameWith_total m _ [] (fun d t hd ht => ?_) w hw' c hc
    obtain ⟨b, s', h1, h2⟩ := nameRef_total body m hw (m + 1) d t hd
      ⟨by rw [ht]; exact List.nodup_nil, by rw [ht]; intro k hk; cases hk⟩ (by omega)
    exact ⟨b, s', h1, h2.trans ht⟩
  have : ∀ (c : Names), c.busy = [] → ∃ s, nameAll body (m + 1) ws v c = some s := by
    induction ws with
    | nil =>
      intro c hc
      obtain ⟨b, s', h1, _⟩ := key v c hv hc
      exact ⟨b, by simp only [nameAll, h1, Option.map_some]⟩
    | cons w ws ih =>
      intro c hc
      obtain ⟨b, s', h1, h2⟩ := key w c (hws w List.mem_cons_self) hc
      obtain ⟨r, hr⟩ := ih (fun z hz => hws z (List.mem_cons_of_mem _ hz)) s' h2
      exact ⟨r, by simp only [nameAll, h1, hr]⟩
  exact this .new rfl

example : Within exBody 2 ∧ ∃ s, nameAll exBody 3 [.ref 0] (.ref 1) .new = some s := by
  have hw : Within exBody 2 := by
    intro i j hi hj
    match i, hi with
    | 0, _ => simp only [exBody, Named.Mentions] at hj; omega
    | 1, _ => simp only [exBody, Named.Mentions] at hj; omega
  refine ⟨hw, name_exists exBody 2 hw _ _ ?_ ?_⟩
  · intro y hy i hi
    simp only [List.mem_cons, List.not_mem_nil, or_false] at hy
    subst hy
    simp only [Named.Mentions] at hi; omega
  · intro i hi; simp only [Named.Mentions] at hi; omega

/-- **C101.** Whatever names were asked for before, the answer is the name of the validator with dots in place
of the names of some references. -/
theorem name_short (body items : Nat → Named) (n : Nat) (ws : List Named) (v : Named) (s : String)
    (hn : Numbered body items (v :: ws)) (h : nameAll body n ws v .new = some s) : ShortName body v s := by
  have key : ∀ {v c s c'}, Labelled items v → Good body items (ShortName body) c →
      name body n v c = some (s, c') → Good body items (ShortName body) c' ∧ ShortName body v s :=
    fun hl hg ha => (asks_of_name ha).good (rank := fun _ => 0) (fun _ => .const) (fun _ _ _ h => .list h)
      (fun _ _ h => .ref h) hn.1 hl (Or.inl fun _ => .dots) hg
  obtain ⟨t, c', ht, ha⟩ := nameAll_split body n (Good body items (ShortName body)) (Labelled items)
    (fun v c s c' hl hg ha => (key hl hg ha).1) ws (fun w hw => hn.2 w (List.mem_cons_of_mem _ hw)) v .new
    ⟨(fun d s h => by cases h), (fun l s h => by cases h)⟩ s h
  exact (key (hn.2 v List.mem_cons_self) ht ha).2

example : Numbered exBody exItems (.ref 0 :: [.ref 1]) ∧
    nameAll exBody 3 [.ref 1] (.ref 0) .new = some "list[...]" := ⟨exNumbered, by decide⟩

/-- **C101, in part.** If the definitions are not recursive, the answer is the name of the validator written
out, whatever names were asked for before. Missing: recursive definitions, for which the name depends on what
was asked before (`name_history`). -/
theorem name_full_partial (body items : Nat → Named) (hr : NotRecursive body) (n : Nat) (ws : List Named)
    (v : Named) (s : String) (hn : Numbered body items (v :: ws)) (h : nameAll body n ws v .new = some s) :
    FullName body v s := by
  obtain ⟨rank, hrank⟩ := hr
  have key : ∀ {v c s c'}, Labelled items v → (c.busy = [] ∧ Good body items (FullName body) c) →
      name body n v c = some (s, c') → Good body items (FullName body) c' ∧ FullName body v s :=
    fun hl hg ha => (asks_of_name ha).good (rank := rank) (fun _ => .const) (fun _ _ _ h => .list h)
      (fun _ _ h => .ref h) hn.1 hl (Or.inr ⟨hrank, fun d _ e he => by rw [hg.1] at he; cases he⟩) hg.2
  obtain ⟨t, c', ht, ha⟩ := nameAll_split body n (fun c => c.busy = [] ∧ Good body items (FullName body) c)
    (Labelled items)
    (fun v c s c' hl hg ha => ⟨(asks_of_name ha).busy_eq.trans hg.1, (key hl hg ha).1⟩) ws
    (fun w hw => hn.2 w (List.mem_cons_of_mem _ hw)) v .new
    ⟨rfl, ⟨(fun d s h => by cases h), (fun l s h => by cases h)⟩⟩ s h
  exact (key (hn.2 v List.mem_cons_self) ht ha).2

private def flatBody : Nat → Named
  | 0 => .list 0 (.ref 1)
  | _ => .const "int"

example : NotRecursive flatBody ∧ Numbered flatBody (fun _ => .ref 1) [.list 1 (.ref 1), .ref 0] ∧
    nameAll flatBody 3 [.ref 0] (.list 1 (.ref 1)) .new = some "list[int]" := by
  refine ⟨⟨fun i => if i = 0 then 1 else 0, ?_⟩, ⟨?_, ?_⟩, by decide⟩
  · intro i j hj
    match i with
    | 0 => simp only [flatBody, Named.Mentions] at hj; subst hj; decide
    | _ + 1 => exact hj.elim
  · intro d l it h
    match d with
    | 0 => simp only [flatBody, Named.HasList, or_false] at h; exact h.2.symm
    | _ + 1 => exact h.elim
  · intro v hv l it h
    simp only [List.mem_cons, List.not_mem_nil, or_false] at hv
    rcases hv with rfl | rfl
    · simp only [Named.HasList, or_false] at h; exact h.2.symm
    · exact h.elim

/-- **C101.** The name of a reference that was asked for stays the same, whatever is asked in between. -/
theorem name_stays (body : Nat → Named) (n : Nat) (zs ws : List Named) (d : Nat) (s t : String)
    (h : nameAll body (n + 1) zs (.ref d) .new = some s)
    (h' : nameAll body (n + 1) (zs ++ .ref d :: ws) (.ref d) .new = some t) : t = s := by
  have key : ∀ (c : Names), c.busy = [] → nameAll body (n + 1) zs (.ref d) c = some s →
      nameAll body (n + 1) (zs ++ .ref d :: ws) (.ref d) c = some t → t = s := by
    clear h h'
    induction zs with
    | nil =>
      intro c hc h h'
      simp only [nameAll, List.nil_append] at h h'
      cases ha : name body (n + 1) (.ref d) c with
      | none => rw [ha] at h; cases h
      | some p =>
        obtain ⟨r, c'⟩ := p
        rw [ha] at h h'
        simp only [Option.map_some, Option.some.injEq] at h
        subst h
        obtain ⟨u, u', hu, hc'⟩ := nameAll_split body (n + 1) (fun u => u.defs d = some r) (fun _ => True)
          (fun v u e u' _ hu ha => (asks_of_name ha).keeps hu) ws (fun _ _ => trivial) (.ref d) c'
          ((asks_of_name ha).stored hc) t h'
        simp only [name, nameWith, nameRef, hu, Option.some.injEq, Prod.mk.injEq] at hc'
        exact hc'.1.symm
    | cons z zs ih =>
      intro c hc h h'
      simp only [nameAll, List.cons_append] at h h'
      cases ha : name body (n + 1) z c with
      | none => rw [ha] at h; cases h
      | some p =>
        obtain ⟨r, c'⟩ := p
        rw [ha] at h h'
        exact ih c' ((asks_of_name ha).busy_eq.trans hc) h h'
  exact key .new rfl h h'

example : nameAll exBody 3 [.ref 1] (.ref 0) .new = some "list[...]" ∧
    nameAll exBody 3 ([.ref 1] ++ .ref 0 :: [.list 2 (.ref 0)]) (.ref 0) .new = some "list[...]" := by decide

/-- **C101 fails for recursive definitions.** There is a schema in which the name of a reference, and with it
the location of an error in a union, depends on which names were asked for before. -/
theorem name_history :
    ∃ (body : Nat → Named) (d : Nat) (ws : List Named) (s t : String), Within body 2 ∧
      nameAll body 3 [] (.ref d) .new = some s ∧ nameAll body 3 ws (.ref d) .new = some t ∧ s ≠ t := by
  refine ⟨exBody, 0, [.ref 1], "list[list[...]]", "list[...]", ?_, by decide, by decide, by decide⟩
  intro i j hi hj
  match i, hi with
  | 0, _ => simp only [exBody, Named.Mentions] at hj; omega
  | 1, _ => simp only [exBody, Named.Mentions] at hj; omega

end PC.Naming
