/-
Lemmas about the serialisation of fields: each loop is a collection of what single items emit.
-/
import Verif.Spec.SerFields
import Verif.Lemmas.Filter

namespace PC.SerFields

open PC.Filter (Key FVal Says given kset)

/-- Collect what the items of a list emit, stopping at the first error. -/
def collect {γ δ E : Type} (g : γ → Except E (Option δ)) : List γ → Except E (List δ)
  | [] => .ok []
  | x :: rest =>
    match g x with
    | .error e => .error e
    | .ok Option.none => collect g rest
    | .ok (some d) =>
      match collect g rest with
      | .error e => .error e
      | .ok ds => .ok (d :: ds)

theorem collect_mem {γ δ E : Type} (g : γ → Except E (Option δ)) (l : List γ) (ds : List δ)
    (h : collect g l = .ok ds) (d : δ) : d ∈ ds ↔ ∃ x ∈ l, g x = .ok (some d) := by
  induction l generalizing ds with
  | nil => cases h; simp
  | cons x rest ih =>
    simp only [collect] at h
    cases hx : g x with
    | error e => rw [hx] at h; cases h
    | ok r =>
      rw [hx] at h
      cases r with
      | none =>
        rw [ih ds h]
        constructor
        · rintro ⟨y, hy, hg⟩; exact ⟨y, List.mem_cons_of_mem _ hy, hg⟩
        · rintro ⟨y, hy, hg⟩
          rcases List.mem_cons.1 hy with rfl | hy
          · rw [hx] at hg; cases hg
          · exact ⟨y, hy, hg⟩
      | some d' =>
        dsimp only at h
        cases hr : collect g rest with
        | error e => rw [hr] at h; cases h
        | ok ds' =>
          rw [hr] at h; cases h
          rw [List.mem_cons, ih ds' hr]
          constructor
          · rintro (rfl | ⟨y, hy, hg⟩)
            · exact ⟨x, by simp, hx⟩
            · exact ⟨y, List.mem_cons_of_mem _ hy, hg⟩
          · rintro ⟨y, hy, hg⟩
            rcases List.mem_cons.1 hy with rfl | hy
            · rw [hx] at hg; cases hg; exact Or.inl rfl
            · exact Or.inr ⟨y, hy, hg⟩

theorem collect_ok {γ δ E : Type} (g : γ → Except E (Option δ)) (l : List γ)
    (h : ∀ x ∈ l, ∃ r, g x = .ok r) : ∃ ds, collect g l = .ok ds := by
  induction l with
  | nil => exact ⟨[], rfl⟩
  | cons x rest ih =>
    obtain ⟨r, hr⟩ := h x (by simp)
    obtain ⟨ds, hds⟩ := ih (fun y hy => h y (List.mem_cons_of_mem _ hy))
    cases r with
    | none => exact ⟨ds, by simp only [collect, hr, hds]⟩
    | some d => exact ⟨d :: ds, by simp only [collect, hr, hds]⟩

theorem collect_keys {γ κ β E : Type} (g : γ → Except E (Option (κ × β))) (key : γ → Option κ)
    (hkey : ∀ x d, g x = .ok (some d) → key x = some d.1) (l : List γ) (ds : List (κ × β))
    (h : collect g l = .ok ds) : (ds.map (·.1)).Sublist (l.filterMap key) := by
  induction l generalizing ds with
  | nil => cases h; exact List.Sublist.refl _
  | cons x rest ih =>
    simp only [collect] at h
    cases hx : g x with
    | error e => rw [hx] at h; cases h
    | ok r =>
      rw [hx] at h
      cases r with
      | none =>
        have := ih ds h
        rw [List.filterMap_cons]
        cases key x with
        | none => exact this
        | some k => exact List.Sublist.cons _ this
      | some d' =>
        dsimp only at h
        cases hr : collect g rest with
        | error e => rw [hr] at h; cases h
        | ok ds' =>
          rw [hr] at h; cases h
          rw [List.filterMap_cons, hkey x d' hx]
          exact List.Sublist.cons_cons _ (ih ds' hr)

theorem collect_agree {γ δ δ' E : Type} (g : γ → Except E (Option δ)) (g' : γ → Except E (Option δ'))
    (f : δ' → δ) (l : List γ)
    (h : ∀ x ∈ l, (g x).toOption = (g' x).toOption.map (Option.map f)) :
    (collect g l).toOption = (collect g' l).toOption.map (List.map f) := by
  induction l with
  | nil => rfl
  | cons x rest ih =>
    have hx := h x (by simp)
    have ihr := ih (fun y hy => h y (List.mem_cons_of_mem _ hy))
    simp only [collect]
    cases h1 : g x with
    | error e =>
      cases h2 : g' x with
      | error e' => rfl
      | ok r' => rw [h1, h2] at hx; cases hx
    | ok r =>
      cases h2 : g' x with
      | error e' => rw [h1, h2] at hx; cases hx
      | ok r' =>
        rw [h1, h2] at hx
        simp only [Except.toOption, Option.map_some, Option.some.injEq] at hx
        subst hx
        cases r' with
        | none => exact ihr
        | some d =>
          dsimp only [Option.map]
          cases h3 : collect g rest with
          | error e =>
            cases h4 : collect g' rest with
            | error e' => rfl
            | ok _ => rw [h3, h4] at ihr; cases ihr
          | ok ds =>
            cases h4 : collect g' rest with
            | error e' => rw [h3, h4] at ihr; cases ihr
            | ok ds' =>
              rw [h3, h4] at ihr
              simp only [Except.toOption, Option.map_some, Option.some.injEq] at ihr
              subst ihr; rfl

/-- Add entries to a dict. -/
def addAll {β : Type} (out es : List (Key × β)) : List (Key × β) :=
  es.foldl (fun d e => kset d e.1 e.2) out

theorem addAll_append {β : Type} (out a b : List (Key × β)) :
    addAll out (a ++ b) = addAll (addAll out a) b := List.foldl_append

theorem addAll_new {β : Type} (out es : List (Key × β)) (h : ((out ++ es).map (·.1)).Nodup) :
    addAll out es = out ++ es := by
  induction es generalizing out with
  | nil => simp [addAll]
  | cons e rest ih =>
    have hn : e.1 ∉ out.map (·.1) := by
      intro hin
      rw [List.map_append, List.nodup_append] at h
      exact h.2.2 e.1 hin e.1 (by simp) rfl
    have : addAll out (e :: rest) = addAll (out ++ [e]) rest := by
      show addAll (kset out e.1 e.2) rest = _
      rw [PC.Filter.kset_new out e.1 e.2 hn]
    rw [this, ih (out ++ [e]) (by simpa using h)]
    simp

/-- What one item of the `__dict__` adds to the Python output. -/
def emitMain {α β ε : Type} (s : FieldsSer α β ε) (env : Env α β ε) (o : Opts) (incl excl : Option FVal)
    (e : Key × α) : Except (SErr ε) (Option (Key × β)) :=
  match e.1 with
  | .i _ => .error .key
  | .s name =>
    if o.excludeNone && env.isNone e.2 then .ok Option.none
    else
      match fieldFilter env (.s name) incl excl with
      | .error e => .error e
      | .ok Option.none => .ok Option.none
      | .ok (some (ni, ne)) =>
        match s.get name with
        | some f =>
          match f.serializer with
          | Option.none => .ok Option.none
          | some ser =>
            match excludeDefault env o ser e.2 with
            | .error e => .error e
            | .ok true => .ok Option.none
            | .ok false =>
              match ser.toPython e.2 ni ne with
              | .error e => .error (.inner e)
              | .ok b => .ok (some (.s (f.key name o), b))
        | Option.none =>
          if s.mode = .typedDictAllow then
            match s.extraPython env e.2 ni ne with
            | .error e => .error e
            | .ok b => .ok (some (.s name, b))
          else if o.check = .strict then .error (.unexpected name)
          else .ok Option.none

theorem mainLoop_eq {α β ε : Type} (s : FieldsSer α β ε) (env : Env α β ε) (o : Opts)
    (incl excl : Option FVal) (items : List (Key × α)) (out : List (Key × β)) (used : Nat) :
    (mainLoop s env o incl excl items out used).map (·.1)
      = (collect (emitMain s env o incl excl) items).map (addAll out) := by
  induction items generalizing out used with
  | nil => rfl
  | cons e rest ih =>
    obtain ⟨k, v⟩ := e
    cases k with
    | i n => rfl
    | s name =>
      simp only [mainLoop, collect, emitMain]
      by_cases hn : (o.excludeNone && env.isNone v) = true
      · simp only [hn, if_true]; exact ih _ _
      · simp only [hn, Bool.false_eq_true, if_false]
        cases hf : fieldFilter env (.s name) incl excl with
        | error e => rfl
        | ok r =>
          cases r with
          | none => exact ih _ _
          | some p =>
            obtain ⟨ni, ne⟩ := p
            dsimp only
            cases hg : s.get name with
            | some f =>
              dsimp only
              cases hs : f.serializer with
              | none => exact ih _ _
              | some ser =>
                dsimp only
                cases hd : excludeDefault env o ser v with
                | error e => rfl
                | ok d =>
                  cases d with
                  | true => exact ih _ _
                  | false =>
                    dsimp only
                    cases hp : ser.toPython v ni ne with
                    | error e => rfl
                    | ok b =>
                      dsimp only
                      rw [ih]
                      cases collect (emitMain s env o incl excl) rest <;> rfl
            | none =>
              dsimp only
              by_cases hm : s.mode = .typedDictAllow
              · simp only [hm, if_true]
                cases hp : s.extraPython env v ni ne with
                | error e => rfl
                | ok b =>
                  dsimp only
                  rw [ih]
                  cases collect (emitMain s env o incl excl) rest <;> rfl
              · simp only [hm, if_false]
                by_cases hc : o.check = .strict
                · simp only [hc, if_true]; rfl
                · simp only [hc, if_false]; exact ih _ _

/-- What one extra item adds to the Python output. -/
def emitExtra {α β ε : Type} (s : FieldsSer α β ε) (env : Env α β ε) (o : Opts) (incl excl : Option FVal)
    (e : Key × α) : Except (SErr ε) (Option (Key × β)) :=
  if o.excludeNone && env.isNone e.2 then .ok Option.none
  else
    match fieldFilter env e.1 incl excl with
    | .error e => .error e
    | .ok Option.none => .ok Option.none
    | .ok (some (ni, ne)) =>
      match s.extraPython env e.2 ni ne with
      | .error e => .error e
      | .ok b => .ok (some (e.1, b))

theorem extrasLoop_eq {α β ε : Type} (s : FieldsSer α β ε) (env : Env α β ε) (o : Opts)
    (incl excl : Option FVal) (items : List (Key × α)) (out : List (Key × β)) :
    extrasLoop s env o incl excl items out
      = (collect (emitExtra s env o incl excl) items).map (addAll out) := by
  induction items generalizing out with
  | nil => rfl
  | cons e rest ih =>
    obtain ⟨k, v⟩ := e
    simp only [extrasLoop, collect, emitExtra]
    by_cases hn : (o.excludeNone && env.isNone v) = true
    · simp only [hn, if_true]; exact ih _
    · simp only [hn, Bool.false_eq_true, if_false]
      cases hf : fieldFilter env k incl excl with
      | error e => rfl
      | ok r =>
        cases r with
        | none => exact ih _
        | some p =>
          obtain ⟨ni, ne⟩ := p
          dsimp only
          cases hp : s.extraPython env v ni ne with
          | error e => rfl
          | ok b =>
            dsimp only
            rw [ih]
            cases collect (emitExtra s env o incl excl) rest <;> rfl

/-- What one computed field adds to the Python output. -/
def emitComputed {α β ε : Type} (env : Env α β ε) (o : Opts) (incl excl : Option FVal)
    (attr : String → Except ε α) (c : Computed α β ε) : Except (SErr ε) (Option (Key × β)) :=
  match fieldFilter env (.s c.name) incl excl with
  | .error e => .error e
  | .ok Option.none => .ok Option.none
  | .ok (some (ni, ne)) =>
    match attr c.name with
    | .error e => .error (.inner e)
    | .ok v =>
      match c.serializer.toPython v ni ne with
      | .error e => .error (.inner e)
      | .ok b => if o.excludeNone && env.isNoneOut b then .ok Option.none else .ok (some (.s (c.key o), b))

theorem computedLoop_eq {α β ε : Type} (env : Env α β ε) (o : Opts) (incl excl : Option FVal)
    (attr : String → Except ε α) (cs : List (Computed α β ε)) (out : List (Key × β)) :
    computedLoop env o incl excl attr cs out
      = (collect (emitComputed env o incl excl attr) cs).map (addAll out) := by
  induction cs generalizing out with
  | nil => rfl
  | cons c rest ih =>
    simp only [computedLoop, collect, emitComputed]
    cases hf : fieldFilter env (.s c.name) incl excl with
    | error e => rfl
    | ok r =>
      cases r with
      | none => exact ih _
      | some p =>
        obtain ⟨ni, ne⟩ := p
        dsimp only
        cases ha : attr c.name with
        | error e => rfl
        | ok v =>
          dsimp only
          cases hp : c.serializer.toPython v ni ne with
          | error e => rfl
          | ok b =>
            dsimp only
            by_cases hn : (o.excludeNone && env.isNoneOut b) = true
            · simp only [hn, if_true]; exact ih _
            · simp only [hn, Bool.false_eq_true, if_false]
              rw [ih]
              cases collect (emitComputed env o incl excl attr) rest <;> rfl

/-- The computed fields that are looked at. -/
def activeComputed {α β ε : Type} (s : FieldsSer α β ε) (o : Opts) : List (Computed α β ε) :=
  if o.roundTrip then [] else s.computed

/-- All entries of the Python output. -/
def entriesPy {α β ε : Type} (s : FieldsSer α β ε) (env : Env α β ε) (o : Opts) (incl excl : Option FVal)
    (main : List (Key × α)) (extra : Option (List (Key × α))) (attr : String → Except ε α) :
    Except (SErr ε) (List (Key × β)) :=
  match collect (emitMain s env o incl excl) main with
  | .error e => .error e
  | .ok a =>
    match collect (emitExtra s env o incl excl) (extra.getD []) with
    | .error e => .error e
    | .ok b =>
      match collect (emitComputed env o incl excl attr) (activeComputed s o) with
      | .error e => .error e
      | .ok c => .ok (a ++ b ++ c)

theorem fieldsToPython_eq {α β ε : Type} (s : FieldsSer α β ε) (env : Env α β ε) (o : Opts)
    (incl excl : Option FVal) (main : List (Key × α)) (extra : Option (List (Key × α)))
    (attr : String → Except ε α) (hc : o.check = .none) :
    fieldsToPython s env o incl excl main extra attr
      = (entriesPy s env o incl excl main extra attr).map (addAll []) := by
  have hm : mainToPython s env o incl excl main
      = (collect (emitMain s env o incl excl) main).map (addAll []) := by
    rw [← mainLoop_eq s env o incl excl main [] 0]
    unfold mainToPython
    cases mainLoop s env o incl excl main [] 0 with
    | error e => rfl
    | ok r => simp [hc]; rfl
  simp only [fieldsToPython, entriesPy, hm]
  cases collect (emitMain s env o incl excl) main with
  | error e => rfl
  | ok a =>
    simp only [Except.map, extrasLoop_eq]
    cases collect (emitExtra s env o incl excl) (extra.getD []) with
    | error e => rfl
    | ok b =>
      simp only [activeComputed]
      by_cases hr : o.roundTrip = true
      · simp only [hr, if_true, collect, List.append_nil, addAll_append]
      · simp only [hr, Bool.false_eq_true, if_false, computedLoop_eq]
        cases collect (emitComputed env o incl excl attr) s.computed with
        | error e => rfl
        | ok c => simp only [Except.map, addAll_append]

end PC.SerFields
