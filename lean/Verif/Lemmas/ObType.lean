import Verif.Spec.ObType

/-
Lemmas for C95.
-/

namespace PC.ObType

theorem lookup_builtin {op : Option Obj} {c : Cls} {bases : List Cls} {t : ObType} (h : c.builtin = some t) :
    lookupByObType op c bases = if op.isSome then t else c.inherited.getD .unknown := by
  cases c <;> cases h <;> unfold lookupByObType <;> cases op <;> rfl

/-- The bases of the class: only what is known counts. -/
theorem lookup_none {c : Cls} {bases : List Cls} : lookupByObType Option.none c bases =
    match c.inherited with
    | some t => t
    | Option.none =>
      match bases with
      | [] => .unknown
      | b :: rest => lookupByObType Option.none b rest := by
  cases c <;> rw [lookupByObType.eq_def] <;> rfl

/-- The class itself, if it is not one of those looked up first. -/
theorem lookup_some {v : Obj} {c : Cls} {bases : List Cls} (h : c.builtin = Option.none) :
    lookupByObType (some v) c bases =
      if v.hasSerializer && !v.isClass then .pydanticSerializable
      else if v.hasFields && !v.isClass then .dataclass
      else if v.enumMeta then .enum
      else if v.iterator then .generator
      else lookupByObType Option.none c bases := by
  rw [lookupByObType.eq_def (some v)]
  rw [lookup_none (c := c)]
  cases c <;> first | (exfalso; revert h; simp [Cls.builtin]; done) | skip
  all_goals
    simp only [isPydanticSerializable, isDataclass, isEnum, isGenerator, Cls.inherited, Cls.builtin, reduceCtorEq, if_false,
      if_true, true_or, false_or]
    repeat' split
    all_goals first | rfl | simp_all

theorem not_marked {v : Obj} (h : ¬ v.Marked) : (v.hasSerializer && !v.isClass) = false ∧ (v.hasFields && !v.isClass) = false ∧
    v.enumMeta = false ∧ v.iterator = false := by
  simp only [Obj.Marked, not_or, not_and] at h
  obtain ⟨h1, h2, h3⟩ := h
  cases hs : v.hasSerializer <;> cases hf : v.hasFields <;> cases hc : v.isClass <;> simp_all

theorem lookup_unmarked {v : Obj} {c : Cls} {bases : List Cls} (h : c.builtin = Option.none) (hm : ¬ v.Marked) :
    lookupByObType (some v) c bases = lookupByObType Option.none c bases := by
  obtain ⟨h1, h2, h3, h4⟩ := not_marked hm
  rw [lookup_some h, h1, h2, h3, h4]
  rfl

theorem lookup_nearest {t : ObType} {c : Cls} : ∀ {cs : List Cls} {d : Cls} {pre post : List Cls}, d :: cs = pre ++ c :: post →
    (∀ c' ∈ pre, c'.inherited = Option.none) → c.inherited = some t → lookupByObType Option.none d cs = t := by
  intro cs
  induction cs with
  | nil =>
    intro d pre post h hp hc
    cases pre with
    | nil => cases h; rw [lookup_none, hc]
    | cons p pre => simp at h
  | cons b rest ih =>
    intro d pre post h hp hc
    cases pre with
    | nil => cases h; rw [lookup_none, hc]
    | cons p pre =>
      simp only [List.cons_append, List.cons.injEq] at h
      obtain ⟨rfl, h⟩ := h
      rw [lookup_none, hp d (.head _)]
      exact ih h (fun c' hc' => hp c' (.tail _ hc')) hc

theorem lookup_foreign : ∀ {cs : List Cls} {d : Cls}, (∀ c ∈ d :: cs, c.inherited = Option.none) →
    lookupByObType Option.none d cs = .unknown := by
  intro cs
  induction cs with
  | nil =>
    intro d h
    rw [lookup_none, h d (.head _)]
  | cons b rest ih =>
    intro d h
    rw [lookup_none, h d (.head _)]
    exact ih fun c hc => h c (.tail _ hc)

/-- What the bases give is what one of them gives, and nothing nearer is known. -/
theorem lookup_chain : ∀ {cs : List Cls} {d : Cls}, (∀ c ∈ d :: cs, c.inherited = Option.none) ∨
    ∃ pre c post t, d :: cs = pre ++ c :: post ∧ (∀ c' ∈ pre, c'.inherited = Option.none) ∧ c.inherited = some t := by
  intro cs
  induction cs with
  | nil =>
    intro d
    cases h : d.inherited with
    | none => exact .inl fun c hc => by rw [List.mem_singleton] at hc; rw [hc, h]
    | some t => exact .inr ⟨[], d, [], t, rfl, (fun _ h => by cases h), h⟩
  | cons b rest ih =>
    intro d
    cases h : d.inherited with
    | none =>
      rcases ih (d := b) with hn | ⟨pre, c, post, t, h1, h2, h3⟩
      · refine .inl fun c hc => ?_
        rcases List.mem_cons.1 hc with rfl | hc
        · exact h
        · exact hn c hc
      · refine .inr ⟨d :: pre, c, post, t, by rw [h1]; rfl, fun c' hc' => ?_, h3⟩
        rcases List.mem_cons.1 hc' with rfl | hc'
        · exact h
        · exact h2 c' hc'
    | some t => exact .inr ⟨[], d, b :: rest, t, rfl, (fun _ h => by cases h), h⟩

theorem inherited_known {c : Cls} {t : ObType} (h : c.inherited = some t) : t ≠ .unknown := by
  cases c <;> cases h <;> simp

theorem builtin_known {c : Cls} {t : ObType} (h : c.builtin = some t) : t ≠ .unknown ∧ c.inherited ≠ Option.none := by
  cases c <;> cases h <;> simp [Cls.inherited, Cls.builtin]

theorem builtin_cls {c : Cls} {t : ObType} (h : c.builtin = some t) : t.cls = some c := by
  cases c <;> cases h <;> rfl

theorem inherited_cls {c d : Cls} {t : ObType} (h : c.inherited = some t) (hd : t.cls = some d) : d = c := by
  cases c <;> cases h <;> cases hd <;> rfl

theorem first_of {v : Obj} {c : Cls} {rest : List Cls} {d : ObType}
    (h : ((rest.find? v.isInstance).map Cls.instance).getD .unknown = d) :
    (((c :: rest).find? v.isInstance).map Cls.instance).getD .unknown = if v.isInstance c then c.instance else d := by
  rw [List.find?_cons]
  cases v.isInstance c
  · exact h
  · rfl

theorem fallback_find (v : Obj) : ((askedInOrder.find? v.isInstance).map Cls.instance).getD .unknown = fallbackIsinstance v := by
  unfold fallbackIsinstance askedInOrder
  iterate 23 refine first_of ?_
  rfl

theorem instance_cls {c d : Cls} (h : c ∈ askedInOrder) (hd : c.instance.cls = some d) : d = c := by
  cases c <;> first | (cases hd; rfl) | (exfalso; revert h; simp [askedInOrder]; done) | (cases hd)

theorem getType_known {v : Obj} {t : ObType} (h : lookupByObType (some v) v.cls v.bases = t) (ht : t ≠ .unknown) : getType v = t := by
  unfold getType
  rw [h]
  cases t <;> first | rfl | exact absurd rfl ht

theorem getType_unknown {v : Obj} (h : lookupByObType (some v) v.cls v.bases = .unknown) : getType v = fallbackIsinstance v := by
  unfold getType
  rw [h]

theorem answer_builtin {op : Option Obj} {c d : Cls} {t : ObType} (h : c.builtin = some t) : answer op d t =
    if d = c then some .exact else if c = .float ∧ d = .int then some .subclass else Option.none := by
  cases c <;> cases h <;> simp [answer]

theorem expected_no {t : ObType} {c : Cls} (h : c.builtin = some t) : ∀ {bases : List Cls} {op : Option Obj} {d : Cls},
    obTypeIsExpected op d bases t ≠ .no ↔ c ∈ d :: bases ∨ (c = .float ∧ .int ∈ d :: bases) := by
  intro bases
  induction bases with
  | nil =>
    intro op d
    unfold obTypeIsExpected
    rw [answer_builtin h]
    by_cases h1 : d = c
    · simp [h1]
    · by_cases h2 : c = .float ∧ d = .int
      · rw [if_neg h1, if_pos h2]
        simp [h2]
      · rw [if_neg h1, if_neg h2]
        simp only [List.mem_singleton, ne_eq, not_true_eq_false, false_iff]
        rintro (rfl | ⟨h3, h4⟩)
        · exact h1 rfl
        · exact h2 ⟨h3, h4.symm⟩
  | cons b rest ih =>
    intro op d
    unfold obTypeIsExpected
    rw [answer_builtin h]
    by_cases h1 : d = c
    · simp [h1]
    · by_cases h2 : c = .float ∧ d = .int
      · rw [if_neg h1, if_pos h2]
        simp [h2]
      · rw [if_neg h1, if_neg h2]
        have := ih (op := Option.none) (d := b)
        dsimp only
        rw [List.mem_cons (a := c), List.mem_cons (a := Cls.int)]
        have e1 : ¬ c = d := fun e => h1 e.symm
        have e2 : c = .float → ¬ Cls.int = d := fun e e' => h2 ⟨e, e'.symm⟩
        cases hx : obTypeIsExpected Option.none b rest t <;> rw [hx] at this <;> simp only [ne_eq, not_true_eq_false,
          reduceCtorEq, not_false_eq_true, true_iff, false_iff] at this ⊢
        · rcases this with h | ⟨h, h'⟩
          · exact .inl (.inr h)
          · exact .inr ⟨h, .inr h'⟩
        · rcases this with h | ⟨h, h'⟩
          · exact .inl (.inr h)
          · exact .inr ⟨h, .inr h'⟩
        · rintro ((h | h) | ⟨h, h' | h'⟩)
          · exact e1 h
          · exact this (.inl h)
          · exact e2 h h'
          · exact this (.inr ⟨h, h'⟩)

theorem expected_exact {t : ObType} {c : Cls} (h : c.builtin = some t) {bases : List Cls} {op : Option Obj} {d : Cls} :
    obTypeIsExpected op d bases t = .exact ↔ d = c := by
  unfold obTypeIsExpected
  rw [answer_builtin h]
  by_cases h1 : d = c
  · simp [h1]
  · rw [if_neg h1]
    simp only [h1, iff_false]
    by_cases h2 : c = .float ∧ d = .int
    · rw [if_pos h2]; simp
    · rw [if_neg h2]
      dsimp only
      cases bases with
      | nil => simp
      | cons b rest =>
        dsimp only
        split <;> simp

theorem eq_instance {c d : Cls} {t : ObType} (h : c.builtin = some t) (hd : d ∈ askedInOrder) :
    t.eq d.instance = true ↔ d = c := by
  cases d with
  | other n => exfalso; revert hd; simp [askedInOrder]
  | _ => cases c <;> cases h <;> revert hd <;> decide

theorem eq_unknown (t : ObType) : t.eq .unknown = false := by
  cases t <;> rfl

theorem eq_fallback {v : Obj} {c : Cls} {t : ObType} (h : c.builtin = some t) :
    t.eq (fallbackIsinstance v) = true ↔ askedInOrder.find? v.isInstance = some c := by
  rw [← fallback_find]
  cases hx : askedInOrder.find? v.isInstance with
  | none =>
    show t.eq .unknown = true ↔ _
    rw [eq_unknown]; simp
  | some d =>
    show t.eq d.instance = true ↔ _
    rw [eq_instance h (List.mem_of_find?_eq_some hx)]
    simp

end PC.ObType
