import Verif.Spec.Prebuilt

/-
Reuse of the validators of classes: what is stored in them.
-/

namespace PC.Prebuilt

theorem lookup_some {d : ClassDict} {v : Val} (h : lookup d = .ok (some v)) :
    d.complete = some (.bool true) ∧ d.validator = some (.validator v) ∧ (∀ f w, v ≠ .after f w)
      ∧ ∀ f w, v ≠ .wrap f w := by
  unfold lookup at h
  cases hc : d.complete with
  | none => simp [hc] at h
  | some a =>
    cases a with
    | other => simp [hc] at h
    | validator v => simp [hc] at h
    | bool b =>
      cases b with
      | false => simp [hc] at h
      | true =>
        simp only [hc] at h
        cases hv : d.validator with
        | none => simp [hv] at h
        | some a =>
          cases a with
          | other => simp [hv] at h
          | bool _ => simp [hv] at h
          | validator w =>
            rw [hv] at h
            cases w <;> simp at h <;> subst h <;> simp

/-- What is stored in the classes of a program. -/
structure Sound (D : Nat → Sch) (T : Classes) : Prop where
  stored : ∀ c v, (T c).complete = some (.bool true) → (T c).validator = some (.validator v) →
    (∀ R (A : Meaning R), v.run A = (D c).meaning A) ∧ (∀ f u, D c = .after f u → ∃ w, v = .after f w)
      ∧ ∀ f u, D c = .wrap f u → ∃ w, v = .wrap f w

theorem Coherent.part {D : Nat → Sch} {s t : Sch} (h : Coherent D s) (ht : ∀ m, Occurs m t → Occurs m s) : Coherent D t :=
  ⟨fun c u hu => h.1 c u (ht _ hu), fun c u hu => h.2 c u (ht _ hu)⟩

theorem build_run {D : Nat → Sch} {T : Classes} (hT : Sound D T) {R : Type} (A : Meaning R) (s : Sch)
    (h : Coherent D s) : (build T s).run A = s.meaning A := by
  have key : ∀ c v m, lookup (T c) = .ok (some v) →
      (D c = m ∨ (∃ f u, D c = .after f u) ∨ ∃ f u, D c = .wrap f u) → v.run A = m.meaning A := by
    intro c v m hl hd
    obtain ⟨h1, h2, h3, h4⟩ := lookup_some hl
    obtain ⟨hs, ha, hw⟩ := hT.stored c v h1 h2
    rcases hd with hd | ⟨f, u, hd⟩ | ⟨f, u, hd⟩
    · rw [← hd]; exact hs R A
    · obtain ⟨w, rfl⟩ := ha f u hd
      exact absurd rfl (h3 f w)
    · obtain ⟨w, rfl⟩ := hw f u hd
      exact absurd rfl (h4 f w)
  induction s with
  | leaf k => rfl
  | list s ih => simp only [build, Val.run, Sch.meaning, ih (h.part fun _ => .list)]
  | pair s t ihs iht =>
    simp only [build, Val.run, Sch.meaning, ihs (h.part fun _ => .left), iht (h.part fun _ => .right)]
  | model c s ih =>
    have ih := ih (h.part fun _ => .model)
    simp only [build, getPrebuilt]
    cases hl : lookup (T c) with
    | error e => simp only [Val.run, Sch.meaning, ih]
    | ok o =>
      cases o with
      | none => simp only [Val.run, Sch.meaning, ih]
      | some v => exact key c v (.model c s) hl (h.1 c s .here)
  | dataclass c g s ih =>
    have ih := ih (h.part fun _ => .dataclass)
    cases g with
    | true => simp only [build, getPrebuilt, if_true, Val.run, Sch.meaning, ih]
    | false =>
      simp only [build, getPrebuilt, Bool.false_eq_true, if_false]
      cases hl : lookup (T c) with
      | error e => simp only [Val.run, Sch.meaning, ih]
      | ok o =>
        cases o with
        | none => simp only [Val.run, Sch.meaning, ih]
        | some v => exact key c v (.dataclass c false s) hl (h.2 c s .here)
  | before f s ih => simp only [build, Val.run, Sch.meaning, ih (h.part fun _ => .before)]
  | after f s ih => simp only [build, Val.run, Sch.meaning, ih (h.part fun _ => .after)]
  | wrap f s ih => simp only [build, Val.run, Sch.meaning, ih (h.part fun _ => .wrap)]

theorem program_sound {D : Nat → Sch} {T : Classes} (h : Program D T) : Sound D T := by
  induction h with
  | start h => exact ⟨fun c v hc => absurd hc (h c)⟩
  | @define T c _ hs ih =>
    refine ⟨fun d v hd hv => ?_⟩
    · unfold define at hd hv
      by_cases hdc : d = c
      · subst hdc
        rw [if_pos rfl] at hv
        simp only [Option.some.injEq, Attr.validator.injEq] at hv
        subst hv
        refine ⟨fun R A => build_run ih A _ hs, fun f u hu => ?_, fun f u hu => ?_⟩
        · rw [hu]; exact ⟨_, rfl⟩
        · rw [hu]; exact ⟨_, rfl⟩
      · rw [if_neg hdc] at hd hv
        exact ih.stored d v hd hv

end PC.Prebuilt
