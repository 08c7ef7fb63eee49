import Verif.Spec.PrebuiltSer

/-
Reuse of the serialisers of classes: what is stored in them.
-/

namespace PC.PrebuiltSer

theorem lookup_some {d : ClassDict} {v : Ser} (h : lookup d = .ok (some v)) :
    d.complete = some (.bool true) ∧ d.serializer = some (.serializer v) ∧ ∀ f r w, v ≠ .wrap f r w := by
  unfold lookup at h
  cases hc : d.complete with
  | none => simp [hc] at h
  | some a =>
    cases a with
    | other => simp [hc] at h
    | serializer v => simp [hc] at h
    | bool b =>
      cases b with
      | false => simp [hc] at h
      | true =>
        simp only [hc] at h
        cases hv : d.serializer with
        | none => simp [hv] at h
        | some a =>
          cases a with
          | other => simp [hv] at h
          | bool _ => simp [hv] at h
          | serializer w =>
            rw [hv] at h
            cases w <;> simp at h <;> subst h <;> simp

/-- What is stored in the classes of a program. -/
structure Sound (D : Nat → Sch) (T : Classes) : Prop where
  stored : ∀ c v, (T c).complete = some (.bool true) → (T c).serializer = some (.serializer v) →
    (∀ R (A : Meaning R), A.Lawful → v.run A = (D c).meaning A) ∧ ∀ f r u, (D c).core = .wrap f r u → ∃ r' w, v = .wrap f r' w

theorem meaning_core {R : Type} (A : Meaning R) (s : Sch) : s.core.meaning A = s.meaning A := by
  induction s with
  | check s ih => simpa only [Sch.core, Sch.meaning] using ih
  | _ => rfl

theorem build_core (T : Classes) (s : Sch) : build T s.core = build T s := by
  induction s with
  | check s ih => simpa only [Sch.core, build] using ih
  | _ => rfl

/-- `r` will do for `m` in a place with `around`. -/
def Serves {R : Type} (A : Meaning R) (around : Option (Nat × Sch)) (r m : R) : Prop :=
  match around with
  | none => r = m
  | some (f, ret) => A.plainOr f (ret.meaning A) r = A.plainOr f (ret.meaning A) m

theorem Serves.of_eq {R : Type} {A : Meaning R} {around : Option (Nat × Sch)} {r m : R} (h : r = m) : Serves A around r m := by
  subst h
  cases around <;> rfl

theorem build_run {D : Nat → Sch} {T : Classes} (hT : Sound D T) {R : Type} (A : Meaning R) (hA : A.Lawful) (s : Sch) :
    ∀ around, Coherent D around s → Serves A around ((build T s).run A) (s.meaning A) := by
  have key : ∀ around c v m, lookup (T c) = .ok (some v) → Regular D around c m →
      Serves A around (v.run A) (m.meaning A) := by
    intro around c v m hl hd
    obtain ⟨h1, h2, h3⟩ := lookup_some hl
    obtain ⟨hs, hw⟩ := hT.stored c v h1 h2
    rcases hd with hd | ⟨f, ret, rfl, hd⟩ | ⟨f, ret, u, hd⟩
    · exact .of_eq (by rw [hs R A hA, ← meaning_core, hd])
    · show A.plainOr f _ _ = A.plainOr f _ _
      rw [hs R A hA, ← meaning_core A (D c), hd]
      exact hA f _ _
    · obtain ⟨r', w, rfl⟩ := hw f ret u hd
      exact absurd rfl (h3 f r' w)
  induction s with
  | leaf k => exact fun a _ => .of_eq rfl
  | list s ih =>
    intro a h
    have := ih none h
    exact .of_eq (by simp only [build, Ser.run, Sch.meaning]; rw [this])
  | pair s t ihs iht =>
    intro a h
    have h1 := ihs none h.1
    have h2 := iht none h.2
    exact .of_eq (by simp only [build, Ser.run, Sch.meaning]; rw [h1, h2])
  | model c s ih =>
    intro a h
    have ih := ih none h.2
    simp only [build, getPrebuilt, Bool.false_eq_true, if_false]
    cases hl : lookup (T c) with
    | error e => exact .of_eq (by simp only [Ser.run, Sch.meaning]; rw [ih])
    | ok o =>
      cases o with
      | none => exact .of_eq (by simp only [Ser.run, Sch.meaning]; rw [ih])
      | some v => exact key a c v (.model c s) hl h.1
  | dataclass c g s ih =>
    intro a h
    have ih := ih none h.2
    cases g with
    | true => exact .of_eq (by simp only [build, getPrebuilt, if_true, Ser.run, Sch.meaning]; rw [ih])
    | false =>
      simp only [build, getPrebuilt, Bool.false_eq_true, if_false]
      cases hl : lookup (T c) with
      | error e => exact .of_eq (by simp only [Ser.run, Sch.meaning]; rw [ih])
      | ok o =>
        cases o with
        | none => exact .of_eq (by simp only [Ser.run, Sch.meaning]; rw [ih])
        | some v => exact key a c v (.dataclass c false s) hl (h.1 rfl)
  | check s ih =>
    intro a h
    exact .of_eq (ih none h)
  | plain f always ret s ihr ihs =>
    intro a h
    have hr : (build T ret).run A = ret.meaning A := ihr none h.1
    cases always with
    | true => exact .of_eq (by simp only [build, if_true, Ser.run, Sch.meaning, hr])
    | false =>
      have hs := ihs (some (f, ret)) (h.2 rfl)
      refine .of_eq ?_
      simp only [build, Bool.false_eq_true, if_false, Ser.run, Sch.meaning, hr]
      exact hs
  | wrap f ret s ihr ihs =>
    intro a h
    have hr := ihr none h.1
    have hs := ihs none h.2
    exact .of_eq (by simp only [build, Ser.run, Sch.meaning]; rw [hr, hs])

theorem program_sound {D : Nat → Sch} {T : Classes} (h : Program D T) : Sound D T := by
  induction h with
  | start h => exact ⟨fun c v hc => absurd hc (h c)⟩
  | @define T c _ hs ih =>
    refine ⟨fun d v hd hv => ?_⟩
    unfold define at hd hv
    by_cases hdc : d = c
    · subst hdc
      rw [if_pos rfl] at hv
      simp only [Option.some.injEq, Attr.serializer.injEq] at hv
      subst hv
      refine ⟨fun R A hA => build_run ih A hA _ none hs, fun f r u hu => ?_⟩
      rw [← build_core, hu]
      exact ⟨_, _, rfl⟩
    · rw [if_neg hdc] at hd hv
      exact ih.stored d v hd hv

end PC.PrebuiltSer
