import Verif.Lemmas.PrebuiltSer
import Verif.Model.SerSchema

/-
Reuse of the serialisers of classes does not change what a schema means.
-/

namespace PC.PrebuiltSer

/-! ### C93 -/

/-- C93. A serialiser is reused only for a model, or a dataclass that is no generic alias, whose own class is complete; and
never if it is a `wrap` function. -/
theorem serializer_reused_only_if (T : Classes) (s : Sch) (v : Ser) (h : build T s = .prebuilt v) :
    ∃ c t, (s.core = .model c t ∨ s.core = .dataclass c false t) ∧ (T c).complete = some (.bool true)
      ∧ (T c).serializer = some (.serializer v) ∧ ∀ f r w, v ≠ .wrap f r w := by
  rw [← build_core] at h
  cases hs : s.core with
  | model c t =>
    rw [hs] at h
    simp only [build, getPrebuilt, Bool.false_eq_true, if_false] at h
    cases hl : lookup (T c) with
    | error e => simp [hl] at h
    | ok o =>
      rw [hl] at h
      cases o with
      | none => simp at h
      | some w =>
        simp only [Ser.prebuilt.injEq] at h
        subst h
        exact ⟨c, t, .inl rfl, lookup_some hl⟩
  | dataclass c g t =>
    rw [hs] at h
    cases g with
    | true => simp [build, getPrebuilt] at h
    | false =>
      simp only [build, getPrebuilt, Bool.false_eq_true, if_false] at h
      cases hl : lookup (T c) with
      | error e => simp [hl] at h
      | ok o =>
        rw [hl] at h
        cases o with
        | none => simp at h
        | some w =>
          simp only [Ser.prebuilt.injEq] at h
          subst h
          exact ⟨c, t, .inr rfl, lookup_some hl⟩
  | leaf k => rw [hs] at h; cases h
  | list s => rw [hs] at h; cases h
  | pair s t => rw [hs] at h; cases h
  | check t =>
    exfalso
    clear h
    induction s with
    | check s ih => exact ih hs
    | _ => cases hs
  | plain f a r t => rw [hs] at h; cases a <;> cases h
  | wrap f r t => rw [hs] at h; cases h

/-- C93. Whatever classes were defined before, with whatever of them reused, the serialiser does what its schema says, if
classes are used regularly: with the schema of their class, within the same function if this is serialised by one, or any
if the class is serialised by a `wrap` function. -/
theorem serializer_reuse_transparent_partial {D : Nat → Sch} {T : Classes} (hT : Program D T) {s : Sch}
    (hs : Coherent D none s) {R : Type} (A : Meaning R) (hA : A.Lawful) : (build T s).run A = s.meaning A :=
  build_run (program_sound hT) A hA s none hs

/-- C93. The law used for functions holds of the model of `FunctionPlainSerializer` (C84). -/
theorem plain_function_lawful {α : Type} (E : Infer.Env α) (R : Infer.Recs α) (fi : Infer.FuncInfo)
    (ret other : Infer.SerFn α) :
    Infer.functionSer E R fi ret (Infer.functionSer E R fi ret other) = Infer.functionSer E R fi ret other := by
  unfold Infer.functionSer
  congr 1
  · funext x a incl excl st
    by_cases h : Infer.shouldUse E fi.whenUsed x a = true
    · rw [if_pos h, if_pos h]
    · rw [if_neg h, if_neg h]
      simp [h]
  · funext x a incl excl st
    by_cases h : Infer.shouldUse E fi.whenUsed x a = true
    · rw [if_pos h, if_pos h]
    · rw [if_neg h, if_neg h]
      simp [h]

section
/-- Three classes: a model serialised by the function 7 in some modes, checked by a validation function; a model serialised
by a `wrap` function that has a field of the first; a dataclass with a list of the second. -/
def classes : Nat → Sch
  | 0 => .check (.plain 7 false (.leaf 9) (.model 0 (.leaf 1)))
  | 1 => .wrap 5 (.leaf 9) (.model 1 (.pair (.leaf 2) (.check (.plain 7 false (.leaf 9) (.model 0 (.leaf 1))))))
  | 2 => .dataclass 2 false (.list (.wrap 5 (.leaf 9)
      (.model 1 (.pair (.leaf 2) (.check (.plain 7 false (.leaf 9) (.model 0 (.leaf 1))))))))
  | _ => .leaf 0

theorem coherent_zero : Coherent classes none (classes 0) :=
  ⟨trivial, fun _ => ⟨.inr (.inl ⟨7, .leaf 9, rfl, rfl⟩), trivial⟩⟩

theorem coherent_one : Coherent classes none (classes 1) :=
  ⟨trivial, .inr (.inr ⟨_, _, _, rfl⟩), trivial, coherent_zero⟩

theorem coherent_two : Coherent classes none (classes 2) := ⟨fun _ => .inl rfl, coherent_one⟩

/-- No class is complete. -/
def none : Classes := fun _ => {}

/-- All three are. -/
def all : Classes := define (define (define none 0 (classes 0)) 1 (classes 1)) 2 (classes 2)

example : Program classes all ∧ Coherent classes Option.none (classes 2) :=
  ⟨.define (.define (.define (.start (by intro c h; cases h)) coherent_zero) coherent_one) coherent_two, coherent_two⟩

/-- Within the same function the first class is reused. -/
example : (all 1).serializer = some (.serializer (.wrap 5 (.leaf 9) (.model 1 (.pair (.leaf 2)
      (.plainOr 7 (.leaf 9) (.prebuilt (.plainOr 7 (.leaf 9) (.model 0 (.leaf 1)))))))))
    ∧ build all (classes 2) = .prebuilt (.dataclass 2 (.list (.wrap 5 (.leaf 9) (.model 1 (.pair (.leaf 2)
      (.plainOr 7 (.leaf 9) (.prebuilt (.plainOr 7 (.leaf 9) (.model 0 (.leaf 1))))))))))
    ∧ build all (.model 1 (.leaf 3)) = .model 1 (.leaf 3) := ⟨rfl, rfl, rfl⟩

/-- Serialisers that say what they do, in JSON mode or not; functions that are not always used are used in JSON mode. -/
def words : Meaning (Bool → List String) where
  leaf k _ := [s!"leaf {k}"]
  list r b := "list" :: r b
  pair r s b := "pair" :: r b ++ s b
  model c r b := s!"model {c}" :: r b
  dataclass c r b := s!"dataclass {c}" :: r b
  plain f r b := s!"call {f}" :: r b
  plainOr f r s b := if b then s!"call {f}" :: r b else s b
  wrap f r s b := s!"call {f}" :: s b ++ r b

example : words.Lawful := by
  intro f ret r
  funext b
  cases b <;> rfl

/-- C93, fails otherwise: a class that is serialised by a function, which is replaced where the class is used by one that is
not always used. In python mode the fields should be serialised, but the function of the class is called. -/
theorem replaced_function_called :
    let cls := Sch.plain 7 true (.leaf 9) (.model 0 (.leaf 1))
    let s := Sch.plain 8 false (.leaf 9) (.model 0 (.leaf 1))
    (build none s).run words false = ["model 0", "leaf 1"]
    ∧ (build (define none 0 cls) s).run words false = ["call 7", "leaf 9"] := ⟨rfl, rfl⟩

/-- C93, fails otherwise: replaced by a `wrap` function, the handler of this calls the function of the class; but not if the
latter is a `wrap` function too. -/
theorem wrapped_function_called :
    let s := Sch.wrap 8 (.leaf 9) (.model 0 (.leaf 1))
    (build (define none 0 (.plain 7 true (.leaf 6) (.model 0 (.leaf 1)))) s).run words false
      = ["call 8", "call 7", "leaf 6", "leaf 9"]
    ∧ (build (define none 0 (.wrap 7 (.leaf 6) (.model 0 (.leaf 1)))) s).run words false
      = ["call 8", "model 0", "leaf 1", "leaf 9"] := ⟨rfl, rfl⟩

end

end PC.PrebuiltSer
