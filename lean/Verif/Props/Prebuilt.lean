import Verif.Lemmas.Prebuilt

/-
Reuse of the validators of classes.
-/

namespace PC.Prebuilt

/-! ### C93: reuse of the validators of classes -/

/-- C93. A validator is reused only from the `__dict__` of the very class of a model or dataclass schema, if the class is
complete, if a dataclass schema has no `generic_origin`, and never one whose outermost part is an `after` or `wrap`
function. -/
theorem reused_only_if (T : Classes) (s : Sch) (v : Val) (h : build T s = .prebuilt v) :
    ∃ c t, (s = .model c t ∨ s = .dataclass c false t) ∧ (T c).complete = some (.bool true)
      ∧ (T c).validator = some (.validator v) ∧ (∀ f w, v ≠ .after f w) ∧ ∀ f w, v ≠ .wrap f w := by
  cases s with
  | model c t =>
    simp only [build, getPrebuilt] at h
    cases hl : lookup (T c) with
    | error e => simp [hl] at h
    | ok o =>
      rw [hl] at h
      cases o with
      | none => simp at h
      | some w =>
        simp at h
        subst h
        obtain ⟨h1, h2, h3⟩ := lookup_some hl
        exact ⟨c, t, .inl rfl, h1, h2, h3⟩
  | dataclass c g t =>
    cases g with
    | true => simp [build, getPrebuilt] at h
    | false =>
      simp only [build, getPrebuilt] at h
      cases hl : lookup (T c) with
      | error e => simp [hl] at h
      | ok o =>
        simp only [hl] at h
        cases o with
        | none => simp at h
        | some w =>
          simp at h
          subst h
          obtain ⟨h1, h2, h3⟩ := lookup_some hl
          exact ⟨c, t, .inr rfl, h1, h2, h3⟩
  | _ => simp [build] at h

/-- C93. In a program that uses each class with its own schema, or whose class schemas are inside an `after` or `wrap`
function, a validator does what its schema says, whatever was reused in building it. -/
theorem reuse_is_transparent_partial {D : Nat → Sch} {T : Classes} (hT : Program D T) {s : Sch} (hs : Coherent D s)
    {R : Type} (A : Meaning R) : (build T s).run A = s.meaning A := build_run (program_sound hT) A s hs

section
/-- Three classes: a model, a model in an `after` function that has a field of the first, and a dataclass with a list of
the second. -/
def classes : Nat → Sch
  | 0 => .model 0 (.leaf 1)
  | 1 => .after 7 (.model 1 (.pair (.leaf 2) (.model 0 (.leaf 1))))
  | 2 => .dataclass 2 false (.list (.after 7 (.model 1 (.pair (.leaf 2) (.model 0 (.leaf 1))))))
  | _ => .wrap 0 (.leaf 0)

theorem coherent_classes (c : Nat) (hc : c < 3) : Coherent classes (classes c) := by
  constructor <;> intro d t h
  · match c, hc with
    | 0, _ => cases h with
      | here => exact .inl rfl
      | model h => cases h
    | 1, _ => cases h with
      | after h => cases h with
        | here => exact .inr (.inl ⟨_, _, rfl⟩)
        | model h => cases h with
          | left h => cases h
          | right h => cases h with
            | here => exact .inl rfl
            | model h => cases h
    | 2, _ => cases h with
      | dataclass h => cases h with
        | list h => cases h with
          | after h => cases h with
            | here => exact .inr (.inl ⟨_, _, rfl⟩)
            | model h => cases h with
              | left h => cases h
              | right h => cases h with
                | here => exact .inl rfl
                | model h => cases h
  · match c, hc with
    | 0, _ => cases h with
      | model h => cases h
    | 1, _ => cases h with
      | after h => cases h with
        | model h => cases h with
          | left h => cases h
          | right h => cases h with
            | model h => cases h
    | 2, _ => cases h with
      | here => exact .inl rfl
      | dataclass h => cases h with
        | list h => cases h with
          | after h => cases h with
            | model h => cases h with
              | left h => cases h
              | right h => cases h with
                | model h => cases h

def none : Classes := fun _ => {}

def all : Classes := define (define (define none 0 (classes 0)) 1 (classes 1)) 2 (classes 2)

example : Program classes all ∧ Coherent classes (classes 2) :=
  ⟨.define (.define (.define (.start (by intro c h; cases h)) (coherent_classes 0 (by decide)))
      (coherent_classes 1 (by decide))) (coherent_classes 2 (by decide)), coherent_classes 2 (by decide)⟩

/-- The first class is reused in the second, the dataclass as a whole. -/
example : (all 1).validator = some (.validator (.after 7 (.model 1 (.pair (.leaf 2) (.prebuilt (.model 0 (.leaf 1)))))))
    ∧ build all (classes 2) = .prebuilt (.dataclass 2 (.list (.after 7 (.model 1 (.pair (.leaf 2)
      (.prebuilt (.model 0 (.leaf 1)))))))) := ⟨rfl, rfl⟩

/-- Validators that say what they do. -/
def words : Meaning (List String) where
  leaf k := [s!"leaf {k}"]
  list r := "list" :: r
  pair r s := "pair" :: r ++ s
  model c r := s!"model {c}" :: r
  dataclass c r := s!"dataclass {c}" :: r
  before f r := s!"call {f}" :: r
  after f r := r ++ [s!"call {f}"]
  wrap f r := s!"call {f}" :: r

/-- C93, fails otherwise: the schema of a class with a `before` function outside its model calls the function once the
first time it is built, and twice when it is built again. -/
theorem before_function_called_twice :
    let s := Sch.before 7 (.model 0 (.leaf 1))
    (build none s).run words = ["call 7", "model 0", "leaf 1"]
    ∧ (build (define none 0 s) s).run words = ["call 7", "call 7", "model 0", "leaf 1"] := ⟨rfl, rfl⟩

/-- C93, fails otherwise: a schema for a class that is complete is ignored in favour of the one the class was defined
with. -/
theorem other_schema_ignored :
    (build (define none 0 (.model 0 (.leaf 1))) (.model 0 (.leaf 2))).run words = ["model 0", "leaf 1"] := rfl

end

end PC.Prebuilt
