import Verif.Lemmas.ObType

/-
C95: what an object is serialised as.
-/

namespace PC.ObType

/-! ### Sample objects -/

/-- An instance of a class of the chain, without marks. -/
def Sample.plain (c : Cls) (bases : List Cls) : Obj where
  cls := c
  bases := bases
  isInstance := fun d => d == c || bases.contains d
  hasSerializer := false
  hasFields := false
  isClass := false
  enumMeta := false
  iterator := false

/-- `True`. -/
def Sample.true_ : Obj := Sample.plain .bool [.int, .other 0]

/-- An instance of a class derived from one derived from `int`. -/
def Sample.myInt : Obj := Sample.plain (.other 2) [.other 1, .int, .other 0]

/-- A model derived from `dict`. -/
def Sample.model : Obj := { Sample.plain (.other 3) [.dict, .other 0] with hasSerializer := true, hasFields := true }

/-- That class itself. -/
def Sample.modelClass : Obj := { Sample.plain (.other 4) [.other 0] with hasSerializer := true, hasFields := true, isClass := true }

/-- A member of an `IntEnum`. -/
def Sample.colour : Obj := { Sample.plain (.other 6) [.other 5, .int, .other 0] with
  enumMeta := true, isInstance := fun d => d == .enum || [.other 6, .other 5, .int, .other 0].contains d }

/-- A list that is its own iterator. -/
def Sample.cursor : Obj := { Sample.plain (.other 7) [.list, .other 0] with iterator := true }

/-- An object whose `__class__` is `str`. -/
def Sample.proxy : Obj := { Sample.plain (.other 8) [.other 0] with isInstance := fun d => d == .str || d == .other 8 || d == .other 0 }

/-! ### What an object is -/

/-- **C95.**  An object of one of the built-in classes is what its class says, whatever attributes it has. -/
theorem own_class_first {v : Obj} {t : ObType} (h : v.cls.builtin = some t) : getType v = t :=
  getType_known ((lookup_builtin h).trans (if_pos rfl)) (builtin_known h).1

example : getType Sample.true_ = .bool := own_class_first rfl

/-- **C95.**  Any other object is, in this order, something with a serialiser of its own, a dataclass, a member of an enum, or
an iterator; before its bases are looked at.  A class itself is neither of the first two. -/
theorem marks_come_next {v : Obj} (h : v.cls.builtin = Option.none) :
    (v.hasSerializer = true → v.isClass = false → getType v = .pydanticSerializable) ∧
    (v.hasSerializer = false ∨ v.isClass = true → v.hasFields = true → v.isClass = false → getType v = .dataclass) ∧
    ((v.hasSerializer = false ∧ v.hasFields = false) ∨ v.isClass = true → v.enumMeta = true → getType v = .enum) ∧
    ((v.hasSerializer = false ∧ v.hasFields = false) ∨ v.isClass = true → v.enumMeta = false → v.iterator = true →
      getType v = .generator) := by
  refine ⟨fun h1 h2 => ?_, fun h1 h2 h3 => ?_, fun h1 h2 => ?_, fun h1 h2 h3 => ?_⟩ <;>
    refine getType_known ?_ (by simp) <;> rw [lookup_some h]
  · simp [h1, h2]
  · rcases h1 with h1 | h1 <;> simp_all
  · rcases h1 with h1 | h1 <;> simp_all
  · rcases h1 with h1 | h1 <;> simp_all

example : getType Sample.model = .pydanticSerializable := (marks_come_next rfl).1 rfl rfl
example : getType Sample.colour = .enum := (marks_come_next rfl).2.2.1 (.inl ⟨rfl, rfl⟩) rfl
example : getType Sample.cursor = .generator := (marks_come_next rfl).2.2.2 (.inl ⟨rfl, rfl⟩) rfl rfl

/-- **C95.**  An object that is none of these is what the nearest known class among its class and bases says. -/
theorem nearest_base {v : Obj} {c : Cls} {t : ObType} {pre post : List Cls} (h : v.cls.builtin = Option.none) (hm : ¬ v.Marked)
    (hc : v.chain = pre ++ c :: post) (hp : ∀ c' ∈ pre, c'.inherited = Option.none) (ht : c.inherited = some t) :
    getType v = t :=
  getType_known ((lookup_unmarked h hm).trans (lookup_nearest hc hp ht)) (inherited_known ht)

example : getType Sample.myInt = .intSubclass :=
  nearest_base (c := .int) (pre := [.other 2, .other 1]) (post := [.other 0]) rfl (by simp [Obj.Marked, Sample.myInt, Sample.plain]) rfl
    (by simp [Cls.inherited, Cls.builtin]) rfl

/-- **C95.**  If no class of the chain is known, `isinstance` decides, in a fixed order. -/
theorem isinstance_last {v : Obj} (hm : ¬ v.Marked) (hf : v.Foreign) :
    getType v = ((askedInOrder.find? v.isInstance).map Cls.instance).getD .unknown := by
  have hb : v.cls.builtin = Option.none := by
    cases h : v.cls.builtin with
    | none => rfl
    | some t => exact absurd (hf _ (.head _)) (builtin_known h).2
  rw [getType_unknown ((lookup_unmarked hb hm).trans (lookup_foreign hf)), ← fallback_find]

example : getType Sample.proxy = .strSubclass :=
  isinstance_last (by simp [Obj.Marked, Sample.proxy, Sample.plain])
    (by simp [Obj.Foreign, Obj.chain, Sample.proxy, Sample.plain, Cls.inherited, Cls.builtin])

/-- A class that `isinstance` is asked about, and the bases do not show. -/
theorem asked_known {c : Cls} (h : c ∈ askedInOrder) : c.instance ≠ .unknown := by
  cases c <;> first | (simp [Cls.instance, Cls.inherited, Cls.builtin]; done) | (exfalso; revert h; simp [askedInOrder]; done)

/-- **C95.**  An object is of unknown type (which inference refuses, or hands to `fallback`) just if it carries no mark, no
class of its chain is known, and it is an instance of no class asked about. -/
theorem unknown_iff {v : Obj} : getType v = .unknown ↔
    ¬ v.Marked ∧ v.Foreign ∧ ∀ c ∈ askedInOrder, v.isInstance c = false := by
  constructor
  · intro h
    cases hb : v.cls.builtin with
    | some t => rw [own_class_first hb] at h; exact absurd h (builtin_known hb).1
    | none =>
      have hm : ¬ v.Marked := by
        intro hm
        obtain ⟨h1, h2, h3, h4⟩ := marks_come_next hb
        cases hs : v.hasSerializer <;> cases hf : v.hasFields <;> cases hc : v.isClass <;> cases he : v.enumMeta <;>
          cases hi : v.iterator <;> simp_all [Obj.Marked]
      rcases lookup_chain (d := v.cls) (cs := v.bases) with hf | ⟨pre, c, post, t, h1, h2, h3⟩
      · refine ⟨hm, hf, fun c hc => ?_⟩
        rw [isinstance_last hm hf] at h
        cases hx : askedInOrder.find? v.isInstance with
        | none =>
          have := List.find?_eq_none.1 hx c hc
          simpa using this
        | some d =>
          rw [hx] at h
          exact absurd h (asked_known (List.mem_of_find?_eq_some hx))
      · rw [nearest_base hb hm h1 h2 h3] at h
        exact absurd h (inherited_known h3)
  · rintro ⟨hm, hf, hn⟩
    rw [isinstance_last hm hf, List.find?_eq_none.2 fun c hc => by simp [hn c hc]]
    rfl

example : getType Sample.modelClass = .unknown := rfl
example : getType (Sample.plain (.other 1) [.other 0]) = .unknown := rfl

/-- **C95.**  An object is only taken for an instance of a class that it is an instance of: reading it as such cannot fail. -/
theorem type_is_sound {v : Obj} (hv : v.Honest) {c : Cls} (h : (getType v).cls = some c) : v.isInstance c = true := by
  cases hb : v.cls.builtin with
  | some t =>
    rw [own_class_first hb, builtin_cls hb] at h
    cases h
    exact hv.bases _ (.head _)
  | none =>
    by_cases hm : v.Marked
    · obtain ⟨h1, h2, h3, h4⟩ := marks_come_next hb
      have he := hv.enum
      cases hs : v.hasSerializer <;> cases hf : v.hasFields <;> cases hc : v.isClass <;> cases hem : v.enumMeta <;>
        cases hi : v.iterator <;> simp_all [Obj.Marked, ObType.cls]
    · rcases lookup_chain (d := v.cls) (cs := v.bases) with hf | ⟨pre, d, post, t, h1, h2, h3⟩
      · rw [isinstance_last hm hf] at h
        cases hx : askedInOrder.find? v.isInstance with
        | none => rw [hx] at h; cases h
        | some d =>
          rw [hx] at h
          rw [instance_cls (List.mem_of_find?_eq_some hx) h]
          exact List.find?_some hx
      · rw [nearest_base hb hm h1 h2 h3] at h
        rw [inherited_cls h3 h]
        exact hv.bases d (by rw [Obj.chain, h1]; simp)

theorem Sample.honest (c : Cls) (bases : List Cls) : (Sample.plain c bases).Honest where
  bases := by
    intro d hd
    rcases List.mem_cons.1 hd with rfl | hd
    · simp [Sample.plain]
    · have : d ∈ bases := hd
      simp [Sample.plain, this]
  enum := fun h => by cases h

example : Sample.myInt.isInstance .int = true := type_is_sound (Sample.honest _ _) rfl

/-- **C95.**  A class is not taken for one of its instances. -/
theorem class_is_not_instance {v : Obj} (h : v.isClass = true) :
    getType v ≠ .pydanticSerializable ∧ getType v ≠ .dataclass := by
  cases hb : v.cls.builtin with
  | some t =>
    rw [own_class_first hb]
    have := builtin_cls hb
    constructor <;> rintro rfl <;> cases this
  | none =>
    by_cases hm : v.Marked
    · obtain ⟨h1, h2, h3, h4⟩ := marks_come_next hb
      cases hem : v.enumMeta <;> cases hi : v.iterator <;> simp_all [Obj.Marked]
    · rcases lookup_chain (d := v.cls) (cs := v.bases) with hf | ⟨pre, d, post, t, h1, h2, h3⟩
      · rw [isinstance_last hm hf]
        cases hx : askedInOrder.find? v.isInstance with
        | none => simp
        | some d =>
          have := List.mem_of_find?_eq_some hx
          cases d <;> simp [Cls.instance, Cls.inherited, Cls.builtin]
      · rw [nearest_base hb hm h1 h2 h3]
        cases d <;> cases h3 <;> simp

example : getType Sample.modelClass ≠ .pydanticSerializable := (class_is_not_instance rfl).1

/-! ### The serialiser of one type: is the object one? -/

/-- **C95.**  A serialiser for `c` takes a value for exactly its own just if the value's class is `c`; it takes it (exactly or
as a subclass) just if `c` is in the chain of bases, or it is the serialiser of `float` and `int` is in the chain, or `c` is
the first class of the order that the value is an instance of.  Marks play no part. -/
theorem is_type_exact {v : Obj} {c : Cls} {t : ObType} (h : c.builtin = some t) :
    (isType v t = .exact ↔ v.cls = c) ∧
    (isType v t ≠ .no ↔
      c ∈ v.chain ∨ (c = .float ∧ .int ∈ v.chain) ∨ askedInOrder.find? v.isInstance = some c) := by
  have h1 := expected_exact h (bases := v.bases) (op := some v) (d := v.cls)
  have h2 := expected_no h (bases := v.bases) (op := some v) (d := v.cls)
  have h3 := eq_fallback (v := v) h
  unfold isType
  cases hx : obTypeIsExpected (some v) v.cls v.bases t <;> rw [hx] at h1 h2 <;> dsimp only
  · refine ⟨h1, ⟨fun _ => ?_, fun _ => by simp⟩⟩
    rcases h2.1 (by simp) with h | h
    · exact .inl h
    · exact .inr (.inl h)
  · refine ⟨h1, ⟨fun _ => ?_, fun _ => by simp⟩⟩
    rcases h2.1 (by simp) with h | h
    · exact .inl h
    · exact .inr (.inl h)
  · have hn : ¬ (c ∈ v.chain ∨ (c = .float ∧ .int ∈ v.chain)) := fun h => h2.2 h rfl
    have hc : v.cls ≠ c := fun e => by cases h1.2 e
    by_cases hf : t.eq (fallbackIsinstance v) = true
    · rw [if_pos hf]
      exact ⟨by simp [hc], ⟨fun _ => .inr (.inr (h3.1 hf)), fun _ => by simp⟩⟩
    · rw [if_neg hf]
      refine ⟨by simp [hc], ⟨fun h => absurd rfl h, ?_⟩⟩
      rintro (h | h | h)
      · exact absurd (.inl h) hn
      · exact absurd (.inr h) hn
      · exact absurd (h3.2 h) hf

example : isType Sample.true_ .bool = .exact := (is_type_exact (c := .bool) rfl).1.2 rfl
example : isType Sample.true_ .int = .subclass := rfl
example : isType Sample.proxy .str = .subclass := rfl
example : isType Sample.myInt .str = .no := rfl

/-- **C95.**  What a serialiser takes for its own is an instance of its class, save that `float` also takes integers. -/
theorem is_type_sound {v : Obj} (hv : v.Honest) {c : Cls} {t : ObType} (h : c.builtin = some t) (ht : isType v t ≠ .no) :
    v.isInstance c = true ∨ (c = .float ∧ v.isInstance .int = true) := by
  rcases (is_type_exact h).2.1 ht with h | h | h
  · exact .inl (hv.bases _ h)
  · exact .inr ⟨h.1, hv.bases _ h.2⟩
  · exact .inl (List.find?_some h)

example : Sample.true_.isInstance .int = true ∨ (Cls.int = .float ∧ Sample.true_.isInstance .int = true) :=
  is_type_sound (Sample.honest _ _) (t := .int) rfl (by decide)

/-- **C95 (where it fails).**  The serialiser of `float` takes integers and booleans for floats, though they are not instances
of `float`. -/
theorem float_takes_integers : isType Sample.true_ .float = .subclass ∧ Sample.true_.isInstance .float = false := ⟨rfl, rfl⟩

/-- **C95 (where it fails).**  `Pattern` is compared with the class of paths: a path would be taken for a pattern, and a pattern
is found only by `isinstance`. -/
theorem pattern_is_path : isType (Sample.plain .path [.other 0]) .pattern = .exact ∧
    (Sample.plain .path [.other 0]).isInstance .pattern = false ∧ isType (Sample.plain .pattern [.other 0]) .pattern = .subclass :=
  ⟨rfl, rfl, rfl⟩

/-- **C95.**  The two readings agree: what inference takes for a `c`, the serialiser of `c` takes for its own. -/
theorem inferred_is_expected {v : Obj} {c : Cls} {t : ObType} (h : c.builtin = some t) (ht : t.eq (getType v) = true) :
    isType v t ≠ .no := by
  rw [(is_type_exact h).2]
  cases hb : v.cls.builtin with
  | some s =>
    rw [own_class_first hb] at ht
    left
    have : v.cls = c := by
      cases hc : v.cls <;> rw [hc] at hb <;> cases hb <;> cases c <;> cases h <;> first | rfl | cases ht
    rw [← this]; exact .head _
  | none =>
    by_cases hm : v.Marked
    · exfalso
      obtain ⟨h1, h2, h3, h4⟩ := marks_come_next hb
      have hx : getType v = .pydanticSerializable ∨ getType v = .dataclass ∨ getType v = .enum ∨ getType v = .generator := by
        cases hs : v.hasSerializer <;> cases hf : v.hasFields <;> cases hc : v.isClass <;> cases hem : v.enumMeta <;>
          cases hi : v.iterator <;> simp_all [Obj.Marked]
      rcases hx with e | e | e | e <;> rw [e] at ht <;> cases c <;> cases h <;> cases ht
    · rcases lookup_chain (d := v.cls) (cs := v.bases) with hf | ⟨pre, d, post, s, h1, h2, h3⟩
      · rw [getType_unknown ((lookup_unmarked hb hm).trans (lookup_foreign hf))] at ht
        exact .inr (.inr ((eq_fallback h).1 ht))
      · rw [nearest_base hb hm h1 h2 h3] at ht
        have : d = c := by
          cases d <;> cases h3 <;> cases c <;> cases h <;> first | rfl | cases ht
        subst this
        exact .inl (by rw [Obj.chain, h1]; simp)

example : isType Sample.myInt .int ≠ .no := inferred_is_expected (c := .int) rfl rfl

/-- **C95.**  And back, for a value without marks whose nearest known class is `c`. -/
theorem expected_is_inferred {v : Obj} {c : Cls} {t : ObType} {pre post : List Cls} (h : c.builtin = some t) (hm : ¬ v.Marked)
    (hc : v.chain = pre ++ c :: post) (hp : ∀ c' ∈ pre, c'.inherited = Option.none) :
    isType v t ≠ .no ∧ t.eq (getType v) = true := by
  refine ⟨(is_type_exact h).2.2 (.inl (by rw [hc]; simp)), ?_⟩
  cases pre with
  | nil =>
    have e : v.cls = c := by cases hc; rfl
    rw [own_class_first (by rw [e]; exact h)]
    cases c <;> cases h <;> rfl
  | cons p pre =>
    have hpv : p = v.cls := by
      have := congrArg List.head? hc
      simp only [Obj.chain, List.cons_append, List.head?_cons, Option.some.injEq] at this
      exact this.symm
    have hb : v.cls.builtin = Option.none := by
      cases hx : v.cls.builtin with
      | none => rfl
      | some s => exact absurd (hp _ (by rw [hpv]; exact .head _)) (builtin_known hx).2
    obtain ⟨s, hs⟩ : ∃ s, c.inherited = some s := by
      cases hx : c.inherited with
      | none => exact absurd hx (builtin_known h).2
      | some s => exact ⟨s, rfl⟩
    rw [nearest_base hb hm hc hp hs]
    cases c <;> cases h <;> cases hs <;> rfl

example : ObType.eq .int (getType Sample.myInt) = true :=
  (expected_is_inferred (c := .int) (pre := [.other 2, .other 1]) (post := [.other 0]) rfl
    (by simp [Obj.Marked, Sample.myInt, Sample.plain]) rfl (by simp [Cls.inherited, Cls.builtin])).2

/-- **C95 (where it fails).**  With marks the two readings part: a list that is its own iterator is a list to the serialiser of
lists and a generator to inference; a member of an `IntEnum` is an `int` to the serialiser of `int`, an enum to inference, and
would not be an enum to a serialiser asking for one. -/
theorem readings_part : isType Sample.cursor .list = .subclass ∧ getType Sample.cursor = .generator ∧
    isType Sample.colour .int = .subclass ∧ getType Sample.colour = .enum ∧ isType Sample.colour .enum = .no :=
  ⟨rfl, rfl, rfl, rfl, rfl⟩

/-- **C95 (where it fails).**  The class of the class must be that of `Enum` itself: a member of an `int` enum whose metaclass is
derived from it is a plain integer to inference. -/
theorem derived_metaclass_is_no_enum : getType { Sample.colour with enumMeta := false } = .intSubclass ∧
    Sample.colour.isInstance .enum = true := ⟨rfl, rfl⟩

/-! ### Equality of types -/

/-- **C95.**  Types are compared up to subclassing of `int`, `float` and `str`: symmetric; and an unknown type is not even
equal to itself. -/
theorem type_equality (s t : ObType) : s.eq t = t.eq s ∧ (s.eq s = true ↔ s ≠ .unknown) ∧
    (s.eq t = true ↔ s ≠ .unknown ∧ (s = t ∨ (s.cls = t.cls ∧ (s.cls = some .int ∨ s.cls = some .float ∨ s.cls = some .str)))) := by
  cases s <;> cases t <;> decide

example : ObType.eq .int .intSubclass = true ∧ ObType.eq .unknown .unknown = false := ⟨rfl, rfl⟩

end PC.ObType
