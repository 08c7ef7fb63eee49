import Verif.Model.Definitions

/-
C30: what a schema says about definitions (specification), and the invariant of the builder.
-/

namespace PC.Defs

/-! ### Specification -/

mutual
/-- The references used anywhere in a schema. -/
def refsOf : Sch → List String
  | .leaf _ => []
  | .fail => []
  | .node kids => refsOfAll kids
  | .ref r => [r]
  | .defs ds inner => refsOfDefs ds ++ refsOf inner
/-- … in a list of schemas. -/
def refsOfAll : Schs → List String
  | .nil => []
  | .cons s rest => refsOf s ++ refsOfAll rest
/-- … in a list of definitions. -/
def refsOfDefs : Dfs → List String
  | .nil => []
  | .cons _ s rest => refsOf s ++ refsOfDefs rest
end

mutual
/-- The definitions made anywhere in a schema (also inside other definitions). -/
def defsOf : Sch → List (String × Sch)
  | .leaf _ => []
  | .fail => []
  | .node kids => defsOfAll kids
  | .ref _ => []
  | .defs ds inner => defsOfDefs ds ++ defsOf inner
/-- … in a list of schemas. -/
def defsOfAll : Schs → List (String × Sch)
  | .nil => []
  | .cons s rest => defsOf s ++ defsOfAll rest
/-- … in a list of definitions. -/
def defsOfDefs : Dfs → List (String × Sch)
  | .nil => []
  | .cons r s rest => defsOf s ++ [(r, s)] ++ defsOfDefs rest
end

mutual
/-- Something in the schema cannot be built for another reason. -/
def fails : Sch → Bool
  | .leaf _ => false
  | .fail => true
  | .node kids => failsAll kids
  | .ref _ => false
  | .defs ds inner => failsDefs ds || fails inner
/-- … in a list of schemas. -/
def failsAll : Schs → Bool
  | .nil => false
  | .cons s rest => fails s || failsAll rest
/-- … in a list of definitions. -/
def failsDefs : Dfs → Bool
  | .nil => false
  | .cons _ s rest => fails s || failsDefs rest
end

mutual
/-- The validator has the structure of the schema: its references carry the same names, a `definitions`
schema is built as its inner schema. -/
inductive Matches : Sch → Built → Prop
  | leaf (n : Nat) : Matches (.leaf n) (.leaf n)
  | node (kids : Schs) (vs : Builts) (h : MatchesAll kids vs) : Matches (.node kids) (.node vs)
  | ref (r : String) (id : Nat) : Matches (.ref r) (.ref ⟨r, id⟩)
  | defs (ds : Dfs) (inner : Sch) (v : Built) (h : Matches inner v) : Matches (.defs ds inner) v
/-- … for lists. -/
inductive MatchesAll : Schs → Builts → Prop
  | nil : MatchesAll .nil .nil
  | cons (s : Sch) (rest : Schs) (v : Built) (vs : Builts) (h : Matches s v) (hs : MatchesAll rest vs) :
      MatchesAll (.cons s rest) (.cons v vs)
end

mutual
/-- The references in a validator. -/
def refsIn : Built → List DefRef
  | .leaf _ => []
  | .node kids => refsInAll kids
  | .ref d => [d]
/-- … in a list of validators. -/
def refsInAll : Builts → List DefRef
  | .nil => []
  | .cons v rest => refsIn v ++ refsInAll rest
end

/-! ### The invariant -/

/-- The name and address of a slot. -/
def Slot.key (s : Slot) : DefRef := ⟨s.reference, s.id⟩

/-- What holds of the builder after meeting the references `R` and the definitions `D`. -/
structure Inv (b : Builder) (R : List String) (D : List (String × Sch)) : Prop where
  ids : ∀ (i : Nat) s, b.slots[i]? = some s → s.id = i
  names : (b.slots.map (·.reference)).Nodup
  filled : ∀ s ∈ b.slots, ∀ v, s.value = some v →
    (∃ sch, (s.reference, sch) ∈ D ∧ Matches sch v) ∧ ∀ d ∈ refsIn v, ∃ s' ∈ b.slots, s'.key = d
  empty : ∀ s ∈ b.slots, s.value = none → s.reference ∉ D.map (·.1) ∧ s.reference ∈ R
  refs : ∀ r ∈ R, ∃ s ∈ b.slots, s.reference = r
  defs : ∀ r ∈ D.map (·.1), ∃ s ∈ b.slots, s.reference = r
  nodup : (D.map (·.1)).Nodup

/-- Slots stay, and only their values may change. -/
def Ext (b b' : Builder) : Prop := ∀ s ∈ b.slots, ∃ s' ∈ b'.slots, s'.key = s.key

theorem Ext.refl (b : Builder) : Ext b b := fun s h => ⟨s, h, rfl⟩
theorem Ext.trans {a b c : Builder} (h : Ext a b) (h' : Ext b c) : Ext a c := by
  intro s hs
  obtain ⟨s', hs', hk⟩ := h s hs
  obtain ⟨s'', hs'', hk'⟩ := h' s' hs'
  exact ⟨s'', hs'', hk'.trans hk⟩

theorem Ext.ref {b b' : Builder} (h : Ext b b') (d : DefRef) (hd : ∃ s ∈ b.slots, s.key = d) :
    ∃ s ∈ b'.slots, s.key = d := by
  obtain ⟨s, hs, rfl⟩ := hd
  exact h s hs

theorem find_some (b : Builder) (r : String) (s : Slot) (h : b.find r = some s) :
    s ∈ b.slots ∧ s.reference = r := by
  refine ⟨List.mem_of_find?_eq_some h, ?_⟩
  have := List.find?_some h
  simpa using this

theorem find_none (b : Builder) (r : String) (h : b.find r = none) : ∀ s ∈ b.slots, s.reference ≠ r := by
  intro s hs hr
  have := List.find?_eq_none.1 h s hs
  simp [hr] at this

theorem inv_empty : Inv ⟨[]⟩ [] [] := by
  constructor <;> simp

/-- Adding a slot at the end. -/
theorem inv_append {b : Builder} {R D} (h : Inv b R D) (s : Slot) (hid : s.id = b.slots.length)
    (hnew : ∀ s' ∈ b.slots, s'.reference ≠ s.reference) :
    (∀ (i : Nat) t, (b.slots ++ [s])[i]? = some t → t.id = i) ∧
    ((b.slots ++ [s]).map (·.reference)).Nodup := by
  constructor
  · intro i t ht
    by_cases hi : i < b.slots.length
    · rw [List.getElem?_append_left hi] at ht; exact h.ids i t ht
    · rw [List.getElem?_append_right (by omega)] at ht
      have hlt := (List.getElem?_eq_some_iff.1 ht).1
      simp at hlt
      have : i = b.slots.length := by omega
      subst this
      simp at ht
      rw [← ht, hid]
  · rw [List.map_append, List.nodup_append]
    refine ⟨h.names, by simp, ?_⟩
    intro a ha c hc
    simp at ha hc
    obtain ⟨s', hs', rfl⟩ := ha
    rw [hc]; exact hnew s' hs'

theorem inv_get {b : Builder} {R D} (h : Inv b R D) (r : String) :
    Inv (b.getDefinition r).2 (R ++ [r]) D ∧ Ext b (b.getDefinition r).2 ∧
    (∃ s ∈ (b.getDefinition r).2.slots, s.key = (b.getDefinition r).1) ∧ (b.getDefinition r).1.reference = r := by
  unfold Builder.getDefinition
  cases hf : b.find r with
  | some s =>
    obtain ⟨hs, hr⟩ := find_some b r s hf
    refine ⟨?_, Ext.refl b, ⟨s, hs, by simp [Slot.key, hr]⟩, rfl⟩
    refine ⟨h.ids, h.names, h.filled, ?_, ?_, h.defs, h.nodup⟩
    · intro t ht hn; obtain ⟨h1, h2⟩ := h.empty t ht hn; exact ⟨h1, by simp [h2]⟩
    · intro q hq
      simp at hq
      rcases hq with hq | rfl
      · exact h.refs q hq
      · exact ⟨s, hs, hr⟩
  | none =>
    have hnew := find_none b r hf
    have hext : Ext b ⟨b.slots ++ [⟨r, b.slots.length, none⟩]⟩ := fun s hs => ⟨s, by simp [hs], rfl⟩
    obtain ⟨hids, hnames⟩ := inv_append h ⟨r, b.slots.length, none⟩ rfl hnew
    refine ⟨⟨hids, hnames, ?_, ?_, ?_, ?_, h.nodup⟩, hext, ⟨⟨r, b.slots.length, none⟩, by simp, rfl⟩, rfl⟩
    · intro t ht v hv
      simp at ht
      rcases ht with ht | rfl
      · obtain ⟨h1, h2⟩ := h.filled t ht v hv
        exact ⟨h1, fun d hd => hext.ref d (h2 d hd)⟩
      · cases hv
    · intro t ht hn
      simp at ht
      rcases ht with ht | rfl
      · obtain ⟨h1, h2⟩ := h.empty t ht hn; exact ⟨h1, by simp [h2]⟩
      · refine ⟨?_, by simp⟩
        intro hd
        obtain ⟨s, hs, hr⟩ := h.defs _ hd
        exact hnew s hs hr
    · intro q hq
      simp at hq
      rcases hq with hq | rfl
      · obtain ⟨s, hs, hr⟩ := h.refs q hq; exact ⟨s, by simp [hs], hr⟩
      · exact ⟨⟨q, b.slots.length, none⟩, by simp, rfl⟩
    · intro q hq
      obtain ⟨s, hs, hr⟩ := h.defs q hq
      exact ⟨s, by simp [hs], hr⟩

theorem mem_fill {r : String} {v : Built} {slots : List Slot} {t : Slot} (h : t ∈ fill r v slots) :
    ∃ s ∈ slots, t.key = s.key ∧
      ((s.reference = r ∧ t.value = some v) ∨ (s.reference ≠ r ∧ t = s)) := by
  simp only [fill, List.mem_map] at h
  obtain ⟨s, hs, rfl⟩ := h
  refine ⟨s, hs, ?_⟩
  by_cases hr : s.reference = r
  · simp [hr, Slot.key]
  · simp [hr]

theorem key_fill (r : String) (v : Built) (slots : List Slot) : (fill r v slots).map Slot.key = slots.map Slot.key := by
  simp only [fill, List.map_map]
  apply List.map_congr_left
  intro s _
  simp only [Function.comp]
  split <;> rfl

theorem ref_fill (r : String) (v : Built) (slots : List Slot) :
    (fill r v slots).map (·.reference) = slots.map (·.reference) := by
  simp only [fill, List.map_map]
  apply List.map_congr_left
  intro s _
  simp only [Function.comp]
  split <;> rfl

theorem fill_mem {r : String} {v : Built} {slots : List Slot} (s : Slot) (h : s ∈ slots) :
    ∃ t ∈ fill r v slots, t.key = s.key := by
  have : s.key ∈ (fill r v slots).map Slot.key := by rw [key_fill]; exact List.mem_map_of_mem h
  simpa using this

theorem inv_add {b : Builder} {R D} (h : Inv b R D) (r : String) (sch : Sch) (v : Built) (hm : Matches sch v)
    (hv : ∀ d ∈ refsIn v, ∃ s ∈ b.slots, s.key = d) :
    (∃ b', b.addDefinition r v = .ok b' ∧ Inv b' R (D ++ [(r, sch)]) ∧ Ext b b') ∨
    (b.addDefinition r v = .error (.duplicate r) ∧ r ∈ D.map (·.1)) := by
  unfold Builder.addDefinition
  cases hf : b.find r with
  | some s =>
    obtain ⟨hs, hr⟩ := find_some b r s hf
    cases hval : s.value with
    | some w =>
      right
      refine ⟨by simp only [hval], ?_⟩
      obtain ⟨⟨sch', hd, _⟩, _⟩ := h.filled s hs w hval
      exact List.mem_map.2 ⟨_, hd, hr⟩
    | none =>
      left
      obtain ⟨hnd, _⟩ := h.empty s hs hval
      rw [hr] at hnd
      have hext : Ext b ⟨fill r v b.slots⟩ := fun s hs => fill_mem s hs
      refine ⟨_, by simp only [hval], ⟨?_, ?_, ?_, ?_, ?_, ?_, ?_⟩, hext⟩
      · intro i t ht
        have hk : ((fill r v b.slots).map Slot.key)[i]? = some t.key := by
          rw [List.getElem?_map, ht]; rfl
        rw [key_fill, List.getElem?_map] at hk
        cases hb : b.slots[i]? with
        | none => rw [hb] at hk; cases hk
        | some u =>
          rw [hb] at hk
          have := h.ids i u hb
          simp only [Option.map_some, Option.some.injEq, Slot.key, DefRef.mk.injEq] at hk
          rw [← hk.2, this]
      · rw [ref_fill]; exact h.names
      · intro t ht w hw
        obtain ⟨u, hu, hk, hcase⟩ := mem_fill ht
        rcases hcase with ⟨hur, htv⟩ | ⟨hur, rfl⟩
        · rw [htv] at hw; cases hw
          have htr : t.reference = r := by
            simp only [Slot.key, DefRef.mk.injEq] at hk; rw [hk.1, hur]
          exact ⟨⟨sch, by simp [htr], hm⟩, fun d hd => hext.ref d (hv d hd)⟩
        · obtain ⟨⟨sch', h1, h1'⟩, h2⟩ := h.filled t hu w hw
          exact ⟨⟨sch', by simp [h1], h1'⟩, fun d hd => hext.ref d (h2 d hd)⟩
      · intro t ht hn
        obtain ⟨u, hu, hk, hcase⟩ := mem_fill ht
        rcases hcase with ⟨hur, htv⟩ | ⟨hur, rfl⟩
        · rw [htv] at hn; cases hn
        · obtain ⟨h1, h2⟩ := h.empty t hu hn
          refine ⟨?_, h2⟩
          rw [List.map_append, List.mem_append]
          rintro (h' | h')
          · exact h1 h'
          · simp at h'; exact hur h'
      · intro q hq
        obtain ⟨u, hu, hur⟩ := h.refs q hq
        obtain ⟨t, ht, hk⟩ := hext u hu
        simp only [Slot.key, DefRef.mk.injEq] at hk
        exact ⟨t, ht, by rw [hk.1, hur]⟩
      · intro q hq
        rw [List.map_append, List.mem_append] at hq
        have : ∃ u ∈ b.slots, u.reference = q := by
          rcases hq with hq | hq
          · exact h.defs q hq
          · simp at hq; exact ⟨s, hs, by rw [hr, hq]⟩
        obtain ⟨u, hu, hur⟩ := this
        obtain ⟨t, ht, hk⟩ := hext u hu
        simp only [Slot.key, DefRef.mk.injEq] at hk
        exact ⟨t, ht, by rw [hk.1, hur]⟩
      · rw [List.map_append, List.nodup_append]
        refine ⟨h.nodup, by simp, ?_⟩
        intro a ha c hc hac
        simp at hc
        subst hac; subst hc
        exact hnd ha
  | none =>
    left
    have hnew := find_none b r hf
    have hext : Ext b ⟨b.slots ++ [⟨r, b.slots.length, some v⟩]⟩ := fun s hs => ⟨s, by simp [hs], rfl⟩
    obtain ⟨hids, hnames⟩ := inv_append h ⟨r, b.slots.length, some v⟩ rfl hnew
    refine ⟨_, rfl, ⟨hids, hnames, ?_, ?_, ?_, ?_, ?_⟩, hext⟩
    · intro t ht w hw
      simp at ht
      rcases ht with ht | rfl
      · obtain ⟨⟨sch', h1, h1'⟩, h2⟩ := h.filled t ht w hw
        exact ⟨⟨sch', by simp [h1], h1'⟩, fun d hd => hext.ref d (h2 d hd)⟩
      · cases hw
        exact ⟨⟨sch, by simp, hm⟩, fun d hd => hext.ref d (hv d hd)⟩
    · intro t ht hn
      simp at ht
      rcases ht with ht | rfl
      · obtain ⟨h1, h2⟩ := h.empty t ht hn
        refine ⟨?_, h2⟩
        rw [List.map_append, List.mem_append]
        rintro (h' | h')
        · exact h1 h'
        · simp at h'; exact hnew t ht h'
      · cases hn
    · intro q hq
      obtain ⟨s, hs, hr⟩ := h.refs q hq
      exact ⟨s, by simp [hs], hr⟩
    · intro q hq
      rw [List.map_append, List.mem_append] at hq
      rcases hq with hq | hq
      · obtain ⟨s, hs, hr⟩ := h.defs q hq; exact ⟨s, by simp [hs], hr⟩
      · simp at hq; exact ⟨⟨r, b.slots.length, some v⟩, by simp, by simp [hq]⟩
    · rw [List.map_append, List.nodup_append]
      refine ⟨h.nodup, by simp, ?_⟩
      intro a ha c hc hac
      simp at hc
      subst hac; subst hc
      obtain ⟨s, hs, hr⟩ := h.defs _ ha
      exact hnew s hs hr

/-- The definitions named twice, an error in building. -/
def Twice (r : String) (names : List String) : Prop := 2 ≤ names.count r

theorem Twice.append {r : String} {a : List String} (h : Twice r a) (b : List String) : Twice r (a ++ b) := by
  unfold Twice at *; rw [List.count_append]; omega

theorem Twice.not_nodup {r : String} {a : List String} (h : Twice r a) : ¬ a.Nodup := by
  intro hn
  have := List.nodup_iff_count.1 hn r
  unfold Twice at h; omega

mutual
/-- Building a schema keeps the invariant, and fails only for the reasons in the specification. -/
theorem build_inv (s : Sch) (b : Builder) (R : List String) (D : List (String × Sch)) (h : Inv b R D) :
    (∃ v b', build s b = .ok (v, b') ∧ fails s = false ∧ Inv b' (R ++ refsOf s) (D ++ defsOf s) ∧ Ext b b' ∧
      Matches s v ∧ ∀ d ∈ refsIn v, ∃ t ∈ b'.slots, t.key = d) ∨
    (build s b = .error .other ∧ fails s = true) ∨
    (∃ r, build s b = .error (.duplicate r) ∧ Twice r ((D ++ defsOf s).map (·.1))) := by
  match s with
  | .leaf n =>
    refine .inl ⟨.leaf n, b, rfl, rfl, ?_, Ext.refl b, .leaf n, by simp [refsIn]⟩
    simpa [refsOf, defsOf] using h
  | .fail => exact .inr (.inl ⟨rfl, rfl⟩)
  | .ref r =>
    obtain ⟨h1, h2, h3, h4⟩ := inv_get h r
    refine .inl ⟨_, _, rfl, rfl, ?_, h2, ?_, ?_⟩
    · simpa [refsOf, defsOf] using h1
    · have := Matches.ref (b.getDefinition r).1.reference (b.getDefinition r).1.id
      rw [h4] at this
      have he : (⟨r, (b.getDefinition r).1.id⟩ : DefRef) = (b.getDefinition r).1 := by
        generalize b.getDefinition r = p at h4
        obtain ⟨⟨q, i⟩, b'⟩ := p
        dsimp only at h4 ⊢; rw [h4]
      rw [he] at this
      exact this
    · intro d hd
      simp [refsIn] at hd
      subst hd; exact h3
  | .node kids =>
    rcases buildAll_inv kids b R D h with ⟨vs, b', he, hf, hi, hx, hm, hr⟩ | ⟨he, hf⟩ | ⟨r, he, hr⟩
    · refine .inl ⟨.node vs, b', by simp only [build, he], hf, hi, hx, .node kids vs hm, hr⟩
    · exact .inr (.inl ⟨by simp only [build, he], hf⟩)
    · exact .inr (.inr ⟨r, by simp only [build, he], hr⟩)
  | .defs ds inner =>
    rcases buildDefs_inv ds b R D h with ⟨b', he, hf, hi, hx⟩ | ⟨he, hf⟩ | ⟨r, he, hr⟩
    · rcases build_inv inner b' _ _ hi with ⟨v, b'', he', hf', hi', hx', hm', hr'⟩ | ⟨he', hf'⟩ | ⟨r, he', hr'⟩
      · refine .inl ⟨v, b'', by simp only [build, he, he'], by simp [fails, hf, hf'], ?_, hx.trans hx',
          .defs ds inner v hm', hr'⟩
        simpa [refsOf, defsOf] using hi'
      · exact .inr (.inl ⟨by simp only [build, he, he'], by simp [fails, hf']⟩)
      · refine .inr (.inr ⟨r, by simp only [build, he, he'], ?_⟩)
        simpa [defsOf] using hr'
    · exact .inr (.inl ⟨by simp only [build, he], by simp [fails, hf]⟩)
    · refine .inr (.inr ⟨r, by simp only [build, he], ?_⟩)
      have := hr.append ((defsOf inner).map (·.1))
      simpa [defsOf] using this
theorem buildAll_inv (s : Schs) (b : Builder) (R : List String) (D : List (String × Sch)) (h : Inv b R D) :
    (∃ v b', buildAll s b = .ok (v, b') ∧ failsAll s = false ∧ Inv b' (R ++ refsOfAll s) (D ++ defsOfAll s) ∧
      Ext b b' ∧ MatchesAll s v ∧ ∀ d ∈ refsInAll v, ∃ t ∈ b'.slots, t.key = d) ∨
    (buildAll s b = .error .other ∧ failsAll s = true) ∨
    (∃ r, buildAll s b = .error (.duplicate r) ∧ Twice r ((D ++ defsOfAll s).map (·.1))) := by
  match s with
  | .nil =>
    refine .inl ⟨.nil, b, rfl, rfl, ?_, Ext.refl b, .nil, by simp [refsInAll]⟩
    simpa [refsOfAll, defsOfAll] using h
  | .cons s rest =>
    rcases build_inv s b R D h with ⟨v, b', he, hf, hi, hx, hm, hr⟩ | ⟨he, hf⟩ | ⟨r, he, hr⟩
    · rcases buildAll_inv rest b' _ _ hi with ⟨vs, b'', he', hf', hi', hx', hm', hr'⟩ | ⟨he', hf'⟩ | ⟨r, he', hr'⟩
      · refine .inl ⟨.cons v vs, b'', by simp only [buildAll, he, he'], by simp [failsAll, hf, hf'], ?_,
          hx.trans hx', .cons s rest v vs hm hm', ?_⟩
        · simpa [refsOfAll, defsOfAll] using hi'
        · intro d hd
          simp [refsInAll] at hd
          rcases hd with hd | hd
          · exact hx'.ref d (hr d hd)
          · exact hr' d hd
      · exact .inr (.inl ⟨by simp only [buildAll, he, he'], by simp [failsAll, hf']⟩)
      · refine .inr (.inr ⟨r, by simp only [buildAll, he, he'], ?_⟩)
        simpa [defsOfAll] using hr'
    · exact .inr (.inl ⟨by simp only [buildAll, he], by simp [failsAll, hf]⟩)
    · refine .inr (.inr ⟨r, by simp only [buildAll, he], ?_⟩)
      have := hr.append ((defsOfAll rest).map (·.1))
      simpa [defsOfAll] using this
theorem buildDefs_inv (s : Dfs) (b : Builder) (R : List String) (D : List (String × Sch)) (h : Inv b R D) :
    (∃ b', buildDefs s b = .ok b' ∧ failsDefs s = false ∧ Inv b' (R ++ refsOfDefs s) (D ++ defsOfDefs s) ∧
      Ext b b') ∨
    (buildDefs s b = .error .other ∧ failsDefs s = true) ∨
    (∃ r, buildDefs s b = .error (.duplicate r) ∧ Twice r ((D ++ defsOfDefs s).map (·.1))) := by
  match s with
  | .nil =>
    refine .inl ⟨b, rfl, rfl, ?_, Ext.refl b⟩
    simpa [refsOfDefs, defsOfDefs] using h
  | .cons r s rest =>
    rcases build_inv s b R D h with ⟨v, b', he, hf, hi, hx, hm, hr⟩ | ⟨he, hf⟩ | ⟨q, he, hr⟩
    · rcases inv_add hi r s v hm hr with ⟨b2, he2, hi2, hx2⟩ | ⟨he2, hmem⟩
      · rcases buildDefs_inv rest b2 _ _ hi2 with ⟨b3, he3, hf3, hi3, hx3⟩ | ⟨he3, hf3⟩ | ⟨q, he3, hq3⟩
        · refine .inl ⟨b3, by simp only [buildDefs, he, he2, he3], by simp [failsDefs, hf, hf3], ?_,
            (hx.trans hx2).trans hx3⟩
          simpa [refsOfDefs, defsOfDefs] using hi3
        · exact .inr (.inl ⟨by simp only [buildDefs, he, he2, he3], by simp [failsDefs, hf3]⟩)
        · refine .inr (.inr ⟨q, by simp only [buildDefs, he, he2, he3], ?_⟩)
          simpa [defsOfDefs] using hq3
      · refine .inr (.inr ⟨r, by simp only [buildDefs, he, he2], ?_⟩)
        have h1 : 1 ≤ ((D ++ defsOf s).map (·.1)).count r := List.one_le_count_iff.2 hmem
        unfold Twice
        simp only [List.map_append, List.count_append, defsOfDefs, List.map_cons, List.map_nil,
          List.count_singleton_self] at h1 ⊢
        omega
    · exact .inr (.inl ⟨by simp only [buildDefs, he], by simp [failsDefs, hf]⟩)
    · refine .inr (.inr ⟨q, by simp only [buildDefs, he], ?_⟩)
      have := hr.append (((r, s) :: defsOfDefs rest).map (·.1))
      simpa [defsOfDefs] using this
end

end PC.Defs
