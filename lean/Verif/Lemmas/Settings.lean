import Verif.Spec.Settings

/-
Lemmas about where settings come from.
-/

namespace PC.Settings

theorem inForce_cons (side top x around) :
    inForce side top (x :: around) = inForce side (if owns side x.1 then x.2 else top) around := by
  unfold inForce
  rw [List.reverse_cons, List.find?_append]
  cases h : around.reverse.find? (fun x => owns side x.1) with
  | some y => rfl
  | none =>
    cases hx : owns side x.1 <;> simp [hx]

theorem configFor_eq (side kind outer own) :
    configFor side kind outer own = if owns side kind then own else outer := by
  cases side <;> cases kind <;> rfl

theorem inForce_single (side top k cfg) : inForce side top [(k, cfg)] = configFor side k top cfg := by
  rw [configFor_eq]
  unfold inForce
  cases h : owns side k <;> simp [h]

mutual

theorem mem_build (side : Side) (top : Option Dict) (x : Nat × Settings) : ∀ s : Schema,
    x ∈ build side top s ↔
      ∃ around k own, LiesIn s around k x.1 own ∧ x.2 = readSettings k own (inForce side top around)
  | .node kind id own cfg kids => by
    simp only [build, List.mem_cons]
    rw [mem_buildAll side _ x kids]
    constructor
    · rintro (rfl | ⟨s, hs, around, k, o, hl, hx⟩)
      · exact ⟨_, _, _, .here, by rw [inForce_single]⟩
      · refine ⟨_, _, _, .kid hs hl, ?_⟩
        rw [hx, inForce_cons, configFor_eq]
    · rintro ⟨around, k, o, hl, hx⟩
      obtain ⟨i, st⟩ := x
      cases hl with
      | here => left; rw [inForce_single] at hx; exact Prod.ext rfl hx
      | kid hs hl =>
        right
        refine ⟨_, hs, _, _, _, hl, ?_⟩
        rw [hx, inForce_cons, configFor_eq]
  | .defs ds inner => by
    simp only [build, List.mem_append]
    rw [mem_buildAll side _ x ds, mem_build side _ x inner]
    constructor
    · rintro (⟨s, hs, around, k, o, hl, hx⟩ | ⟨around, k, o, hl, hx⟩)
      · exact ⟨_, _, _, .definition hs hl, hx⟩
      · exact ⟨_, _, _, .inner hl, hx⟩
    · rintro ⟨around, k, o, hl, hx⟩
      cases hl with
      | definition hs hl => exact Or.inl ⟨_, hs, _, _, _, hl, hx⟩
      | inner hl => exact Or.inr ⟨_, _, _, hl, hx⟩
  | .ref _ => by
    simp only [build, List.not_mem_nil, false_iff]
    rintro ⟨_, _, _, hl, _⟩
    cases hl

theorem mem_buildAll (side : Side) (top : Option Dict) (x : Nat × Settings) : ∀ ss : Schemas,
    x ∈ buildAll side top ss ↔ ∃ s, Member s ss ∧
      ∃ around k own, LiesIn s around k x.1 own ∧ x.2 = readSettings k own (inForce side top around)
  | .nil => by
    simp only [buildAll, List.not_mem_nil, false_iff]
    rintro ⟨_, hm, _⟩
    cases hm
  | .cons n s rest => by
    simp only [buildAll, List.mem_append]
    rw [mem_build side top x s, mem_buildAll side top x rest]
    constructor
    · rintro (h | ⟨t, ht, h⟩)
      · exact ⟨s, .head, h⟩
      · exact ⟨t, .tail ht, h⟩
    · rintro ⟨t, ht, h⟩
      cases ht with
      | head => exact Or.inl h
      | tail ht => exact Or.inr ⟨t, ht, h⟩

end

theorem configFor_sides (kind outer own) (h : kind ≠ .typedDict) :
    configFor .validator kind outer own = configFor .serializer kind outer own := by
  cases kind <;> first | rfl | exact absurd rfl h

mutual

theorem build_sides : ∀ (s : Schema) (top : Option Dict), NoTypedDict s →
    build .validator top s = build .serializer top s
  | .node kind id own cfg kids, top, h => by
    simp only [build]
    rw [configFor_sides kind top cfg (h _ _ _ _ .here),
      buildAll_sides kids _ (fun s hs _ _ _ _ hl => h _ _ _ _ (.kid hs hl))]
  | .defs ds inner, top, h => by
    simp only [build]
    rw [buildAll_sides ds _ (fun s hs _ _ _ _ hl => h _ _ _ _ (.definition hs hl)),
      build_sides inner _ (fun _ _ _ _ hl => h _ _ _ _ (.inner hl))]
  | .ref _, _, _ => rfl

theorem buildAll_sides : ∀ (ss : Schemas) (top : Option Dict), (∀ s, Member s ss → NoTypedDict s) →
    buildAll .validator top ss = buildAll .serializer top ss
  | .nil, _, _ => rfl
  | .cons n s rest, top, h => by
    simp only [buildAll]
    rw [build_sides s top (h s .head), buildAll_sides rest top (fun t ht => h t (.tail ht))]

end

theorem schemaOrConfig_entry {α} (as : Val → Except Err α) (own config sk ck) :
    schemaOrConfig as own config sk ck =
      match entry own config sk ck with
      | none => .ok none
      | some v => (match as v with | .ok a => .ok (some a) | .error e => .error e) := by
  unfold schemaOrConfig entry getAs
  cases h : own sk with
  | some v => dsimp only [Option.or]; cases as v <;> rfl
  | none =>
    cases config with
    | none => rfl
    | some c =>
      show (match c ck with | some v => _ | none => _) = match c ck with | none => _ | some v => _
      cases c ck <;> rfl

end PC.Settings
