import Verif.Lemmas.EngineAtModel
import Verif.Lemmas.RecursionGuard
import Verif.Spec.Engine
import Verif.Props.Tuples

/-
Agreement of two builds of the same schema, by induction over schemas; then of two runs with different fuel.
-/

namespace PC.Engine
open PC.Comb PC.Coll PC.Union PC.Fields PC.Lookup
variable {α : Type} {P : Guard.State → Prop}

theorem tupleRun_panic (p p' : ValResult α α) (t : TupleV α) : tupleRun p t = tupleRun p' t := by
  funext a st
  obtain ⟨r, h⟩ := Coll.tuple_never_panics t a st
  simp only [tupleRun, h, Option.getD_some]

section build
variable {W : World α} {Q : α → Prop} (p p' : ValResult α α) (rs rs' : Nat → Validator α α)

mutual
theorem build_at (hc : ∀ a x, Q a → Inside W a x → Q x) (hr : ∀ name a, Q a → At P (rs name) (rs' name) a) :
    (s : Schema α) → ((∀ a, Q a) ∨ s.keepsInput) → ∀ a, Q a → At P (build W p rs s) (build W p' rs' s) a
  | .leaf l, _, a, _ => at_leaf l a
  | .nullable s, hf, a, ha => at_nullable (build_at hc hr s hf a ha)
  | .list strict mn mx ff item, hf, a, ha =>
    at_list (P := P) ⟨strict, none, mn, mx, ff, W.asList, W.mkList⟩ _ _ a
      (fun _ _ _ h b hb => build_at hc hr item hf b (hc a b ha (.list h hb)))
  | .set ft strict mn mx ff item, hf, a, ha =>
    at_set (P := P) ⟨strict, build W p rs item, mn, mx, ff, ft, W.hashing, W.asSet, W.mkSet⟩ _ _ a
      (fun _ _ _ h b hb => build_at hc hr item hf b (hc a b ha (.set h hb)))
  | .dict strict mn mx key value, hf, a, ha =>
    at_dict (P := P) ⟨strict, build W p rs key, build W p rs value, mn, mx, W.hashing, W.keyLoc, W.asDict, W.mkDict⟩
      _ _ _ _ a
      (fun _ _ h k w hb => ⟨build_at hc hr key (hf.imp_right And.left) k (hc a k ha (.dictKey h hb)),
        build_at hc hr value (hf.imp_right And.right) w (hc a w ha (.dictValue h hb))⟩)
  | .tuple strict mn mx ff head, hf, a, ha => by
    have h := at_tuple (P := P) (Q := Q) ⟨strict, [], none, mn, mx, ff, W.asTuple, W.mkTuple⟩ p
      _ _ none none a (fun _ _ _ h b hb => hc a b ha (.tuple h hb)) (buildAll_at hc hr head hf) trivial
    simp only [build]
    rw [tupleRun_panic p' p]
    exact h
  | .tupleVar strict mn mx ff head variadic tail, hf, a, ha => by
    have h := at_tuple (P := P) (Q := Q) ⟨strict, [], none, mn, mx, ff, W.asTuple, W.mkTuple⟩ p
      _ _ (some (titem (build W p rs variadic), (buildAll W p rs tail).map titem))
      (some (titem (build W p' rs' variadic), (buildAll W p' rs' tail).map titem)) a
      (fun _ _ _ h b hb => hc a b ha (.tuple h hb)) (buildAll_at hc hr head (hf.imp_right And.left))
      ⟨⟨fun b hb => build_at hc hr variadic (hf.imp_right (·.2.1)) b hb, rfl, rfl⟩,
        buildAll_at hc hr tail (hf.imp_right (·.2.2))⟩
    simp only [build]
    rw [tupleRun_panic p' p]
    exact h
  | .typedDict cfg fields, hf, a, ha =>
    at_typedDict (P := P) (Q := Q) (typedDictV W cfg [] none) _ _ none none a
      (fun _ _ h => ⟨fun _ _ x hx => hc a x ha (.field h hx), fun _ he _ x hx => hc a x ha (.extra h he hx)⟩)
      (buildFields_at hc hr fields hf) trivial
  | .typedDictExtras cfg fields extras, hf, a, ha =>
    at_typedDict (P := P) (Q := Q) (typedDictV W cfg [] none) _ _ (some (build W p rs extras))
      (some (build W p' rs' extras)) a
      (fun _ _ h => ⟨fun _ _ x hx => hc a x ha (.field h hx), fun _ he _ x hx => hc a x ha (.extra h he hx)⟩)
      (buildFields_at hc hr fields (hf.imp_right And.left))
      (fun b hb => build_at hc hr extras (hf.imp_right And.right) b hb)
  | .union ltr ce members, hf, a, ha => by
    simp only [build]
    cases ltr with
    | true => exact at_ltr _ _ ce a (buildMembers_at hc hr members hf a ha)
    | false => exact at_smart _ _ ce a (buildMembers_at hc hr members hf a ha)
  | .tagged cfg choices, hf, a, ha => at_tagged W cfg _ _ a (choices_at ha _ _ (buildAll_at hc hr choices hf))
  | .model cfg fields, hf, a, ha =>
    at_model W cfg _ _ a (fun _ _ _ h _ _ x hx => hc a x ha (.modelField h hx))
      (fun _ hs _ _ _ h _ _ x hx => hc _ x (hc a _ ha (.attributes hs)) (.modelField h hx))
      (buildFields_at hc hr fields hf)
  | .rootModel cls rv root, hf, a, ha =>
    at_rootModel W cls rv _ _ a (build_at hc hr root hf a ha)
      (fun _ x hs hx => build_at hc hr root hf x (hc a x ha (.root hs hx)))
  | .before f s, hf, a, ha => by
    have hq : ∀ a, Q a := hf.elim id False.elim
    exact at_before f _ _ a (fun _ b _ => build_at hc hr s (.inl hq) b (hq b))
  | .after f s, hf, a, ha => at_after f _ _ a (build_at hc hr s hf a ha)
  | .wrap prog s, hf, a, ha => by
    have hq : ∀ a, Q a := hf.elim id False.elim
    exact at_wrap prog _ _ a (fun b => build_at hc hr s (.inl hq) b (hq b))
  | .customError t s, hf, a, ha => at_customError t _ _ a (build_at hc hr s hf a ha)
  | .laxOrStrict strict lax str, hf, a, ha =>
    at_laxOrStrict strict _ _ _ _ a (build_at hc hr lax (hf.imp_right And.left) a ha)
      (build_at hc hr str (hf.imp_right And.right) a ha)
  | .ref name, _, a, ha => hr name a ha
theorem buildAll_at (hc : ∀ a x, Q a → Inside W a x → Q x) (hr : ∀ name a, Q a → At P (rs name) (rs' name) a) :
    (ss : Schemas α) → ((∀ a, Q a) ∨ ss.keepsInput) →
      All2 (ItemAt P Q) ((buildAll W p rs ss).map titem) ((buildAll W p' rs' ss).map titem)
  | .nil, _ => .nil
  | .cons s rest, hf =>
    .cons ⟨fun b hb => build_at hc hr s (hf.imp_right And.left) b hb, rfl, rfl⟩
      (buildAll_at hc hr rest (hf.imp_right And.right))
theorem buildMembers_at (hc : ∀ a x, Q a → Inside W a x → Q x) (hr : ∀ name a, Q a → At P (rs name) (rs' name) a) :
    (ms : Members α) → ((∀ a, Q a) ∨ ms.keepsInput) → ∀ a, Q a →
      All2 (ChoiceAt P a) (buildMembers W p rs ms) (buildMembers W p' rs' ms)
  | .nil, _, _, _ => .nil
  | .cons _ _ s rest, hf, a, ha =>
    .cons ⟨rfl, rfl, build_at hc hr s (hf.imp_right And.left) a ha⟩
      (buildMembers_at hc hr rest (hf.imp_right And.right) a ha)
theorem buildFields_at (hc : ∀ a x, Q a → Inside W a x → Q x) (hr : ∀ name a, Q a → At P (rs name) (rs' name) a) :
    (fs : FieldSchemas α) → ((∀ a, Q a) ∨ fs.keepsInput) →
      All2 (FieldAt P Q) (buildFields W p rs fs) (buildFields W p' rs' fs)
  | .nil, _ => .nil
  | .cons _ _ _ d s rest, hf =>
    .cons ⟨rfl, rfl, rfl, ⟨d, rfl, rfl⟩,
        fun a ha => at_withDefault d _ _ a (build_at hc hr s (hf.imp_right And.left) a ha)⟩
      (buildFields_at hc hr rest (hf.imp_right And.right))
end

mutual
/-- As `build_at`, where the references used on the input itself are only those of `direct`. -/
theorem build_at_direct (a : α) (hc0 : ∀ x, Inside W a x → Q x) (hc : ∀ a x, Q a → Inside W a x → Q x)
    (hr : ∀ name a, Q a → At P (rs name) (rs' name) a) :
    (s : Schema α) → s.keepsInput → (∀ name ∈ s.direct, At P (rs name) (rs' name) a) →
      At P (build W p rs s) (build W p' rs' s) a
  | .leaf l, _, _ => at_leaf l a
  | .nullable s, hf, hd => at_nullable (build_at_direct a hc0 hc hr s hf hd)
  | .list strict mn mx ff item, hf, _ =>
    at_list (P := P) ⟨strict, none, mn, mx, ff, W.asList, W.mkList⟩ _ _ a
      (fun _ _ _ h b hb => build_at p p' rs rs' hc hr item (.inr hf) b (hc0 b (.list h hb)))
  | .set ft strict mn mx ff item, hf, _ =>
    at_set (P := P) ⟨strict, build W p rs item, mn, mx, ff, ft, W.hashing, W.asSet, W.mkSet⟩ _ _ a
      (fun _ _ _ h b hb => build_at p p' rs rs' hc hr item (.inr hf) b (hc0 b (.set h hb)))
  | .dict strict mn mx key value, hf, _ =>
    at_dict (P := P) ⟨strict, build W p rs key, build W p rs value, mn, mx, W.hashing, W.keyLoc, W.asDict, W.mkDict⟩
      _ _ _ _ a
      (fun _ _ h k w hb => ⟨build_at p p' rs rs' hc hr key (.inr hf.1) k (hc0 k (.dictKey h hb)),
        build_at p p' rs rs' hc hr value (.inr hf.2) w (hc0 w (.dictValue h hb))⟩)
  | .tuple strict mn mx ff head, hf, _ => by
    have h := at_tuple (P := P) (Q := Q) ⟨strict, [], none, mn, mx, ff, W.asTuple, W.mkTuple⟩ p
      _ _ none none a (fun _ _ _ h b hb => hc0 b (.tuple h hb)) (buildAll_at p p' rs rs' hc hr head (.inr hf)) trivial
    simp only [build]
    rw [tupleRun_panic p' p]
    exact h
  | .tupleVar strict mn mx ff head variadic tail, hf, _ => by
    have h := at_tuple (P := P) (Q := Q) ⟨strict, [], none, mn, mx, ff, W.asTuple, W.mkTuple⟩ p
      _ _ (some (titem (build W p rs variadic), (buildAll W p rs tail).map titem))
      (some (titem (build W p' rs' variadic), (buildAll W p' rs' tail).map titem)) a
      (fun _ _ _ h b hb => hc0 b (.tuple h hb)) (buildAll_at p p' rs rs' hc hr head (.inr hf.1))
      ⟨⟨fun b hb => build_at p p' rs rs' hc hr variadic (.inr hf.2.1) b hb, rfl, rfl⟩,
        buildAll_at p p' rs rs' hc hr tail (.inr hf.2.2)⟩
    simp only [build]
    rw [tupleRun_panic p' p]
    exact h
  | .typedDict cfg fields, hf, _ =>
    at_typedDict (P := P) (Q := Q) (typedDictV W cfg [] none) _ _ none none a
      (fun _ _ h => ⟨fun _ _ x hx => hc0 x (.field h hx), fun _ he _ x hx => hc0 x (.extra h he hx)⟩)
      (buildFields_at p p' rs rs' hc hr fields (.inr hf)) trivial
  | .typedDictExtras cfg fields extras, hf, _ =>
    at_typedDict (P := P) (Q := Q) (typedDictV W cfg [] none) _ _ (some (build W p rs extras))
      (some (build W p' rs' extras)) a
      (fun _ _ h => ⟨fun _ _ x hx => hc0 x (.field h hx), fun _ he _ x hx => hc0 x (.extra h he hx)⟩)
      (buildFields_at p p' rs rs' hc hr fields (.inr hf.1))
      (fun b hb => build_at p p' rs rs' hc hr extras (.inr hf.2) b hb)
  | .union ltr ce members, hf, hd => by
    simp only [build]
    cases ltr with
    | true => exact at_ltr _ _ ce a (buildMembers_at_direct a hc0 hc hr members hf hd)
    | false => exact at_smart _ _ ce a (buildMembers_at_direct a hc0 hc hr members hf hd)
  | .tagged cfg choices, hf, hd => at_tagged W cfg _ _ a (buildAll_at_direct a hc0 hc hr choices hf hd)
  | .model cfg fields, hf, _ =>
    at_model W cfg _ _ a (fun _ _ _ h _ _ x hx => hc0 x (.modelField h hx))
      (fun _ hs _ _ _ h _ _ x hx => hc _ x (hc0 _ (.attributes hs)) (.modelField h hx))
      (buildFields_at p p' rs rs' hc hr fields (.inr hf))
  | .rootModel cls rv root, hf, hd =>
    at_rootModel W cls rv _ _ a (build_at_direct a hc0 hc hr root hf hd)
      (fun _ x hs hx => build_at p p' rs rs' hc hr root (.inr hf) x (hc0 x (.root hs hx)))
  | .after f s, hf, hd => at_after f _ _ a (build_at_direct a hc0 hc hr s hf hd)
  | .customError t s, hf, hd => at_customError t _ _ a (build_at_direct a hc0 hc hr s hf hd)
  | .laxOrStrict strict lax str, hf, hd =>
    at_laxOrStrict strict _ _ _ _ a
      (build_at_direct a hc0 hc hr lax hf.1 (fun n hn => hd n (List.mem_append.mpr (.inl hn))))
      (build_at_direct a hc0 hc hr str hf.2 (fun n hn => hd n (List.mem_append.mpr (.inr hn))))
  | .ref name, _, hd => hd name (List.mem_singleton.mpr rfl)
theorem buildAll_at_direct (a : α) (hc0 : ∀ x, Inside W a x → Q x) (hc : ∀ a x, Q a → Inside W a x → Q x)
    (hr : ∀ name a, Q a → At P (rs name) (rs' name) a) :
    (ss : Schemas α) → ss.keepsInput → (∀ name ∈ ss.direct, At P (rs name) (rs' name) a) →
      All2 (fun v v' => At P v v' a) (buildAll W p rs ss) (buildAll W p' rs' ss)
  | .nil, _, _ => .nil
  | .cons s rest, hf, hd =>
    .cons (build_at_direct a hc0 hc hr s hf.1 (fun n hn => hd n (List.mem_append.mpr (.inl hn))))
      (buildAll_at_direct a hc0 hc hr rest hf.2 (fun n hn => hd n (List.mem_append.mpr (.inr hn))))
theorem buildMembers_at_direct (a : α) (hc0 : ∀ x, Inside W a x → Q x) (hc : ∀ a x, Q a → Inside W a x → Q x)
    (hr : ∀ name a, Q a → At P (rs name) (rs' name) a) :
    (ms : Members α) → ms.keepsInput → (∀ name ∈ ms.direct, At P (rs name) (rs' name) a) →
      All2 (ChoiceAt P a) (buildMembers W p rs ms) (buildMembers W p' rs' ms)
  | .nil, _, _ => .nil
  | .cons _ _ s rest, hf, hd =>
    .cons ⟨rfl, rfl, build_at_direct a hc0 hc hr s hf.1 (fun n hn => hd n (List.mem_append.mpr (.inl hn)))⟩
      (buildMembers_at_direct a hc0 hc hr rest hf.2 (fun n hn => hd n (List.mem_append.mpr (.inr hn))))
end
end build

/-! ### Definition references -/

/-- The guard holds the keys `opn` and has counted at least `d` entries. -/
def Inv (opn : List Guard.Key) (d : Nat) (g : Guard.State) : Prop := Guard.Weak opn g ∧ d ≤ g.depth

theorem enter_inv {p : Guard.Platform} (hp : p.Valid) {opn d g k} (h : Inv opn d g) (hd : d ≤ 255) :
    match Guard.enter p g k with
    | (.ok (), g1) => Inv (k :: opn) (d + 1) g1 ∧ d < p.limit
    | (.error _, g1) => Inv opn d g1 := by
  have hw := Guard.enter_weak hp (k := k) h.1
  obtain ⟨hl, hl2, hl3⟩ := Guard.valid_limit hp
  have hdep : match Guard.enter p g k with
      | (.ok (), g1) => d + 1 ≤ g1.depth ∧ d < p.limit
      | (.error _, g1) => d ≤ g1.depth := by
    have := h.2
    have hv : p.saturating = true → p.limit < 255 := by
      intro hs
      rcases hp with ⟨h1, _⟩ | ⟨_, h2⟩
      · rw [h1] at hs; cases hs
      · omega
    simp only [Guard.enter, Guard.State.incrDepth]
    cases (g.ids.insert k).1 with
    | false => simpa using this
    | true =>
      simp only [Bool.not_true, Bool.false_eq_true, if_false]
      cases hs : p.saturating with
      | true =>
        have := hv hs
        simp only [if_true]
        by_cases hgt : min (g.depth + 1) 255 > p.limit
        · simp only [hgt, decide_true, if_true]; omega
        · simp only [hgt, decide_false, Bool.false_eq_true, if_false]; omega
      | false =>
        have hlim := hl3 hs
        simp only [Bool.false_eq_true, if_false]
        by_cases hle : g.depth + 1 ≤ 255
        · simp only [hle, if_true, Bool.false_eq_true, if_false]; omega
        · simp only [hle, if_false, if_true]; omega
  cases he : Guard.enter p g k with
  | mk r g1 =>
    rw [he] at hw hdep
    cases r with
    | error e => exact ⟨hw, hdep⟩
    | ok u => exact ⟨⟨hw, hdep.1⟩, hdep.2⟩

theorem leave_inv {opn d g k} (h : Inv (k :: opn) (d + 1) g) : ∃ g', Guard.leave g k = some g' ∧ Inv opn d g' := by
  obtain ⟨g', h1, h2⟩ := Guard.leave_weak h.1
  refine ⟨g', h1, h2, ?_⟩
  have := h.2
  simp only [Guard.leave] at h1
  cases hr : (g.decrDepth).ids.remove k with
  | none => rw [hr] at h1; cases h1
  | some ids =>
    rw [hr] at h1
    injection h1 with h1
    subst h1
    simp only [Guard.State.decrDepth]
    omega

/-- The same environment with other stand-ins for "goes on" and "panics". -/
def Env.standIns (E : Env α) (f : Nat → Validator α α) (p : ValResult α α) : Env α :=
  { E with outOfFuel := f, panic := p }

theorem definitionRef_at {E : Env α} (hp : E.platform.Valid) (f : Nat → Validator α α) (p : ValResult α α)
    (name : Nat) (v v' : Validator α α) (opn : List Guard.Key) (d : Nat) (hd : d ≤ 255) (a : α)
    (hnone : E.world.identity a = none → At (Inv opn d) v v' a)
    (hsome : ∀ id, E.world.identity a = some id → d < E.platform.limit →
      At (Inv ((id, name) :: opn) (d + 1)) v v' a) :
    At (Inv opn d) (definitionRef E name v) (definitionRef (E.standIns f p) name v') a := by
  intro st hi
  simp only [definitionRef, Env.standIns]
  cases hid : E.world.identity a with
  | none =>
    dsimp only
    exact hnone hid { st with allowPartial := .ofBool false } hi
  | some id =>
    dsimp only
    have he := enter_inv hp (k := (id, name)) hi hd
    cases hen : Guard.enter E.platform st.guard (id, name) with
    | mk r g =>
      rw [hen] at he
      cases r with
      | error e => exact ⟨rfl, he⟩
      | ok u =>
        dsimp only at he ⊢
        obtain ⟨h1, h2⟩ := hsome id hid he.2 { st with allowPartial := .ofBool false, guard := g } he.1
        obtain ⟨g', h3, h4⟩ := leave_inv h2
        rw [← h1, h3]
        exact ⟨rfl, h4⟩

/-- Python objects: once the fuel covers what the guard still allows, neither the fuel nor the stand-ins matter. -/
theorem refs_at_python {E : Env α} (hp : E.platform.Valid) (hid : ∀ a, E.world.identity a ≠ none)
    (f : Nat → Validator α α) (p : ValResult α α) :
    ∀ (n m name : Nat) (opn : List Guard.Key) (d : Nat) (a : α), d ≤ 255 → E.platform.limit ≤ n + d →
      E.platform.limit ≤ m + d → At (Inv opn d) (refs E (n + 1) name) (refs (E.standIns f p) (m + 1) name) a := by
  intro n
  induction n with
  | zero =>
    intro m name opn d a hd hn hm
    simp only [refs]
    exact definitionRef_at hp f p name _ _ opn d hd a (fun h => absurd h (hid a)) (fun id _ h => (by omega))
  | succ n ih =>
    intro m name opn d a hd hn hm
    rw [refs, refs]
    refine definitionRef_at hp f p name _ _ opn d hd a (fun h => absurd h (hid a)) (fun id _ h => ?_)
    have hl := (Guard.valid_limit hp).2.1
    cases m with
    | zero => omega
    | succ m =>
      exact build_at (W := E.world) (Q := fun _ => True) _ _ _ _ (fun _ _ _ _ => trivial)
        (fun nm b _ => ih m nm _ (d + 1) b (by omega) (by omega) (by omega)) _ (.inl fun _ => trivial) a trivial

/-- Inputs of finite depth and definitions that refer to others on the same input only down a rank: once the fuel covers
size and rank, neither the fuel nor the stand-ins matter. -/
theorem refs_at_finite {E : Env α} (hp : E.platform.Valid) (size : α → Nat)
    (hsize : ∀ a x, Inside E.world a x → size x < size a) (rank : Nat → Nat) (R : Nat) (hR : ∀ name, rank name ≤ R)
    (hkeep : ∀ name, (E.defs name).keepsInput)
    (hrank : ∀ name, ∀ other ∈ (E.defs name).direct, rank other < rank name)
    (f : Nat → Validator α α) (p : ValResult α α) :
    ∀ (n m name : Nat) (opn : List Guard.Key) (d : Nat) (a : α), d ≤ 255 → size a * (R + 1) + rank name < n →
      size a * (R + 1) + rank name < m → At (Inv opn d) (refs E n name) (refs (E.standIns f p) m name) a := by
  intro n
  induction n with
  | zero => intro m name opn d a hd hn hm; omega
  | succ n ih =>
    intro m name opn d a hd hn hm
    cases m with
    | zero => omega
    | succ m =>
      have hl := (Guard.valid_limit hp).2.1
      have inner : ∀ (opn : List Guard.Key) (d : Nat), d ≤ 255 →
          At (Inv opn d) (build E.world E.panic (refs E n) (E.defs name))
            (build E.world p (refs (E.standIns f p) m) (E.defs name)) a := by
        intro opn d hd
        refine build_at_direct (W := E.world) (Q := fun x => size x < size a) _ _ _ _ a (fun x h => hsize a x h)
          (fun b x hb h => Nat.lt_trans (hsize b x h) hb) (fun nm b hb => ?_) _ (hkeep name) (fun nm hnm => ?_)
        · have h1 := Nat.mul_le_mul_right (R + 1) (Nat.succ_le_of_lt hb)
          rw [Nat.succ_mul] at h1
          have := hR nm
          exact ih m nm opn d b hd (by omega) (by omega)
        · have := hrank name nm hnm
          exact ih m nm opn d a hd (by omega) (by omega)
      rw [refs, refs]
      exact definitionRef_at hp f p name _ _ opn d hd a (fun _ => inner opn d hd)
        (fun id _ h => inner _ _ (by omega))

end PC.Engine
