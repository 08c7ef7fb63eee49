import Verif.Lemmas.EnginePost
import Verif.Props.Tuples

/-
Outcomes of tuple validators.
-/

namespace PC.Engine
open PC.Comb PC.Coll PC.Union PC.Fields PC.Lookup
variable {α : Type} {m : Option Bool} {d : Nat} {C C' : α → Prop} {L L' : α → List LocItem → α → Prop}

/-- What an item's outputs and errors satisfy. -/
abbrev ItemSpec (α : Type) := (α → Prop) × (α → List LocItem → α → Prop)

/-- An item validator without default whose outcomes satisfy the specification. -/
def ItemPost (m : Option Bool) (v : TItem α) (c : ItemSpec α) : Prop :=
  Post m c.1 c.2 v.validate ∧ v.default = fun _ st => (.ok none, st)

/-- The iterator over `items` stands where its counter says, which is `d` ahead of its index; an iteration error it has
met is in `items`. -/
structure ItOk (d : Nat) (items : List (Except PyErr α)) (it : TIter α) : Prop where
  at_count : it.err = none → it.rest = items.drop it.count ∧ it.index + d = it.count
  err : ∀ k e, it.err = some (k, e) → ∃ i, k + d = i + 1 ∧ items[i]? = some (.error e)

theorem drop_cons_getElem? {β : Type} {l : List β} {n : Nat} {x : β} {r : List β} (h : x :: r = l.drop n) :
    l[n]? = some x ∧ r = l.drop (n + 1) := by
  have h0 : (l.drop n)[0]? = some x := by rw [← h]; rfl
  rw [List.getElem?_drop] at h0
  refine ⟨by simpa using h0, ?_⟩
  rw [← List.drop_drop, ← h]
  rfl

theorem ItOk.next {items : List (Except PyErr α)} {it : TIter α} (h : ItOk d items it) :
    ItOk d items it.next.2 ∧ it.next.2.count = it.count + 1 ∧ (it.next.2.err = none → it.err = none) ∧
      match it.next.1 with
      | some (i, x) => i = it.count ∧ items[i]? = some (.ok x)
      | none => it.next.2.err = none → items[it.count]? = none := by
  obtain ⟨rest, index, err, count⟩ := it
  simp only [TIter.next, TIter.pull]
  cases herr : err with
  | some ke =>
    subst herr
    simp only [Option.isSome_some, if_true, Option.map_none]
    exact ⟨⟨fun h => (by cases h), fun k e hke => h.err k e hke⟩, trivial, id, fun h => (by cases h)⟩
  | none =>
    subst herr
    obtain ⟨h1, h2⟩ := h.at_count rfl
    dsimp only at h1 h2
    simp only [Option.isSome_none, Bool.false_eq_true, if_false]
    cases rest with
    | nil =>
      dsimp only
      have hlen : items.length ≤ count := by
        have := congrArg List.length h1
        simp at this
        omega
      refine ⟨⟨fun _ => ⟨?_, by dsimp only; omega⟩, fun k e h => (by cases h)⟩, trivial, fun _ => trivial, fun _ => ?_⟩
      · dsimp only; rw [List.drop_eq_nil_of_le (by omega)]
      · rw [List.getElem?_eq_none hlen]
    | cons x rest =>
      obtain ⟨g1, g2⟩ := drop_cons_getElem? h1
      cases x with
      | ok x =>
        dsimp only
        exact ⟨⟨fun _ => ⟨g2, by dsimp only; omega⟩, fun k e h => (by cases h)⟩, trivial, fun _ => trivial, rfl, g1⟩
      | error e =>
        dsimp only
        refine ⟨⟨fun h => (by cases h), fun k e' h => ?_⟩, trivial, fun h => (by cases h), fun h => (by cases h)⟩
        injection h with h
        injection h with h1 h3
        subst h3
        exact ⟨count, by omega, g1⟩

theorem post_tupleItem (t : TupleV α) (a : α) (len : Option Nat) {v : Validator α α} (hv : Post m C L v) (index : Nat)
    (x : α) (acc : Coll.TAcc α) (hk : Keeps m acc.st) (M : List LocItem → α → Prop) (hhere : M [] a)
    (hM : ∀ p z, L x p z → M (.i index :: p) z) :
    Keeps m (tupleItem t a len v index x acc).1.st ∧
      match (tupleItem t a len v index x acc).2 with
      | some e => Out (fun _ => True) M (.error e)
      | none =>
        (∃ y, C y ∧ (tupleItem t a len v index x acc).1.out = acc.out ++ [y] ∧
          (tupleItem t a len v index x acc).1.errs = acc.errs ∧
          FitsMax t.maxLength (tupleItem t a len v index x acc).1.out.length) ∨
        ((tupleItem t a len v index x acc).1.out = acc.out ∧ ∃ es, es ≠ [] ∧
          (tupleItem t a len v index x acc).1.errs = acc.errs ++ es ∧ Errs M es) := by
  simp only [tupleItem]
  obtain ⟨k1, o1⟩ := hv x acc.st hk
  generalize v x acc.st = r at k1 o1
  obtain ⟨r, st1⟩ := r
  dsimp only at k1 o1 ⊢
  match r, o1 with
  | .ok y, o1 =>
    simp only [pushOutputItem]
    cases hf : t.maxLength.filter (· < (acc.out ++ [y]).length) with
    | some mm => exact ⟨k1, Out.new hhere⟩
    | none =>
      refine ⟨k1, .inl ⟨y, o1, rfl, rfl, ?_⟩⟩
      intro k hk
      dsimp only
      rw [hk] at hf
      by_cases hlt : k < (acc.out ++ [y]).length
      · simp only [Option.filter, hlt, decide_true, if_true] at hf
        cases hf
      · omega
  | .error (.lineErrors es), o1 =>
    dsimp only
    refine ⟨k1, .inr ⟨rfl, _, ?_, rfl, Errs.outer o1.2 hM⟩⟩
    intro h
    exact o1.1 (List.map_eq_nil_iff.mp h)
  | .error (.internal e), _ => exact ⟨k1, trivial⟩

theorem post_tupleItems (t : TupleV α) (a : α) (len : Option Nat) (items : List (Except PyErr α))
    (M : List LocItem → α → Prop) (hhere : M [] a) (hmiss : ∀ i : Nat, items[i]? = none → M [.i i] a) :
    ∀ (vs : List (TItem α)) (ss : List (ItemSpec α)) (it : TIter α) (acc : Coll.TAcc α),
      All2 (ItemPost m) vs ss →
      (∀ c ∈ ss, ∀ (i : Nat) x p z, items[i]? = some (.ok x) → c.2 x p z → M (.i i :: p) z) →
      ItOk d items it → Keeps m acc.st →
      Keeps m (tupleItems t a len vs it acc).1.1.st ∧ ItOk d items (tupleItems t a len vs it acc).2 ∧
      ((tupleItems t a len vs it acc).2.err = none → it.err = none) ∧
      match (tupleItems t a len vs it acc).1.2 with
      | some e => Out (fun _ => True) M (.error e)
      | none =>
        ((tupleItems t a len vs it acc).2.err = none → Errs M acc.errs → Errs M (tupleItems t a len vs it acc).1.1.errs) ∧
        ((tupleItems t a len vs it acc).1.1.errs = [] → acc.errs = [] ∧
          (FitsMax t.maxLength acc.out.length → FitsMax t.maxLength (tupleItems t a len vs it acc).1.1.out.length) ∧
          ∃ ys, (tupleItems t a len vs it acc).1.1.out = acc.out ++ ys ∧ All2 (fun y (c : ItemSpec α) => c.1 y) ys ss) := by
  intro vs
  induction vs with
  | nil =>
    intro ss it acc h2 _ hit hk
    cases h2
    exact ⟨hk, hit, id, fun _ h => h, fun h => ⟨h, id, [], (List.append_nil _).symm, .nil⟩⟩
  | cons v vs ih =>
    intro ss it acc h2 hM hit hk
    cases h2 with
    | @cons _ c _ ss hv h2 =>
    obtain ⟨n1, n2, n3, n4⟩ := hit.next
    rw [tupleItems_cons]
    have hstep : Keeps m (tupleStep t a len v it.next acc).1.st ∧
        match (tupleStep t a len v it.next acc).2 with
        | some e => Out (fun _ => True) M (.error e)
        | none =>
          (∃ y, c.1 y ∧ (tupleStep t a len v it.next acc).1.out = acc.out ++ [y] ∧
            (tupleStep t a len v it.next acc).1.errs = acc.errs ∧
            FitsMax t.maxLength (tupleStep t a len v it.next acc).1.out.length) ∨
          ((tupleStep t a len v it.next acc).1.out = acc.out ∧ ∃ es, es ≠ [] ∧
            (tupleStep t a len v it.next acc).1.errs = acc.errs ++ es ∧ (it.next.2.err = none → Errs M es)) := by
      generalize it.next = nx at n1 n2 n3 n4
      obtain ⟨o, it1⟩ := nx
      cases o with
      | some ix =>
        obtain ⟨i, x⟩ := ix
        obtain ⟨rfl, hx⟩ := n4
        obtain ⟨q1, q2⟩ := post_tupleItem t a len hv.1 it.count x acc hk M hhere
          (fun p z h => hM c (List.mem_cons_self ..) it.count x p z hx h)
        simp only [tupleStep]
        refine ⟨q1, ?_⟩
        split at q2
        · rename_i e he
          exact q2
        · rename_i he
          rcases q2 with q2 | ⟨g1, es, g2, g3, g4⟩
          · exact .inl q2
          · exact .inr ⟨g1, es, g2, g3, fun _ => g4⟩
      | none =>
        simp only [tupleStep, hv.2]
        refine ⟨hk, .inr ⟨trivial, _, List.cons_ne_nil _ _, rfl, fun he e h => ?_⟩⟩
        rw [List.mem_singleton] at h
        subst h
        dsimp only at n2 n4 he
        have := hmiss it.count (n4 he)
        rw [n2]
        exact this
    generalize tupleStep t a len v it.next acc = r at hstep
    obtain ⟨acc1, early⟩ := r
    obtain ⟨k1, s1⟩ := hstep
    dsimp only at k1 s1 ⊢
    cases early with
    | some e => exact ⟨k1, n1, n3, s1⟩
    | none =>
      dsimp only at s1 ⊢
      by_cases hff : (t.failFast && !acc1.errs.isEmpty) = true
      · rw [if_pos hff]
        refine ⟨k1, n1, n3, fun he hE => ?_, fun hE => ?_⟩
        · dsimp only
          rcases s1 with ⟨y, _, _, g, _⟩ | ⟨_, es, _, g, ge⟩
          · rw [g]; exact hE
          · rw [g]; exact hE.append (ge he)
        · dsimp only at hE
          rw [hE] at hff
          simp at hff
      · rw [if_neg hff]
        obtain ⟨r1, r2, r3, r4⟩ := ih ss it.next.2 acc1 h2
          (fun c' hc' => hM c' (List.mem_cons_of_mem _ hc')) n1 k1
        refine ⟨r1, r2, fun h => n3 (r3 h), ?_⟩
        generalize tupleItems t a len vs it.next.2 acc1 = q at r1 r2 r3 r4
        obtain ⟨⟨acc2, e2⟩, it2⟩ := q
        dsimp only at r1 r2 r3 r4 ⊢
        cases e2 with
        | some e => exact r4
        | none =>
          dsimp only at r4 ⊢
          refine ⟨fun he hE => r4.1 he ?_, fun hE => ?_⟩
          · rcases s1 with ⟨y, _, _, g, _⟩ | ⟨_, es, _, g, ge⟩
            · rw [g]; exact hE
            · rw [g]; exact hE.append (ge (r3 he))
          · obtain ⟨w1, w2, ys, w3, w4⟩ := r4.2 hE
            rcases s1 with ⟨y, hy, g1, g2, g3⟩ | ⟨_, es, ge, g, _⟩
            · refine ⟨by rw [← g2]; exact w1, fun _ => w2 g3, y :: ys, ?_, .cons hy w4⟩
              rw [w3, g1, List.append_assoc]; rfl
            · rw [w1] at g
              exact absurd (List.append_eq_nil_iff.mp g.symm).2 ge

theorem post_variadicLoop (t : TupleV α) (a : α) (len : Option Nat) (items : List (Except PyErr α)) {v : Validator α α}
    (hv : Post m C L v) (M : List LocItem → α → Prop) (hhere : M [] a)
    (hM : ∀ (i : Nat) x p z, items[i]? = some (.ok x) → L x p z → M (.i i :: p) z) :
    ∀ (source : List (Except PyErr α)) (it : TIter α) (acc : Coll.TAcc α), ItOk d items it →
      (source = if it.err.isSome then [] else it.rest) → Keeps m acc.st →
      Keeps m (variadicLoop t a len v source it acc).1.1.st ∧ ItOk d items (variadicLoop t a len v source it acc).2.2 ∧
      ((variadicLoop t a len v source it acc).2.2.err = none → it.err = none) ∧
      match (variadicLoop t a len v source it acc).1.2 with
      | some e => Out (fun _ => True) M (.error e)
      | none =>
        (Errs M acc.errs → Errs M (variadicLoop t a len v source it acc).1.1.errs) ∧
        ((variadicLoop t a len v source it acc).1.1.errs = [] → acc.errs = [] ∧
          (FitsMax t.maxLength acc.out.length → FitsMax t.maxLength (variadicLoop t a len v source it acc).1.1.out.length) ∧
          ∃ ys, (variadicLoop t a len v source it acc).1.1.out = acc.out ++ ys ∧ ∀ y ∈ ys, C y) := by
  intro source
  induction source with
  | nil =>
    intro it acc hit _ hk
    simp only [variadicLoop]
    exact ⟨hk, hit.next.1, hit.next.2.2.1, id, fun h => ⟨h, id, [], (List.append_nil _).symm, fun y hy => (by cases hy)⟩⟩
  | cons x rest ih =>
    intro it acc hit hsrc hk
    cases x with
    | error e =>
      simp only [variadicLoop]
      exact ⟨hk, hit.next.1, hit.next.2.2.1, id, fun h => ⟨h, id, [], (List.append_nil _).symm, fun y hy => (by cases hy)⟩⟩
    | ok x =>
      have herr : it.err = none := by
        cases h : it.err with
        | none => rfl
        | some ke => rw [h] at hsrc; simp at hsrc
      rw [herr] at hsrc
      simp only [Option.isSome_none, Bool.false_eq_true, if_false] at hsrc
      obtain ⟨h1, h2⟩ := hit.at_count herr
      obtain ⟨g1, g2⟩ := drop_cons_getElem? (hsrc.trans h1)
      have hit1 : ItOk d items { it with rest := rest, index := it.index + 1, count := it.count + 1 } :=
        ⟨fun _ => ⟨g2, by dsimp only; omega⟩, fun k e h => (by rw [herr] at h; cases h)⟩
      simp only [variadicLoop]
      obtain ⟨k1, s1⟩ := post_tupleItem t a len hv it.count x acc hk M hhere (fun p z h => hM it.count x p z g1 h)
      generalize tupleItem t a len v it.count x acc = r at k1 s1
      obtain ⟨acc1, early⟩ := r
      dsimp only at k1 s1 ⊢
      cases early with
      | some e => exact ⟨k1, hit1, fun _ => herr, s1⟩
      | none =>
        dsimp only at s1 ⊢
        by_cases hff : (t.failFast && !acc1.errs.isEmpty) = true
        · rw [if_pos hff]
          refine ⟨k1, hit1, fun _ => herr, fun hE => ?_, fun hE => ?_⟩
          · dsimp only
            rcases s1 with ⟨y, _, _, g, _⟩ | ⟨_, es, _, g, ge⟩
            · rw [g]; exact hE
            · rw [g]; exact hE.append ge
          · dsimp only at hE
            rw [hE] at hff
            simp at hff
        · rw [if_neg hff]
          obtain ⟨r1, r2, _, r4⟩ := ih _ acc1 hit1 (by simp [herr]) k1
          refine ⟨r1, r2, fun _ => herr, ?_⟩
          generalize variadicLoop t a len v rest _ acc1 = q at r1 r2 r4
          obtain ⟨⟨acc2, e2⟩, b2, it2⟩ := q
          dsimp only at r1 r2 r4 ⊢
          cases e2 with
          | some e => exact r4
          | none =>
            dsimp only at r4 ⊢
            refine ⟨fun hE => r4.1 ?_, fun hE => ?_⟩
            · rcases s1 with ⟨y, _, _, g, _⟩ | ⟨_, es, _, g, ge⟩
              · rw [g]; exact hE
              · rw [g]; exact hE.append ge
            · obtain ⟨w1, w2, ys, w3, w4⟩ := r4.2 hE
              rcases s1 with ⟨y, hy, g1, g2, g3⟩ | ⟨_, es, ge, g, _⟩
              · refine ⟨by rw [← g2]; exact w1, fun _ => w2 g3, y :: ys, ?_, fun z hz => ?_⟩
                · rw [w3, g1, List.append_assoc]; rfl
                · rcases List.mem_cons.mp hz with rfl | hz
                  · exact hy
                  · exact w4 z hz
              · rw [w1] at g
                exact absurd (List.append_eq_nil_iff.mp g.symm).2 ge

theorem post_bufferLoop (t : TupleV α) (a : α) (len : Option Nat) {v : Validator α α}
    (hv : Post m C L v) (M : List LocItem → α → Prop) (hM : ∀ p z, M p z) :
    ∀ (source : List (Except PyErr α)) (it : TIter α) (index : Nat) (buffer : List α) (acc : Coll.TAcc α),
      Keeps m acc.st →
      Keeps m (bufferLoop t a len v source it index buffer acc).1.1.st ∧
      match (bufferLoop t a len v source it index buffer acc).1.2 with
      | some e => Out (fun _ => True) M (.error e)
      | none =>
        (bufferLoop t a len v source it index buffer acc).1.1.errs = [] → acc.errs = [] ∧
          (FitsMax t.maxLength acc.out.length → FitsMax t.maxLength (bufferLoop t a len v source it index buffer acc).1.1.out.length) ∧
          (∃ ys, (bufferLoop t a len v source it index buffer acc).1.1.out = acc.out ++ ys ∧ ∀ y ∈ ys, C y) ∧
          ∀ b i buf it', (bufferLoop t a len v source it index buffer acc).2 = some (b, i, buf, it') → b = false := by
  intro source
  have hErr : ∀ es : List (LineError α), Errs M es := fun es e _ => hM _ _
  induction source with
  | nil =>
    intro it index buffer acc hk
    simp only [bufferLoop]
    exact ⟨hk, fun h => ⟨h, id, ⟨[], (List.append_nil _).symm, fun y hy => (by cases hy)⟩,
      fun b i buf it' h => (by cases h; rfl)⟩⟩
  | cons x rest ih =>
    intro it index buffer acc hk
    cases x with
    | error e =>
      simp only [bufferLoop]
      exact ⟨hk, fun h => ⟨h, id, ⟨[], (List.append_nil _).symm, fun y hy => (by cases hy)⟩,
        fun b i buf it' h => (by cases h; rfl)⟩⟩
    | ok x =>
      cases buffer with
      | nil =>
        simp only [bufferLoop]
        exact ⟨hk, fun h => ⟨h, id, ⟨[], (List.append_nil _).symm, fun y hy => (by cases hy)⟩,
          fun b i buf it' h => (by cases h)⟩⟩
      | cons b0 buffer =>
        simp only [bufferLoop]
        obtain ⟨k1, s1⟩ := post_tupleItem t a len hv it.count b0 acc hk M (hM _ _) (fun p z _ => hM _ _)
        generalize tupleItem t a len v it.count b0 acc = r at k1 s1
        obtain ⟨acc1, early⟩ := r
        dsimp only at k1 s1 ⊢
        cases early with
        | some e => exact ⟨k1, s1⟩
        | none =>
          dsimp only at s1 ⊢
          by_cases hff : (t.failFast && !acc1.errs.isEmpty) = true
          · rw [if_pos hff]
            refine ⟨k1, fun hE => ?_⟩
            dsimp only at hE
            rw [hE] at hff
            simp at hff
          · rw [if_neg hff]
            obtain ⟨r1, r4⟩ := ih { it with rest := rest, index := it.index + 1, count := it.count + 1 } it.count
              (buffer ++ [x]) acc1 k1
            refine ⟨r1, ?_⟩
            generalize bufferLoop t a len v rest _ it.count _ acc1 = q at r1 r4
            obtain ⟨⟨acc2, e2⟩, o2⟩ := q
            dsimp only at r1 r4 ⊢
            cases e2 with
            | some e => exact r4
            | none =>
              dsimp only at r4 ⊢
              intro hE
              obtain ⟨w1, w2, ⟨ys, w3, w4⟩, w5⟩ := r4 hE
              rcases s1 with ⟨y, hy, g1, g2, g3⟩ | ⟨_, es, ge, g, _⟩
              · refine ⟨by rw [← g2]; exact w1, fun _ => w2 g3, ⟨y :: ys, ?_, fun z hz => ?_⟩, w5⟩
                · rw [w3, g1, List.append_assoc]; rfl
                · rcases List.mem_cons.mp hz with rfl | hz
                  · exact hy
                  · exact w4 z hz
              · rw [w1] at g
                exact absurd (List.append_eq_nil_iff.mp g.symm).2 ge

/-- The items of a tuple: one for each item schema, the variadic ones where the variadic schema is. -/
def Layout (head : List (ItemSpec α)) (var : Option (ItemSpec α × List (ItemSpec α))) (ys : List α) : Prop :=
  match var with
  | none => All2 (fun y (c : ItemSpec α) => c.1 y) ys head
  | some (c, tail) => ∃ hs vs ts, ys = hs ++ (vs ++ ts) ∧ All2 (fun y (c : ItemSpec α) => c.1 y) hs head ∧
      (∀ v ∈ vs, c.1 v) ∧ All2 (fun y (c : ItemSpec α) => c.1 y) ts tail

/-- The variadic validator and the validators after it against their specifications. -/
def VarPost (m : Option Bool) (v : Option (TItem α × List (TItem α)))
    (c : Option (ItemSpec α × List (ItemSpec α))) : Prop :=
  match v, c with
  | none, none => True
  | some (v, vs), some (c, cs) => ItemPost m v c ∧ All2 (ItemPost m) vs cs
  | _, _ => False

/-- What is left of the outcome of the items of a tuple once the iterator's error is looked at. -/
def TupleOut (t : TupleV α) (items : List (Except PyErr α)) (M : List LocItem → α → Prop) (head : List (ItemSpec α))
    (var : Option (ItemSpec α × List (ItemSpec α))) (r : Coll.TRes α) (it : TIter α) : Prop :=
  match r.2 with
  | some e => Out (fun _ => True) M (.error e)
  | none => (it.err = none → Errs M r.1.errs) ∧
      (∀ k e, it.err = some (k, e) → (∀ p z, M p z) ∨ ∃ i, k = i + 1 ∧ items[i]? = some (.error e)) ∧
      (r.1.errs = [] → it.err = none → FitsMax t.maxLength r.1.out.length ∧ Layout head var r.1.out)

theorem All2.nil_right {A B : Type} {R : A → B → Prop} {l : List A} (h : All2 R l []) : l = [] := by cases h; rfl

theorem All2.isEmpty {A B : Type} {R : A → B → Prop} {l : List A} {l' : List B} (h : All2 R l l') :
    l.isEmpty = l'.isEmpty := by cases h <;> rfl

theorem post_tupleVariable (t : TupleV α) (a : α) (len : Option Nat) (items : List (Except PyErr α))
    (M : List LocItem → α → Prop) (hs : List (ItemSpec α)) (var : Option (ItemSpec α × List (ItemSpec α)))
    (hhead : All2 (ItemPost m) t.head hs) (hvar : VarPost m t.variadic var)
    (hhere : M [] a) (hmiss : ∀ i : Nat, items[i]? = none → M [.i i] a)
    (hM : ∀ c ∈ hs, ∀ (i : Nat) x p z, items[i]? = some (.ok x) → c.2 x p z → M (.i i :: p) z)
    (hMv : ∀ c cs, var = some (c, cs) → ∀ (i : Nat) x p z, items[i]? = some (.ok x) → c.2 x p z → M (.i i :: p) z)
    (htail : ∀ c c' cs, var = some (c, c' :: cs) → ∀ p z, M p z)
    (st : VState α) (hk : Keeps m st) (r : Coll.TRes α) (it : TIter α)
    (hr : tupleVariable t a len ⟨items, 0, none, 0⟩ ⟨[], [], st⟩ = some (r, it)) :
    Keeps m r.1.st ∧ TupleOut t items M hs var r it := by
  obtain ⟨h1, h2, h3, h4⟩ := post_tupleItems (d := 0) t a len items M hhere hmiss t.head hs ⟨items, 0, none, 0⟩
    ⟨[], [], st⟩ hhead hM ⟨fun _ => ⟨rfl, rfl⟩, fun k e h => (by cases h)⟩ hk
  have hfits : FitsMax t.maxLength ([] : List α).length := fun k _ => Nat.zero_le _
  simp only [tupleVariable] at hr
  generalize tupleItems t a len t.head ⟨items, 0, none, 0⟩ ⟨[], [], st⟩ = h at h1 h2 h3 h4 hr
  obtain ⟨⟨acc1, e1⟩, it1⟩ := h
  dsimp only at h1 h2 h3 h4 hr
  have hnil : Errs M ([] : List (LineError α)) := fun e h => (by cases h)
  have herr : ∀ (d : Nat) (it : TIter α), d = 0 → ItOk d items it → ∀ k e, it.err = some (k, e) →
      (∀ p z, M p z) ∨ ∃ i, k = i + 1 ∧ items[i]? = some (.error e) := by
    intro d it hd h k e he
    obtain ⟨i, g1, g2⟩ := h.err k e he
    exact .inr ⟨i, by omega, g2⟩
  have hstop : ∀ (r' : Coll.TRes α) (it' : TIter α), (e1.isSome || (t.failFast && !acc1.errs.isEmpty)) = true →
      ((acc1, e1), it1) = (r', it') → Keeps m r'.1.st ∧ TupleOut t items M hs var r' it' := by
    intro r' it' hc he
    injection he with g1 g2
    subst g1 g2
    refine ⟨h1, ?_⟩
    cases e1 with
    | some e => exact h4
    | none =>
      refine ⟨fun he => h4.1 he hnil, herr 0 _ rfl h2, fun hE => ?_⟩
      dsimp only at hE
      rw [hE] at hc
      simp at hc
  match hv : t.variadic, var, hvar with
  | none, none, _ =>
    rw [hv] at hr
    dsimp only at hr
    by_cases hc : (e1.isSome || (t.failFast && !acc1.errs.isEmpty)) = true
    · rw [if_pos hc] at hr
      exact hstop r it hc (Option.some.inj hr)
    · rw [if_neg hc] at hr
      cases e1 with
      | some e => exact absurd rfl hc
      | none =>
        obtain ⟨n1, n2, n3, n4⟩ := h2.next
        generalize it1.next = nx at n1 n2 n3 n4 hr
        obtain ⟨o, it2⟩ := nx
        cases o with
        | some ix =>
          dsimp only at hr
          injection hr with hr
          injection hr with g1 g2
          subst g1 g2
          exact ⟨h1, Out.new (C := fun _ => True) hhere⟩
        | none =>
          dsimp only at hr
          injection hr with hr
          injection hr with g1 g2
          subst g1 g2
          dsimp only at h4
          refine ⟨h1, fun he => h4.1 (n3 he) hnil, herr 0 _ rfl n1, fun hE _ => ?_⟩
          obtain ⟨_, w2, ys, w3, w4⟩ := h4.2 hE
          refine ⟨w2 hfits, ?_⟩
          dsimp only at w3 ⊢
          rw [w3]
          exact w4
  | some (v, vs), some (c, cs), hvp =>
    rw [hv] at hr
    dsimp only at hr
    by_cases hc : (e1.isSome || (t.failFast && !acc1.errs.isEmpty)) = true
    · rw [if_pos hc] at hr
      exact hstop r it hc (Option.some.inj hr)
    · rw [if_neg hc] at hr
      cases e1 with
      | some e => exact absurd rfl hc
      | none =>
        dsimp only at h4
        cases cs with
        | nil =>
          have hvs := All2.nil_right hvp.2
          subst hvs
          simp only [List.isEmpty_nil, if_true] at hr
          obtain ⟨k1, k2, hnone, k3⟩ := post_variadicLoop t a len items hvp.1.1 M hhere (hMv c [] rfl) _ it1 acc1 h2 rfl h1
          generalize variadicLoop t a len v.validate _ it1 acc1 = q at k1 k2 hnone k3 hr
          obtain ⟨⟨acc2, e2⟩, b2, it2⟩ := q
          injection hr with hr
          injection hr with g1 g2
          dsimp only at k1 k2 hnone k3 g1 g2
          subst g1 g2
          refine ⟨k1, ?_⟩
          cases e2 with
          | some e => exact k3
          | none =>
            dsimp only at k3
            refine ⟨fun he => k3.1 (h4.1 (hnone he) hnil), herr 0 _ rfl k2, fun hE _ => ?_⟩
            obtain ⟨w1, w2, ys, w3, w4⟩ := k3.2 hE
            obtain ⟨_, v2, zs, v3, v4⟩ := h4.2 w1
            refine ⟨w2 (v2 hfits), zs, ys, [], ?_, v4, w4, .nil⟩
            dsimp only at v3 ⊢
            rw [w3, v3, List.append_nil]
            rfl
        | cons c' cs =>
          have hMall := htail c c' cs rfl
          have hE : ∀ es : List (LineError α), Errs M es := fun es e _ => hMall _ _
          have hne : vs.isEmpty = false := by rw [All2.isEmpty hvp.2]; rfl
          rw [hne] at hr
          simp only [Bool.false_eq_true, if_false] at hr
          obtain ⟨k1, k3⟩ := post_bufferLoop t a len hvp.1.1 M hMall
            (if (it1.takeInner vs.length).2.err.isSome then [] else (it1.takeInner vs.length).2.rest)
            (it1.takeInner vs.length).2 (it1.takeInner vs.length).2.count (it1.takeInner vs.length).1 acc1 h1
          generalize bufferLoop t a len v.validate _ _ _ _ acc1 = q at k1 k3 hr
          obtain ⟨⟨acc2, e2⟩, o2⟩ := q
          dsimp only at k1 k3 hr
          cases o2 with
          | none => cases hr
          | some o =>
            obtain ⟨ret, index, buffer, it2⟩ := o
            dsimp only at hr
            by_cases hc2 : (e2.isSome || ret) = true
            · rw [if_pos hc2] at hr
              injection hr with hr
              injection hr with g1 g2
              subst g1 g2
              refine ⟨k1, ?_⟩
              cases e2 with
              | some e => exact k3
              | none =>
                refine ⟨fun _ => hE _, fun _ _ _ => .inl hMall, fun hE _ => ?_⟩
                have := (k3 hE).2.2.2 ret index buffer it2 rfl
                subst this
                cases hc2
            · rw [if_neg hc2] at hr
              injection hr with hr
              injection hr with g1 g2
              subst g1 g2
              cases e2 with
              | some e => exact absurd rfl hc2
              | none =>
                dsimp only at k3
                obtain ⟨t1, t2, t3, t4⟩ := post_tupleItems (d := index) t a len
                  (List.replicate index (.ok a) ++ buffer.map .ok) M hhere (fun _ _ => hMall _ _) vs (c' :: cs)
                  ⟨buffer.map .ok, 0, none, index⟩ acc2 hvp.2 (fun _ _ _ _ _ _ _ _ => hMall _ _)
                  ⟨fun _ => ⟨by simp, by simp⟩, fun k e h => (by cases h)⟩ k1
                generalize tupleItems t a len vs _ acc2 = q at t1 t2 t3 t4
                obtain ⟨⟨acc3, e3⟩, it3⟩ := q
                dsimp only at t1 t4 ⊢
                refine ⟨t1, ?_⟩
                cases e3 with
                | some e => exact t4
                | none =>
                  dsimp only at t4
                  refine ⟨fun _ => hE _, fun _ _ _ => .inl hMall, fun hE _ => ?_⟩
                  obtain ⟨u1, u2, ts, u3, u4⟩ := t4.2 hE
                  obtain ⟨w1, w2, ⟨ys, w3, w4⟩, _⟩ := k3 u1
                  obtain ⟨_, v2, zs, v3, v4⟩ := h4.2 w1
                  refine ⟨u2 (w2 (v2 hfits)), zs, ys, ts, ?_, v4, w4, u4⟩
                  dsimp only at v3 ⊢
                  rw [u3, w3, v3, List.append_assoc]
                  rfl

theorem tupleMinLengthError_nil {t : TupleV α} {a : α} {n : Nat} (h : tupleMinLengthError t a n = []) :
    FitsMin t.minLength n := by
  intro k hk
  simp only [tupleMinLengthError, hk] at h
  by_cases hlt : n < k
  · simp only [Option.filter, hlt, decide_true, if_true] at h
    cases h
  · omega

theorem tupleMinLengthError_errs {t : TupleV α} {a : α} {n : Nat} {M : List LocItem → α → Prop} (hhere : M [] a) :
    Errs M (tupleMinLengthError t a n) := by
  intro e he
  simp only [tupleMinLengthError] at he
  split at he
  · rw [List.mem_singleton] at he
    subst he
    exact hhere
  · cases he

theorem post_tuple (t : TupleV α) (p : ValResult α α) (hs : List (ItemSpec α))
    (var : Option (ItemSpec α × List (ItemSpec α)))
    (hhead : All2 (ItemPost m) t.head hs) (hvar : VarPost m t.variadic var)
    (hC : ∀ ys, Layout hs var ys → FitsMin t.minLength ys.length → FitsMax t.maxLength ys.length → C' (t.build ys))
    (hhere : ∀ a, L' a [] a)
    (herr : ∀ strict a e, t.asTuple strict a = .error e → Out C' (L' a) (.error e))
    (hmiss : ∀ strict a seq ex (i : Nat), t.asTuple strict a = .ok (seq, ex) → seq.items[i]? = none → L' a [.i i] a)
    (hiter : ∀ strict a seq ex (i : Nat) e, t.asTuple strict a = .ok (seq, ex) → seq.items[i]? = some (.error e) →
      L' a [.i (i + 1 : Nat)] a)
    (hitem : ∀ c ∈ hs, ∀ strict a seq ex (i : Nat) x p z, t.asTuple strict a = .ok (seq, ex) →
      seq.items[i]? = some (.ok x) → c.2 x p z → L' a (.i i :: p) z)
    (hvitem : ∀ c cs, var = some (c, cs) → ∀ strict a seq ex (i : Nat) x p z, t.asTuple strict a = .ok (seq, ex) →
      seq.items[i]? = some (.ok x) → c.2 x p z → L' a (.i i :: p) z)
    (htail : ∀ c c' cs, var = some (c, c' :: cs) → ∀ a p z, L' a p z) :
    Post m C' L' (tupleRun p t) := by
  intro a st hk
  obtain ⟨q, hq⟩ := Coll.tuple_never_panics t a st
  simp only [tupleRun, hq, Option.getD_some]
  simp only [TupleV.validate] at hq
  have hk1 : Keeps m ({ st with allowPartial := .off } : VState α) := ⟨hk.1, rfl⟩
  cases hl : t.asTuple (({ st with allowPartial := .off } : VState α).strictOr t.strict) a with
  | error e =>
    rw [hl] at hq
    cases hq
    exact ⟨hk1, herr _ _ _ hl⟩
  | ok sx =>
    obtain ⟨seq, ex⟩ := sx
    rw [hl] at hq
    dsimp only at hq
    cases hv : tupleVariable t a seq.len ⟨seq.items, 0, none, 0⟩
        ⟨[], [], ({ st with allowPartial := .off } : VState α).floorExactness ex⟩ with
    | none => rw [hv] at hq; cases hq
    | some rit =>
      obtain ⟨r, it⟩ := rit
      rw [hv] at hq
      dsimp only at hq
      obtain ⟨k1, k2⟩ := post_tupleVariable t a seq.len seq.items (L' a) hs var hhead hvar (hhere a)
        (fun i h => hmiss _ _ _ _ i hl h) (fun c hc i x p z h hx => hitem c hc _ _ _ _ i x p z hl h hx)
        (fun c cs hcs i x p z h hx => hvitem c cs hcs _ _ _ _ i x p z hl h hx)
        (fun c c' cs hcs p z => htail c c' cs hcs a p z) _ (hk1.floor ex) r it hv
      obtain ⟨acc, early⟩ := r
      dsimp only at k1 hq
      cases early with
      | some e => cases hq; exact ⟨k1, Out.imp_error k2⟩
      | none =>
        obtain ⟨q1, q2, q3⟩ := k2
        dsimp only at q1 q3
        cases he : it.err with
        | some ke =>
          obtain ⟨k, e⟩ := ke
          rw [he] at hq
          cases hq
          refine ⟨k1, Out.newWithLoc ?_⟩
          rcases q2 k e he with h | ⟨i, rfl, hi⟩
          · exact h _ _
          · exact hiter _ _ _ _ i e hl hi
        | none =>
          rw [he] at hq
          dsimp only at hq
          by_cases hE : (acc.errs ++ tupleMinLengthError t a acc.out.length).isEmpty = true
          · rw [if_pos hE] at hq
            cases hq
            obtain ⟨e1, e2⟩ := List.append_eq_nil_iff.mp (List.isEmpty_iff.mp hE)
            obtain ⟨w1, w2⟩ := q3 e1 he
            exact ⟨k1, hC _ w2 (tupleMinLengthError_nil e2) w1⟩
          · rw [if_neg hE] at hq
            cases hq
            refine ⟨k1, ⟨fun h => hE (by rw [h]; rfl), ?_⟩⟩
            exact (q1 he).append (tupleMinLengthError_errs (hhere a))

end PC.Engine
