import Verif.Spec.Literal

namespace PC.Lit
open PC.Num

variable {α β : Type}

/-! ### Dicts -/

theorem mem_set {keyEq : α → α → Bool} {k : α} {id : Nat} {d : IdDict α} {kv : α × Nat}
    (h : kv ∈ IdDict.set keyEq k id d) :
    kv ∈ d ∨ kv = (k, id) ∨ (kv.2 = id ∧ keyEq kv.1 k = true ∧ ∃ i, (kv.1, i) ∈ d) := by
  induction d with
  | nil =>
    simp only [IdDict.set, List.mem_singleton] at h
    exact .inr (.inl h)
  | cons e rest ih =>
    obtain ⟨k', id'⟩ := e
    simp only [IdDict.set] at h
    by_cases hk : keyEq k' k = true
    · rw [if_pos hk] at h
      rcases List.mem_cons.1 h with rfl | h
      · exact .inr (.inr ⟨rfl, hk, id', List.mem_cons_self ..⟩)
      · exact .inl (List.mem_cons_of_mem _ h)
    · rw [if_neg hk] at h
      rcases List.mem_cons.1 h with rfl | h
      · exact .inl (List.mem_cons_self ..)
      · rcases ih h with h | h | ⟨h1, h2, i, h3⟩
        · exact .inl (List.mem_cons_of_mem _ h)
        · exact .inr (.inl h)
        · exact .inr (.inr ⟨h1, h2, i, List.mem_cons_of_mem _ h3⟩)

theorem key_mem_set {keyEq : α → α → Bool} {k k0 : α} {id i : Nat} {d : IdDict α}
    (h : (k0, i) ∈ d) : ∃ j, (k0, j) ∈ IdDict.set keyEq k id d := by
  induction d with
  | nil => cases h
  | cons e rest ih =>
    obtain ⟨k', id'⟩ := e
    simp only [IdDict.set]
    by_cases hk : keyEq k' k = true
    · rw [if_pos hk]
      rcases List.mem_cons.1 h with h | h
      · injection h with h1 h2; subst h1; exact ⟨id, List.mem_cons_self ..⟩
      · exact ⟨i, List.mem_cons_of_mem _ h⟩
    · rw [if_neg hk]
      rcases List.mem_cons.1 h with h | h
      · exact ⟨i, by rw [h]; exact List.mem_cons_self ..⟩
      · obtain ⟨j, hj⟩ := ih h
        exact ⟨j, List.mem_cons_of_mem _ hj⟩

theorem set_has {keyEq : α → α → Bool} {k : α} {id : Nat} (d : IdDict α) (hr : keyEq k k = true) :
    ∃ k0 j, (k0, j) ∈ IdDict.set keyEq k id d ∧ keyEq k0 k = true := by
  induction d with
  | nil => exact ⟨k, id, List.mem_singleton.2 rfl, hr⟩
  | cons e rest ih =>
    obtain ⟨k', id'⟩ := e
    simp only [IdDict.set]
    by_cases hk : keyEq k' k = true
    · rw [if_pos hk]; exact ⟨k', id, List.mem_cons_self .., hk⟩
    · rw [if_neg hk]
      obtain ⟨k0, j, h1, h2⟩ := ih
      exact ⟨k0, j, List.mem_cons_of_mem _ h1, h2⟩

theorem get_some {keyEq : α → α → Bool} {x : α} {d : IdDict α} {id : Nat}
    (h : IdDict.get keyEq x d = some id) : ∃ k, (k, id) ∈ d ∧ keyEq k x = true := by
  induction d with
  | nil => cases h
  | cons e rest ih =>
    obtain ⟨k', id'⟩ := e
    simp only [IdDict.get] at h
    by_cases hk : keyEq k' x = true
    · rw [if_pos hk] at h; injection h with h; subst h
      exact ⟨k', List.mem_cons_self .., hk⟩
    · rw [if_neg hk] at h
      obtain ⟨k, h1, h2⟩ := ih h
      exact ⟨k, List.mem_cons_of_mem _ h1, h2⟩

theorem get_isSome {keyEq : α → α → Bool} {x k : α} {d : IdDict α} {id : Nat}
    (h : (k, id) ∈ d) (hk : keyEq k x = true) : ∃ j, IdDict.get keyEq x d = some j := by
  induction d with
  | nil => cases h
  | cons e rest ih =>
    obtain ⟨k', id'⟩ := e
    simp only [IdDict.get]
    by_cases hk' : keyEq k' x = true
    · exact ⟨id', by rw [if_pos hk']⟩
    · rw [if_neg hk']
      rcases List.mem_cons.1 h with h | h
      · injection h with h1 h2; subst h1; exact absurd hk hk'
      · exact ih h

theorem findValue_some {o : PyOps α} {x : α} {d : List (α × Nat)} {id : Nat}
    (h : findValue o d x = some id) : ∃ k, (k, id) ∈ d ∧ o.eq k x = true := by
  induction d with
  | nil => cases h
  | cons e rest ih =>
    obtain ⟨k', id'⟩ := e
    simp only [findValue] at h
    by_cases hk : o.eq k' x = true
    · rw [if_pos hk] at h; injection h with h; subst h
      exact ⟨k', List.mem_cons_self .., hk⟩
    · rw [if_neg hk] at h
      obtain ⟨k, h1, h2⟩ := ih h
      exact ⟨k, List.mem_cons_of_mem _ h1, h2⟩

theorem findValue_isSome {o : PyOps α} {x k : α} {d : List (α × Nat)} {id : Nat}
    (h : (k, id) ∈ d) (hk : o.eq k x = true) : ∃ j, findValue o d x = some j := by
  induction d with
  | nil => cases h
  | cons e rest ih =>
    obtain ⟨k', id'⟩ := e
    simp only [findValue]
    by_cases hk' : o.eq k' x = true
    · exact ⟨id', by rw [if_pos hk']⟩
    · rw [if_neg hk']
      rcases List.mem_cons.1 h with h | h
      · injection h with h1 h2; subst h1; exact absurd hk hk'
      · exact ih h

theorem lookup_some {κ : Type} [BEq κ] [LawfulBEq κ] {x : κ} {d : List (κ × Nat)} {id : Nat}
    (h : d.lookup x = some id) : (x, id) ∈ d := by
  induction d with
  | nil => cases h
  | cons e rest ih =>
    obtain ⟨k', id'⟩ := e
    rw [List.lookup_cons] at h
    by_cases hk : (x == k') = true
    · rw [hk] at h; injection h with h; subst h
      rw [eq_of_beq hk]; exact List.mem_cons_self ..
    · rw [eq_false_of_ne_true hk] at h
      exact List.mem_cons_of_mem _ (ih h)

theorem lookup_isSome {κ : Type} [BEq κ] [LawfulBEq κ] {x : κ} {d : List (κ × Nat)} {id : Nat}
    (h : (x, id) ∈ d) : ∃ j, d.lookup x = some j := by
  induction d with
  | nil => cases h
  | cons e rest ih =>
    obtain ⟨k', id'⟩ := e
    rw [List.lookup_cons]
    by_cases hk : (x == k') = true
    · exact ⟨id', by rw [hk]⟩
    · rw [eq_false_of_ne_true hk]
      rcases List.mem_cons.1 h with h | h
      · injection h with h1 h2; subst h1; simp at hk
      · exact ih h

/-! ### Building the tables -/

/-- The id `id` was given to a member for which `P` holds. -/
def At (done : List (α × β)) (id : Nat) (P : α → Prop) : Prop :=
  ∃ kv, done[id]? = some kv ∧ P kv.1

theorem At.append {done : List (α × β)} {id : Nat} {P : α → Prop} (h : At done id P)
    (e : α × β) : At (done ++ [e]) id P := by
  obtain ⟨kv, h1, h2⟩ := h
  have : id < done.length := by
    rcases List.getElem?_eq_some_iff.1 h1 with ⟨h, _⟩; exact h
  exact ⟨kv, by rw [List.getElem?_append_left this]; exact h1, h2⟩

theorem At.last (done : List (α × β)) (e : α × β) {P : α → Prop} (h : P e.1) :
    At (done ++ [e]) done.length P :=
  ⟨e, by simp, h⟩

theorem At.imp {done : List (α × β)} {id : Nat} {P Q : α → Prop} (h : At done id P)
    (hpq : ∀ x, P x → Q x) : At done id Q := by
  obtain ⟨kv, h1, h2⟩ := h; exact ⟨kv, h1, hpq _ h2⟩

/-- Members that go into `expected_py_dict`. -/
def InDict (o : PyOps α) (k : α) : Prop :=
  (∃ n, o.exactInt k = some n ∧ extractI64 n = none) ∨
  (o.exactInt k = none ∧ o.exactStr k = none ∧ o.hashable k = true)

/-- Members that go into `expected_py_values`. -/
def InValues (o : PyOps α) (k : α) : Prop :=
  o.exactInt k = none ∧ o.exactStr k = none ∧ o.hashable k = false

/-- Members that go into `expected_int`. -/
def InInts (o : PyOps α) (k : α) (i : Int64) : Prop :=
  ∃ n, o.exactInt k = some n ∧ extractI64 n = some i

/-- Members that go into `expected_str`. -/
def InStrs (o : PyOps α) (k : α) (s : List Char) : Prop :=
  o.exactInt k = none ∧ o.exactStr k = some s

/-- Members that go into `expected_py_primitives`. -/
def InPrims (o : PyOps α) (k : α) : Prop :=
  (∃ b, o.strictBool k = some b) ∨ (∃ i, InInts o k i) ∨ (∃ s, InStrs o k s)

/-- A dict of ids describes the members for which `P` holds. -/
structure DictInv (o : PyOps α) (P : α → Prop) (done : List (α × β)) (d : IdDict α) : Prop where
  sound : ∀ k id, (k, id) ∈ d → o.hashable k = true ∧
    At done id fun m => P m ∧ o.hashable m = true ∧ o.keyEq k m = true
  complete : ∀ kv ∈ done, P kv.1 → ∃ k id, (k, id) ∈ d ∧ o.keyEq k kv.1 = true

theorem DictInv.keep {o : PyOps α} {P : α → Prop} {done : List (α × β)} {d : IdDict α}
    (h : DictInv o P done d) (e : α × β) (he : ¬ P e.1) : DictInv o P (done ++ [e]) d where
  sound k id hk := ⟨(h.sound k id hk).1, (h.sound k id hk).2.append e⟩
  complete kv hkv hp := by
    rcases List.mem_append.1 hkv with hkv | hkv
    · exact h.complete kv hkv hp
    · rw [List.mem_singleton.1 hkv] at hp; exact absurd hp he

theorem DictInv.set {o : PyOps α} (lo : Lawful o) {P : α → Prop} {done : List (α × β)}
    {d : IdDict α} (h : DictInv o P done d) (e : α × β) (he : P e.1) (hh : o.hashable e.1 = true) :
    DictInv o P (done ++ [e]) (d.set o.keyEq e.1 done.length) where
  sound k id hk := by
    rcases mem_set hk with hk | hk | ⟨h1, h2, i, h3⟩
    · exact ⟨(h.sound k id hk).1, (h.sound k id hk).2.append e⟩
    · injection hk with h1 h2
      subst h1; subst h2
      exact ⟨hh, At.last done e ⟨he, hh, lo.refl _ hh⟩⟩
    · dsimp only at h1 h2 h3
      subst h1
      exact ⟨(h.sound k i h3).1, At.last done e ⟨he, hh, h2⟩⟩
  complete kv hkv hp := by
    rcases List.mem_append.1 hkv with hkv | hkv
    · obtain ⟨k, id, h1, h2⟩ := h.complete kv hkv hp
      obtain ⟨j, hj⟩ := key_mem_set (keyEq := o.keyEq) (k := e.1) (id := done.length) h1
      exact ⟨k, j, hj, h2⟩
    · rw [List.mem_singleton.1 hkv]
      obtain ⟨k0, j, h1, h2⟩ := set_has (id := done.length) d (lo.refl _ hh)
      exact ⟨k0, j, h1, h2⟩

/-- A table with keys computed from the members describes the members related to its keys. -/
structure TableInv {κ : Type} (R : α → κ → Prop) (done : List (α × β)) (t : List (κ × Nat)) : Prop where
  sound : ∀ k id, (k, id) ∈ t → At done id fun m => R m k
  complete : ∀ kv ∈ done, ∀ k, R kv.1 k → ∃ id, (k, id) ∈ t

theorem TableInv.keep {κ : Type} {R : α → κ → Prop} {done : List (α × β)} {t : List (κ × Nat)}
    (h : TableInv R done t) (e : α × β) (he : ∀ k, ¬ R e.1 k) : TableInv R (done ++ [e]) t where
  sound k id hk := (h.sound k id hk).append e
  complete kv hkv k hp := by
    rcases List.mem_append.1 hkv with hkv | hkv
    · exact h.complete kv hkv k hp
    · rw [List.mem_singleton.1 hkv] at hp; exact absurd hp (he k)

theorem TableInv.cons {κ : Type} {R : α → κ → Prop} {done : List (α × β)} {t : List (κ × Nat)}
    (h : TableInv R done t) (e : α × β) (k0 : κ) (he : R e.1 k0) (hu : ∀ k, R e.1 k → k = k0) :
    TableInv R (done ++ [e]) ((k0, done.length) :: t) where
  sound k id hk := by
    rcases List.mem_cons.1 hk with hk | hk
    · injection hk with h1 h2; subst h1; subst h2; exact At.last done e he
    · exact (h.sound k id hk).append e
  complete kv hkv k hp := by
    rcases List.mem_append.1 hkv with hkv | hkv
    · obtain ⟨id, hid⟩ := h.complete kv hkv k hp
      exact ⟨id, List.mem_cons_of_mem _ hid⟩
    · rw [List.mem_singleton.1 hkv] at hp
      rw [hu k hp]; exact ⟨done.length, List.mem_cons_self ..⟩

/-- An optional id describes the members for which `P` holds. -/
structure OptInv (P : α → Prop) (done : List (α × β)) (t : Option Nat) : Prop where
  sound : ∀ id, t = some id → At done id P
  complete : ∀ kv ∈ done, P kv.1 → ∃ id, t = some id

theorem OptInv.keep {P : α → Prop} {done : List (α × β)} {t : Option Nat}
    (h : OptInv P done t) (e : α × β) (he : ¬ P e.1) : OptInv P (done ++ [e]) t where
  sound id hk := (h.sound id hk).append e
  complete kv hkv hp := by
    rcases List.mem_append.1 hkv with hkv | hkv
    · exact h.complete kv hkv hp
    · rw [List.mem_singleton.1 hkv] at hp; exact absurd hp he

theorem OptInv.put {P : α → Prop} (done : List (α × β)) (e : α × β) (he : P e.1) :
    OptInv P (done ++ [e]) (some done.length) where
  sound id hk := by injection hk with hk; subst hk; exact At.last done e he
  complete _ _ _ := ⟨_, rfl⟩

/-- The tables describe the members added so far. -/
structure Inv (o : PyOps α) (done : List (α × β)) (l : Lookup α β) : Prop where
  values : l.values = done.map (·.2)
  trues : OptInv (fun k => o.strictBool k = some true) done l.trueId
  falses : OptInv (fun k => o.strictBool k = some false) done l.falseId
  ints : TableInv (InInts o) done l.ints
  strs : TableInv (InStrs o) done l.strs
  dict : DictInv o (InDict o) done l.pyDict
  pyValues : TableInv (fun m k => InValues o m ∧ m = k) done l.pyValues
  prims : DictInv o (InPrims o) done l.prims

theorem inv_nil (o : PyOps α) : Inv o ([] : List (α × β)) {} where
  values := rfl
  trues := ⟨fun _ h => (by cases h), fun _ h => (by cases h)⟩
  falses := ⟨fun _ h => (by cases h), fun _ h => (by cases h)⟩
  ints := ⟨fun _ _ h => (by cases h), fun _ h => (by cases h)⟩
  strs := ⟨fun _ _ h => (by cases h), fun _ h => (by cases h)⟩
  dict := ⟨fun _ _ h => (by cases h), fun _ h => (by cases h)⟩
  pyValues := ⟨fun _ _ h => (by cases h), fun _ h => (by cases h)⟩
  prims := ⟨fun _ _ h => (by cases h), fun _ h => (by cases h)⟩

theorem set_idem_inv {o : PyOps α} (lo : Lawful o) {P : α → Prop} {done : List (α × β)}
    {d : IdDict α} (e : α × β) (h : DictInv o P (done ++ [e]) d) (he : P e.1)
    (hh : o.hashable e.1 = true) :
    DictInv o P (done ++ [e]) (d.set o.keyEq e.1 done.length) where
  sound k id hk := by
    rcases mem_set hk with hk | hk | ⟨h1, h2, i, h3⟩
    · exact h.sound k id hk
    · injection hk with h1 h2
      subst h1; subst h2
      exact ⟨hh, At.last done e ⟨he, hh, lo.refl _ hh⟩⟩
    · dsimp only at h1 h2 h3
      subst h1
      exact ⟨(h.sound k i h3).1, At.last done e ⟨he, hh, h2⟩⟩
  complete kv hkv hp := by
    obtain ⟨k, id, h1, h2⟩ := h.complete kv hkv hp
    obtain ⟨j, hj⟩ := key_mem_set (keyEq := o.keyEq) (k := e.1) (id := done.length) h1
    exact ⟨k, j, hj, h2⟩

/-- `prims` after the bool part of the loop body. -/
def primsBool (o : PyOps α) (k : α) (id : Nat) (d : IdDict α) : IdDict α :=
  match o.strictBool k with
  | some _ => d.set o.keyEq k id
  | none => d

theorem prims_set {o : PyOps α} (lo : Lawful o) {done : List (α × β)} {d : IdDict α}
    (h : DictInv o (InPrims o) done d) (e : α × β) (he : InPrims o e.1)
    (hh : o.hashable e.1 = true) :
    DictInv o (InPrims o) (done ++ [e])
      ((primsBool o e.1 done.length d).set o.keyEq e.1 done.length) := by
  unfold primsBool
  cases hb : o.strictBool e.1 with
  | none => exact h.set lo e he hh
  | some b => exact set_idem_inv lo e (h.set lo e he hh) he hh

theorem prims_keep {o : PyOps α} (lo : Lawful o) {done : List (α × β)} {d : IdDict α}
    (h : DictInv o (InPrims o) done d) (e : α × β) (h1 : ∀ i, ¬ InInts o e.1 i)
    (h2 : ∀ s, ¬ InStrs o e.1 s) :
    DictInv o (InPrims o) (done ++ [e]) (primsBool o e.1 done.length d) := by
  unfold primsBool
  cases hb : o.strictBool e.1 with
  | none =>
    apply h.keep
    rintro (⟨b, hb'⟩ | ⟨i, hi⟩ | ⟨s, hs⟩)
    · rw [hb] at hb'; cases hb'
    · exact h1 i hi
    · exact h2 s hs
  | some b => exact h.set lo e (.inl ⟨b, hb⟩) (lo.bool_hash _ _ hb)

/-- `true_id` after the loop body. -/
def trueAfter (o : PyOps α) (k : α) (id : Nat) (t : Option Nat) : Option Nat :=
  if o.strictBool k = some true then some id else t

/-- `false_id` after the loop body. -/
def falseAfter (o : PyOps α) (k : α) (id : Nat) (t : Option Nat) : Option Nat :=
  if o.strictBool k = some false then some id else t

theorem addBool_eq (o : PyOps α) (k : α) (id : Nat) (l : Lookup α β) :
    Lookup.addBool o k id l = { l with
      trueId := trueAfter o k id l.trueId
      falseId := falseAfter o k id l.falseId
      prims := primsBool o k id l.prims } := by
  unfold Lookup.addBool trueAfter falseAfter primsBool
  cases hb : o.strictBool k with
  | none => simp
  | some b => cases b <;> simp

theorem opt_after {P : α → Prop} {done : List (α × β)} {t : Option Nat}
    (h : OptInv P done t) (e : α × β) [Decidable (P e.1)] :
    OptInv P (done ++ [e]) (if P e.1 then some done.length else t) := by
  by_cases he : P e.1
  · rw [if_pos he]; exact OptInv.put done e he
  · rw [if_neg he]; exact h.keep e he

theorem table_snoc {R : α → α → Prop} {done : List (α × β)} {t : List (α × Nat)}
    (h : TableInv R done t) (e : α × β) (k0 : α) (he : R e.1 k0) (hu : ∀ k, R e.1 k → k = k0) :
    TableInv R (done ++ [e]) (t ++ [(k0, done.length)]) where
  sound k id hk := by
    rcases List.mem_append.1 hk with hk | hk
    · exact (h.sound k id hk).append e
    · injection List.mem_singleton.1 hk with h1 h2; subst h1; subst h2; exact At.last done e he
  complete kv hkv k hp := by
    rcases List.mem_append.1 hkv with hkv | hkv
    · obtain ⟨id, hid⟩ := h.complete kv hkv k hp
      exact ⟨id, List.mem_append_left _ hid⟩
    · rw [List.mem_singleton.1 hkv] at hp
      rw [hu k hp]; exact ⟨done.length, List.mem_append_right _ (List.mem_singleton.2 rfl)⟩

theorem inv_step {o : PyOps α} (lo : Lawful o) {done : List (α × β)} {l : Lookup α β}
    (h : Inv o done l) (e : α × β) : Inv o (done ++ [e]) (Lookup.add o l e) := by
  have hlen : l.values.length = done.length := by rw [h.values, List.length_map]
  have hvals : l.values ++ [e.2] = (done ++ [e]).map (·.2) := by simp [h.values]
  have ht : OptInv (fun k => o.strictBool k = some true) (done ++ [e])
      (trueAfter o e.1 done.length l.trueId) := opt_after h.trues e
  have hf : OptInv (fun k => o.strictBool k = some false) (done ++ [e])
      (falseAfter o e.1 done.length l.falseId) := opt_after h.falses e
  unfold Lookup.add
  dsimp only
  rw [addBool_eq, hlen]
  unfold Lookup.addOther
  cases hi : o.exactInt e.1 with
  | some n =>
    have hns : ∀ s, ¬ InStrs o e.1 s := by rintro s ⟨h1, _⟩; rw [hi] at h1; cases h1
    have hnv : ∀ k, ¬ (InValues o e.1 ∧ e.1 = k) := by
      rintro k ⟨⟨h1, _⟩, _⟩; rw [hi] at h1; cases h1
    dsimp only
    cases hx : extractI64 n with
    | some i =>
      have hin : InInts o e.1 i := ⟨n, hi, hx⟩
      have hnd : ¬ InDict o e.1 := by
        rintro (⟨m, h1, h2⟩ | ⟨h1, _⟩)
        · rw [hi] at h1; injection h1 with h1; subst h1; rw [hx] at h2; cases h2
        · rw [hi] at h1; cases h1
      have hu : ∀ k, InInts o e.1 k → k = i := by
        rintro k ⟨m, h1, h2⟩
        rw [hi] at h1; injection h1 with h1; subst h1; rw [hx] at h2; injection h2 with h2
        exact h2.symm
      exact ⟨hvals, ht, hf, h.ints.cons e i hin hu, h.strs.keep e hns, h.dict.keep e hnd,
        h.pyValues.keep e hnv,
        prims_set lo h.prims e (.inr (.inl ⟨i, hin⟩)) (lo.int_hash _ _ hi)⟩
    | none =>
      have hni : ∀ i, ¬ InInts o e.1 i := by
        rintro i ⟨m, h1, h2⟩
        rw [hi] at h1; injection h1 with h1; subst h1; rw [hx] at h2; cases h2
      exact ⟨hvals, ht, hf, h.ints.keep e hni, h.strs.keep e hns,
        h.dict.set lo e (.inl ⟨n, hi, hx⟩) (lo.int_hash _ _ hi), h.pyValues.keep e hnv,
        prims_keep lo h.prims e hni hns⟩
  | none =>
    have hni : ∀ i, ¬ InInts o e.1 i := by
      rintro i ⟨m, h1, _⟩; rw [hi] at h1; cases h1
    dsimp only
    cases hs : o.exactStr e.1 with
    | some s =>
      have hin : InStrs o e.1 s := ⟨hi, hs⟩
      have hnd : ¬ InDict o e.1 := by
        rintro (⟨m, h1, _⟩ | ⟨_, h1, _⟩)
        · rw [hi] at h1; cases h1
        · rw [hs] at h1; cases h1
      have hnv : ∀ k, ¬ (InValues o e.1 ∧ e.1 = k) := by
        rintro k ⟨⟨_, h1, _⟩, _⟩; rw [hs] at h1; cases h1
      have hu : ∀ k, InStrs o e.1 k → k = s := by
        rintro k ⟨_, h2⟩
        rw [hs] at h2; injection h2 with h2; exact h2.symm
      exact ⟨hvals, ht, hf, h.ints.keep e hni, h.strs.cons e s hin hu, h.dict.keep e hnd,
        h.pyValues.keep e hnv,
        prims_set lo h.prims e (.inr (.inr ⟨s, hin⟩)) (lo.str_hash _ _ hs)⟩
    | none =>
      have hns : ∀ s, ¬ InStrs o e.1 s := by rintro s ⟨_, h1⟩; rw [hs] at h1; cases h1
      dsimp only
      by_cases hh : o.hashable e.1 = true
      · rw [if_pos hh]
        have hnv : ∀ k, ¬ (InValues o e.1 ∧ e.1 = k) := by
          rintro k ⟨⟨_, _, h1⟩, _⟩; rw [hh] at h1; cases h1
        exact ⟨hvals, ht, hf, h.ints.keep e hni, h.strs.keep e hns,
          h.dict.set lo e (.inr ⟨hi, hs, hh⟩) hh, h.pyValues.keep e hnv,
          prims_keep lo h.prims e hni hns⟩
      · rw [if_neg hh]
        have hnd : ¬ InDict o e.1 := by
          rintro (⟨m, h1, _⟩ | ⟨_, _, h1⟩)
          · rw [hi] at h1; cases h1
          · exact hh h1
        exact ⟨hvals, ht, hf, h.ints.keep e hni, h.strs.keep e hns, h.dict.keep e hnd,
          table_snoc h.pyValues e e.1 ⟨⟨hi, hs, eq_false_of_ne_true hh⟩, rfl⟩
            (fun k hk => hk.2.symm),
          prims_keep lo h.prims e hni hns⟩

theorem inv_foldl {o : PyOps α} (lo : Lawful o) (todo done : List (α × β)) {l : Lookup α β}
    (h : Inv o done l) : Inv o (done ++ todo) (todo.foldl (Lookup.add o) l) := by
  induction todo generalizing done l with
  | nil => simpa using h
  | cons e rest ih =>
    have := ih (done ++ [e]) (inv_step lo h e)
    simpa using this

theorem inv_new {o : PyOps α} (lo : Lawful o) (expected : List (α × β)) :
    Inv o expected (Lookup.new o expected) := by
  have := inv_foldl lo expected [] (inv_nil o)
  simpa [Lookup.new] using this

/-! ### Looking up -/

theorem dict_sound {o : PyOps α} (lo : Lawful o) {P : α → Prop} {done : List (α × β)}
    {d : IdDict α} (h : DictInv o P done d) {x : α} {id : Nat} (hf : findDict o d x = some id) :
    o.hashable x = true ∧ At done id fun m => P m ∧ Matches o m x := by
  unfold findDict at hf
  by_cases hx : o.hashable x = true
  · rw [if_pos hx] at hf
    obtain ⟨k, h1, h2⟩ := get_some hf
    obtain ⟨hk, hat⟩ := h.sound k id h1
    refine ⟨hx, hat.imp ?_⟩
    rintro m ⟨hp, hm, hkm⟩
    refine ⟨hp, ?_⟩
    unfold Matches
    rw [if_pos hm]
    exact ⟨hx, lo.trans m k x hm hk hx (lo.symm k m hk hm hkm) h2⟩
  · rw [if_neg hx] at hf; cases hf

theorem dict_complete {o : PyOps α} (lo : Lawful o) {P : α → Prop} {done : List (α × β)}
    {d : IdDict α} (h : DictInv o P done d) {x : α} {kv : α × β} (hkv : kv ∈ done) (hp : P kv.1)
    (hh : o.hashable kv.1 = true) (hm : Matches o kv.1 x) : ∃ id, findDict o d x = some id := by
  unfold Matches at hm
  rw [if_pos hh] at hm
  unfold findDict
  rw [if_pos hm.1]
  obtain ⟨k, id, h1, h2⟩ := h.complete kv hkv hp
  exact get_isSome h1 (lo.trans k kv.1 x (h.sound k id h1).1 hh hm.1 h2 hm.2)

theorem findRest_sound {o : PyOps α} (lo : Lawful o) {done : List (α × β)} {l : Lookup α β}
    (h : Inv o done l) {x : α} {id : Nat} (hf : l.findRest o (.ofPy o x) = some id) :
    At done id fun m => Matches o m x := by
  unfold Lookup.findRest at hf
  cases h1 : l.findStr (.ofPy o x) with
  | some i =>
    rw [h1] at hf; injection hf with hf; subst hf
    unfold Lookup.findStr LitInput.ofPy at h1
    dsimp only at h1
    cases hs : o.exactStr x with
    | none => rw [hs] at h1; cases h1
    | some s =>
      rw [hs] at h1
      refine (h.strs.sound s i (lookup_some h1)).imp ?_
      rintro m ⟨_, hm⟩
      unfold Matches
      rw [if_pos (lo.str_hash _ _ hm)]
      exact ⟨lo.str_hash _ _ hs, lo.str_eq _ _ _ hm hs⟩
  | none =>
    rw [h1] at hf; dsimp only at hf
    cases h2 : findDict o l.pyDict (LitInput.ofPy o x).obj with
    | some i =>
      rw [h2] at hf; injection hf with hf; subst hf
      exact (dict_sound lo h.dict h2).2.imp fun _ h => h.2
    | none =>
      rw [h2] at hf; dsimp only at hf
      cases h3 : findValue o l.pyValues (LitInput.ofPy o x).obj with
      | some i =>
        rw [h3] at hf; injection hf with hf; subst hf
        obtain ⟨k, hk1, hk2⟩ := findValue_some h3
        refine (h.pyValues.sound k i hk1).imp ?_
        rintro m ⟨⟨_, _, hm⟩, rfl⟩
        unfold Matches
        rw [if_neg (by rw [hm]; decide)]
        exact hk2
      | none =>
        rw [h3] at hf
        exact (dict_sound lo h.prims hf).2.imp fun _ h => h.2

/-- Membership classes: where each kind of member is looked for. -/
theorem member_class {o : PyOps α} (m : α) :
    InDict o m ∨ InValues o m ∨ InPrims o m := by
  cases hi : o.exactInt m with
  | some n =>
    cases hx : extractI64 n with
    | some i => exact .inr (.inr (.inr (.inl ⟨i, n, hi, hx⟩)))
    | none => exact .inl (.inl ⟨n, hi, hx⟩)
  | none =>
    cases hs : o.exactStr m with
    | some s => exact .inr (.inr (.inr (.inr ⟨s, hi, hs⟩)))
    | none =>
      cases hh : o.hashable m with
      | true => exact .inl (.inr ⟨hi, hs, hh⟩)
      | false => exact .inr (.inl ⟨hi, hs, hh⟩)

theorem inDict_hash {o : PyOps α} (lo : Lawful o) {m : α} (h : InDict o m) :
    o.hashable m = true := by
  rcases h with ⟨n, h, _⟩ | ⟨_, _, h⟩
  · exact lo.int_hash _ _ h
  · exact h

theorem inPrims_hash {o : PyOps α} (lo : Lawful o) {m : α} (h : InPrims o m) :
    o.hashable m = true := by
  rcases h with ⟨b, h⟩ | ⟨i, n, h, _⟩ | ⟨s, _, h⟩
  · exact lo.bool_hash _ _ h
  · exact lo.int_hash _ _ h
  · exact lo.str_hash _ _ h

theorem findRest_complete {o : PyOps α} (lo : Lawful o) {done : List (α × β)} {l : Lookup α β}
    (h : Inv o done l) {x : α} {kv : α × β} (hkv : kv ∈ done) (hm : Matches o kv.1 x) :
    ∃ id, l.findRest o (.ofPy o x) = some id := by
  unfold Lookup.findRest
  cases h1 : l.findStr (.ofPy o x) with
  | some i => exact ⟨i, rfl⟩
  | none =>
    dsimp only
    cases h2 : findDict o l.pyDict (LitInput.ofPy o x).obj with
    | some i => exact ⟨i, rfl⟩
    | none =>
      dsimp only
      cases h3 : findValue o l.pyValues (LitInput.ofPy o x).obj with
      | some i => exact ⟨i, rfl⟩
      | none =>
        dsimp only
        rcases member_class (o := o) kv.1 with hc | hc | hc
        · obtain ⟨id, hid⟩ := dict_complete lo h.dict hkv hc (inDict_hash lo hc) hm
          rw [show (LitInput.ofPy o x).obj = x from rfl] at h2
          rw [hid] at h2; cases h2
        · obtain ⟨id, hid⟩ := h.pyValues.complete kv hkv kv.1 ⟨hc, rfl⟩
          have : o.eq kv.1 x = true := by
            unfold Matches at hm
            rwa [if_neg (by rw [hc.2.2]; decide)] at hm
          obtain ⟨j, hj⟩ := findValue_isSome hid this
          rw [show (LitInput.ofPy o x).obj = x from rfl, hj] at h3; cases h3
        · exact dict_complete lo h.prims hkv hc (inPrims_hash lo hc) hm

end PC.Lit
