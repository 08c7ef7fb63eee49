import Verif.Spec.Tuples

/-
The loops of `validate_tuple_variable` refine one loop over the positions of the tuple.
-/

namespace PC.Coll
variable {α : Type}

/-- The body shared by the loops, for one position. -/
def slotStep (t : TupleV α) (input : α) (len : Option Nat) (s : Slot α) (acc : TAcc α) : TRes α :=
  match s.value with
  | some a => tupleItem t input len s.item.validate s.index a acc
  | none =>
    let d := s.item.default s.index acc.st
    let acc := { acc with st := d.2 }
    match d.1 with
    | .error e => (acc, some e)
    | .ok (some value) => ({ acc with out := acc.out ++ [value] }, none)
    | .ok none =>
      ({ acc with errs := acc.errs ++ [.newWithLoc .missing input (.i s.index)] }, none)

def slotLoop (t : TupleV α) (input : α) (len : Option Nat) : List (Slot α) → TAcc α → TRes α
  | [], acc => (acc, none)
  | s :: rest, acc =>
    let r := slotStep t input len s acc
    match r.2 with
    | some e => (r.1, some e)
    | none => if t.failFast && !r.1.errs.isEmpty then (r.1, none) else slotLoop t input len rest r.1

theorem slotLoop_cons (t : TupleV α) (input : α) (len : Option Nat) (s : Slot α)
    (rest : List (Slot α)) (acc : TAcc α) :
    slotLoop t input len (s :: rest) acc =
      match (slotStep t input len s acc).2 with
      | some e => ((slotStep t input len s acc).1, some e)
      | none =>
        if t.failFast && !(slotStep t input len s acc).1.errs.isEmpty then
          ((slotStep t input len s acc).1, none)
        else slotLoop t input len rest (slotStep t input len s acc).1 := rfl

/-- The loop was not left early. -/
def Done (t : TupleV α) (r : TRes α) : Prop :=
  r.2 = none ∧ (t.failFast && !r.1.errs.isEmpty) = false

theorem slotLoop_append (t : TupleV α) (input : α) (len : Option Nat) (s1 s2 : List (Slot α)) :
    ∀ acc, (t.failFast && !acc.errs.isEmpty) = false → slotLoop t input len (s1 ++ s2) acc =
      (let r := slotLoop t input len s1 acc
       match r.2 with
       | some e => (r.1, some e)
       | none => if t.failFast && !r.1.errs.isEmpty then (r.1, none)
          else slotLoop t input len s2 r.1) := by
  induction s1 with
  | nil => intro acc h; simp [slotLoop, h]
  | cons s s1 ih =>
    intro acc h
    rw [List.cons_append, slotLoop_cons, slotLoop_cons]
    generalize slotStep t input len s acc = r
    obtain ⟨acc', e⟩ := r
    cases e with
    | some e => rfl
    | none =>
      dsimp only
      by_cases hf : (t.failFast && !acc'.errs.isEmpty) = true
      · rw [if_pos hf, if_pos hf]; dsimp only; rw [if_pos hf]
      · rw [if_neg hf, if_neg hf]
        exact ih acc' (by simpa using hf)

/-- Pair item schemas with items, counting from `c`. -/
def pairUp : List (TItem α) → Nat → List α → List (Slot α)
  | [], _, _ => []
  | v :: vs, c, [] => ⟨v, c, none⟩ :: pairUp vs (c + 1) []
  | v :: vs, c, x :: xs => ⟨v, c, some x⟩ :: pairUp vs (c + 1) xs

theorem pairUp_append (a b : List (TItem α)) :
    ∀ c xs, pairUp (a ++ b) c xs = pairUp a c xs ++ pairUp b (c + a.length) (xs.drop a.length) := by
  induction a with
  | nil => intro c xs; simp [pairUp]
  | cons v a ih =>
    intro c xs
    cases xs with
    | nil =>
      rw [List.cons_append]; simp only [pairUp, List.cons_append]
      rw [ih]; simp; congr 1; omega
    | cons x xs =>
      rw [List.cons_append]; simp only [pairUp, List.cons_append]
      rw [ih]; simp; congr 1; omega

theorem pairUp_eq (vs : List (TItem α)) :
    ∀ c xs, pairUp vs c xs = (vs.zipIdx c).map (fun p => ⟨p.1, p.2, xs[p.2 - c]?⟩) := by
  induction vs with
  | nil => intro c xs; simp [pairUp]
  | cons v vs ih =>
    intro c xs
    cases xs with
    | nil =>
      simp only [pairUp, List.zipIdx_cons, List.map_cons]
      rw [ih]; simp
    | cons x xs =>
      simp only [pairUp, List.zipIdx_cons, List.map_cons]
      rw [ih]
      simp only [Nat.sub_self, List.getElem?_cons_zero, List.cons.injEq, true_and]
      apply List.map_congr_left
      intro p hp
      have hle := (List.mem_zipIdx hp).1
      have : p.2 - c = (p.2 - (c + 1)) + 1 := by omega
      rw [this, List.getElem?_cons_succ]

/-- What is left of the source: the items `ys`, then either the end or an iteration error. -/
def Src (it : TIter α) (ys : List α) (tl : List (Except PyErr α)) : Prop :=
  (it.err = none ∧ it.rest = ys.map .ok ++ tl) ∨ (ys = [] ∧ it.err.isSome = true ∧ tl ≠ [])

/-- The end of a source. -/
def End (tl : List (Except PyErr α)) : Prop := tl = [] ∨ ∃ e r, tl = .error e :: r

theorem src_pull_cons {it : TIter α} {y : α} {ys : List α} {tl} (h : Src it (y :: ys) tl) :
    it.pull.1 = some y ∧ Src it.pull.2 ys tl ∧ it.pull.2.count = it.count ∧
    it.pull.2.err = none := by
  rcases h with ⟨h1, h2⟩ | ⟨h1, -⟩
  · unfold TIter.pull
    rw [h1, h2]
    simp only [List.map_cons, List.cons_append, Option.isSome_none, Bool.false_eq_true, if_false]
    exact ⟨trivial, .inl ⟨rfl, rfl⟩, trivial, trivial⟩
  · cases h1

theorem src_pull_nil {it : TIter α} {tl} (he : End tl) (h : Src it [] tl) :
    it.pull.1 = none ∧ Src it.pull.2 [] tl ∧ it.pull.2.count = it.count ∧
    (it.pull.2.err = none → tl = []) := by
  rcases h with ⟨h1, h2⟩ | ⟨-, h2, h3⟩
  · unfold TIter.pull
    rw [h1, h2]
    rcases he with rfl | ⟨e, r, rfl⟩
    · simp [Src]
    · simp [Src]
  · unfold TIter.pull
    rw [if_pos h2]
    refine ⟨rfl, .inr ⟨rfl, h2, h3⟩, rfl, ?_⟩
    intro h; rw [h] at h2; simp at h2

theorem src_next {it : TIter α} {ys tl} (h : Src it.pull.2 ys tl) : Src it.next.2 ys tl := h

theorem src_take {tl : List (Except PyErr α)} (he : End tl) (k : Nat) :
    ∀ (it : TIter α) (ys : List α), Src it ys tl →
    (it.takeInner k).1 = ys.take k ∧ Src (it.takeInner k).2 (ys.drop k) tl ∧
    (it.takeInner k).2.count = it.count := by
  induction k with
  | zero => intro it ys h; simpa [TIter.takeInner] using h
  | succ k ih =>
    intro it ys h
    unfold TIter.takeInner
    cases ys with
    | nil =>
      obtain ⟨h1, h2, h3, -⟩ := src_pull_nil he h
      have : it.pull = (none, it.pull.2) := by rw [← h1]
      rw [this]
      exact ⟨by simp, by simpa using h2, h3⟩
    | cons y ys =>
      obtain ⟨h1, h2, h3, -⟩ := src_pull_cons h
      have : it.pull = (some y, it.pull.2) := by rw [← h1]
      rw [this]
      obtain ⟨i1, i2, i3⟩ := ih _ ys h2
      exact ⟨by simp [i1], by simpa using i2, by simp [i3, h3]⟩

theorem tupleItems_slots (t : TupleV α) (input : α) (len : Option Nat)
    {tl : List (Except PyErr α)} (he : End tl) (vs : List (TItem α)) :
    ∀ (it : TIter α) (ys : List α) (acc : TAcc α), Src it ys tl →
      let R := tupleItems t input len vs it acc
      R.1 = slotLoop t input len (pairUp vs it.count ys) acc ∧
      ∃ zs, Src R.2 zs tl ∧ ((t.failFast && !acc.errs.isEmpty) = false →
        Done t R.1 → zs = ys.drop vs.length ∧ R.2.count = it.count + vs.length) := by
  induction vs with
  | nil =>
    intro it ys acc h
    exact ⟨rfl, ys, h, fun _ _ => ⟨rfl, rfl⟩⟩
  | cons v vs ih =>
    intro it ys acc h
    unfold tupleItems
    dsimp only
    have key : ∀ (s : Slot α) (r : TRes α) (zs : List α) , r = slotStep t input len s acc →
        Src it.next.2 zs tl →
        let R := (match r.2 with
          | some e => ((r.1, some e), it.next.2)
          | none => if t.failFast && !r.1.errs.isEmpty then ((r.1, none), it.next.2)
            else tupleItems t input len vs it.next.2 r.1)
        R.1 = slotLoop t input len (s :: pairUp vs (it.count + 1) zs) acc ∧
        ∃ ws, Src R.2 ws tl ∧ ((t.failFast && !acc.errs.isEmpty) = false →
          Done t R.1 → ws = zs.drop vs.length ∧ R.2.count = it.count + (vs.length + 1)) := by
      intro s r zs hr hs
      unfold slotLoop
      dsimp only
      rw [← hr]
      obtain ⟨acc', e⟩ := r
      cases e with
      | some e => exact ⟨rfl, zs, hs, fun _ hd => by cases hd.1⟩
      | none =>
        dsimp only
        by_cases hf : (t.failFast && !acc'.errs.isEmpty) = true
        · rw [if_pos hf, if_pos hf]
          refine ⟨rfl, zs, hs, fun _ hd => ?_⟩
          have := hd.2; dsimp only at this; rw [hf] at this; cases this
        · rw [if_neg hf, if_neg hf]
          obtain ⟨i1, ws, i2, i3⟩ := ih it.next.2 zs acc' hs
          refine ⟨i1, ws, i2, fun _ hd => ?_⟩
          obtain ⟨j1, j2⟩ := i3 (by simpa using hf) hd
          refine ⟨j1, ?_⟩
          rw [j2]
          show it.count + 1 + vs.length = _
          omega
    cases ys with
    | nil =>
      obtain ⟨h1, h2, h3, -⟩ := src_pull_nil he h
      have hn : it.next.1 = none := by unfold TIter.next; simp only; rw [h1]; rfl
      rw [hn]
      have hc : it.next.2.count - 1 = it.count := by unfold TIter.next; simp
      dsimp only
      rw [hc]
      have := key ⟨v, it.count, none⟩ _ [] rfl (src_next h2)
      simp only [List.drop_nil] at this ⊢
      exact this
    | cons y ys =>
      obtain ⟨h1, h2, h3, -⟩ := src_pull_cons h
      have hn : it.next.1 = some (it.count, y) := by unfold TIter.next; simp only; rw [h1]; rfl
      rw [hn]
      have := key ⟨v, it.count, some y⟩ _ ys rfl (src_next h2)
      exact this

/-- The source the loops after the head see. -/
def srcList (it : TIter α) : List (Except PyErr α) := if it.err.isSome then [] else it.rest

theorem srcList_nil {it : TIter α} {tl} (he : End tl) (h : Src it [] tl) :
    srcList it = [] ∨ ∃ e r, srcList it = .error e :: r := by
  unfold srcList
  rcases h with ⟨h1, h2⟩ | ⟨-, h2, -⟩
  · rw [h1, h2]
    rcases he with rfl | ⟨e, r, rfl⟩
    · left; rfl
    · right; exact ⟨e, r, rfl⟩
  · rw [if_pos h2]; left; rfl

theorem srcList_cons {it : TIter α} {y ys tl} (h : Src it (y :: ys) tl) :
    srcList it = .ok y :: (ys.map .ok ++ tl) ∧ it.err = none ∧
    ∀ it' : TIter α, it'.err = none → it'.rest = ys.map .ok ++ tl →
      Src it' ys tl ∧ srcList it' = ys.map .ok ++ tl := by
  rcases h with ⟨h1, h2⟩ | ⟨h1, -⟩
  · unfold srcList
    rw [h1, h2]
    refine ⟨rfl, rfl, ?_⟩
    intro it' h1 h2
    rw [h1, h2]
    exact ⟨.inl ⟨h1, h2⟩, rfl⟩
  · cases h1

theorem variadicLoop_slots (t : TupleV α) (input : α) (len : Option Nat)
    {tl : List (Except PyErr α)} (he : End tl) (v : TItem α) (ys : List α) :
    ∀ (it : TIter α) (acc : TAcc α), Src it ys tl →
      let R := variadicLoop t input len v.validate (srcList it) it acc
      R.1 = slotLoop t input len (pairUp (List.replicate ys.length v) it.count ys) acc ∧
      ∃ zs, Src R.2.2 zs tl ∧ ((t.failFast && !acc.errs.isEmpty) = false →
        Done t R.1 → R.2.2.err = none → tl = []) := by
  induction ys with
  | nil =>
    intro it acc h
    obtain ⟨p1, p2, p3, p4⟩ := src_pull_nil he h
    rcases srcList_nil he h with hs | ⟨e, r, hs⟩
    · rw [hs]
      exact ⟨rfl, [], p2, fun _ _ => p4⟩
    · rw [hs]
      exact ⟨rfl, [], p2, fun _ _ => p4⟩
  | cons y ys ih =>
    intro it acc h
    obtain ⟨hs, herr, hnext⟩ := srcList_cons h
    rw [hs]
    unfold variadicLoop
    dsimp only [List.length_cons, List.replicate_succ, pairUp]
    unfold slotLoop
    dsimp only
    have hst : slotStep t input len ⟨v, it.count, some y⟩ acc
        = tupleItem t input len v.validate it.count y acc := rfl
    rw [hst]
    obtain ⟨hsrc, hsl⟩ := hnext { it with rest := ys.map .ok ++ tl, index := it.index + 1, count := it.count + 1 } herr rfl
    generalize tupleItem t input len v.validate it.count y acc = r
    obtain ⟨acc', e⟩ := r
    cases e with
    | some e => exact ⟨rfl, ys, hsrc, fun _ hd => by cases hd.1⟩
    | none =>
      dsimp only
      by_cases hf : (t.failFast && !acc'.errs.isEmpty) = true
      · rw [if_pos hf, if_pos hf]
        refine ⟨rfl, ys, hsrc, fun _ hd => ?_⟩
        have := hd.2; dsimp only at this; rw [hf] at this; cases this
      · rw [if_neg hf, if_neg hf]
        obtain ⟨i1, zs, i2, i3⟩ := ih _ acc' hsrc
        rw [hsl] at i1 i2 i3
        exact ⟨i1, zs, i2, fun _ hd => i3 (by simpa using hf) hd⟩

theorem bufferLoop_slots (t : TupleV α) (input : α) (len : Option Nat)
    {tl : List (Except PyErr α)} (he : End tl) (v : TItem α) (ys : List α) :
    ∀ (it : TIter α) (index : Nat) (buffer : List α) (acc : TAcc α), Src it ys tl →
      (ys ≠ [] → buffer ≠ []) →
      let R := bufferLoop t input len v.validate (srcList it) it index buffer acc
      R.1 = slotLoop t input len
        (pairUp (List.replicate ys.length v) it.count ((buffer ++ ys).take ys.length)) acc ∧
      ∃ ret idx buf it', R.2 = some (ret, idx, buf, it') ∧ (∃ zs, Src it' zs tl) ∧
        ((t.failFast && !acc.errs.isEmpty) = false → Done t R.1 →
          ret = false ∧ buf = (buffer ++ ys).drop ys.length ∧
          idx = (if ys = [] then index else it.count + ys.length - 1) ∧ (it'.err = none → tl = [])) ∧
        (R.1.2 = none → ¬ Done t R.1 → (t.failFast && !acc.errs.isEmpty) = false → ret = true) := by
  induction ys with
  | nil =>
    intro it index buffer acc h _
    obtain ⟨p1, p2, p3, p4⟩ := src_pull_nil he h
    have fin : ∀ R : TRes α × Option (Bool × Nat × List α × TIter α),
        R = ((acc, none), some (false, index, buffer, it.next.2)) →
        R.1 = slotLoop t input len
          (pairUp (List.replicate ([] : List α).length v) it.count ((buffer ++ []).take ([] : List α).length)) acc ∧
        ∃ ret idx buf it', R.2 = some (ret, idx, buf, it') ∧ (∃ zs, Src it' zs tl) ∧
          ((t.failFast && !acc.errs.isEmpty) = false → Done t R.1 →
            ret = false ∧ buf = (buffer ++ []).drop ([] : List α).length ∧
            idx = (if ([] : List α) = [] then index else it.count + ([] : List α).length - 1) ∧
            (it'.err = none → tl = [])) ∧
          (R.1.2 = none → ¬ Done t R.1 → (t.failFast && !acc.errs.isEmpty) = false → ret = true) := by
      rintro R rfl
      refine ⟨rfl, _, _, _, _, rfl, ⟨[], p2⟩, fun _ _ => ⟨rfl, by simp, by simp, p4⟩, ?_⟩
      intro _ hd hn
      exact absurd ⟨rfl, hn⟩ hd
    rcases srcList_nil he h with hs | ⟨e, r, hs⟩
    · rw [hs]; exact fin _ rfl
    · rw [hs]; exact fin _ rfl
  | cons y ys ih =>
    intro it index buffer acc h hb
    obtain ⟨hs, herr, hnext⟩ := srcList_cons h
    cases buffer with
    | nil => exact absurd rfl (hb (by simp))
    | cons b buffer =>
    rw [hs]
    unfold bufferLoop
    dsimp only [List.length_cons, List.replicate_succ, pairUp, List.cons_append, List.take_succ_cons]
    unfold slotLoop
    dsimp only
    have hst : slotStep t input len ⟨v, it.count, some b⟩ acc
        = tupleItem t input len v.validate it.count b acc := rfl
    rw [hst]
    obtain ⟨hsrc, hsl⟩ := hnext { it with rest := ys.map .ok ++ tl, index := it.index + 1, count := it.count + 1 } herr rfl
    generalize tupleItem t input len v.validate it.count b acc = r
    obtain ⟨acc', e⟩ := r
    cases e with
    | some e =>
      refine ⟨rfl, _, _, _, _, rfl, ⟨ys, hsrc⟩, ?_, ?_⟩
      · intro _ hd; cases hd.1
      · intro h; cases h
    | none =>
      dsimp only
      by_cases hf : (t.failFast && !acc'.errs.isEmpty) = true
      · rw [if_pos hf, if_pos hf]
        refine ⟨rfl, _, _, _, _, rfl, ⟨ys, hsrc⟩, ?_, fun _ _ _ => rfl⟩
        intro _ hd
        have := hd.2; dsimp only at this; rw [hf] at this; cases this
      · rw [if_neg hf, if_neg hf]
        obtain ⟨i1, ret, idx, buf, it', i2, i3, i4, i5⟩ := ih _ it.count (buffer ++ [y]) acc' hsrc (by simp)
        rw [hsl] at i1 i2 i4 i5
        have hassoc : buffer ++ [y] ++ ys = buffer ++ y :: ys := by simp
        rw [hassoc] at i1 i4
        refine ⟨i1, ret, idx, buf, it', i2, i3, fun _ hd => ?_, fun h1 h2 _ => i5 h1 h2 (by simpa using hf)⟩
        obtain ⟨j1, j2, j3, j4⟩ := i4 (by simpa using hf) hd
        refine ⟨j1, j2, ?_, j4⟩
        rw [j3, if_neg (List.cons_ne_nil _ _)]
        cases ys with
        | nil => rw [if_pos rfl]; simp
        | cons z ys => rw [if_neg (List.cons_ne_nil _ _)]; simp only [List.length_cons]; omega

end PC.Coll

namespace PC.Coll
variable {α : Type}

theorem pairUp_take (vs : List (TItem α)) :
    ∀ c xs, pairUp vs c (xs.take vs.length) = pairUp vs c xs := by
  induction vs with
  | nil => intro c xs; rfl
  | cons v vs ih =>
    intro c xs
    cases xs with
    | nil => simp
    | cons x xs => simp [pairUp, ih]

/-- The positions with the index under which the code reports them: positions of the tail are one
too low when there is a variadic item (`tuple.rs:169-173,205`). -/
def TupleV.reported (t : TupleV α) (xs : List α) : List (Slot α) :=
  match t.variadic with
  | none => pairUp t.head 0 xs
  | some (v, tail) =>
    let m := xs.length - t.head.length - tail.length
    pairUp t.head 0 xs ++ pairUp (List.replicate m v) t.head.length (xs.drop t.head.length) ++
      pairUp tail (if m = 0 then t.head.length else t.head.length + m - 1)
        (xs.drop (t.head.length + m))

theorem done_append {t : TupleV α} {input : α} {len : Option Nat} {s1 s2 : List (Slot α)}
    {acc : TAcc α} (ha : acc.errs = []) (hd : Done t (slotLoop t input len s1 acc)) :
    slotLoop t input len (s1 ++ s2) acc
      = slotLoop t input len s2 (slotLoop t input len s1 acc).1 := by
  rw [slotLoop_append t input len s1 s2 acc (by simp [ha])]
  obtain ⟨h1, h2⟩ := hd
  generalize slotLoop t input len s1 acc = r at *
  obtain ⟨a, e⟩ := r
  dsimp only at h1 h2
  subst h1
  dsimp only
  rw [h2]; rfl

theorem not_done_append {t : TupleV α} {input : α} {len : Option Nat} {s1 s2 : List (Slot α)}
    {acc : TAcc α} (ha : acc.errs = []) (hd : ¬ Done t (slotLoop t input len s1 acc)) :
    slotLoop t input len (s1 ++ s2) acc = slotLoop t input len s1 acc := by
  rw [slotLoop_append t input len s1 s2 acc (by simp [ha])]
  generalize slotLoop t input len s1 acc = r at *
  obtain ⟨a, e⟩ := r
  cases e with
  | some e => rfl
  | none =>
    dsimp only
    by_cases hf : (t.failFast && !a.errs.isEmpty) = true
    · rw [if_pos hf]
    · exact absurd ⟨rfl, by simpa using hf⟩ hd

theorem done_iff_cond (t : TupleV α) (r : TRes α) :
    (r.2.isSome || (t.failFast && !r.1.errs.isEmpty)) = false ↔ Done t r := by
  unfold Done
  obtain ⟨a, e⟩ := r
  cases e <;> simp

instance (t : TupleV α) (r : TRes α) : Decidable (Done t r) :=
  decidable_of_iff _ (done_iff_cond t r)

theorem tupleVariable_slots (t : TupleV α) (input : α) (len : Option Nat)
    {tl : List (Except PyErr α)} (he : End tl) (it : TIter α) (xs : List α) (acc : TAcc α)
    (hsrc : Src it xs tl) (hcount : it.count = 0) (ha : acc.errs = []) :
    ∃ r it', tupleVariable t input len it acc = some (r, it') ∧
      r = (if t.variadic.isNone ∧ Done t (slotLoop t input len (t.reported xs) acc) ∧
              t.head.length < xs.length
            then ((slotLoop t input len (t.reported xs) acc).1,
              some (.new (.tooLong "Tuple" t.head.length len) input))
            else slotLoop t input len (t.reported xs) acc) ∧
      (∃ zs, Src it' zs tl) ∧ (Done t r → it'.err = none → tl = []) := by
  have ha' : (t.failFast && !acc.errs.isEmpty) = false := by simp [ha]
  obtain ⟨h1, zs, h2, h3⟩ := tupleItems_slots t input len he t.head it xs acc hsrc
  rw [hcount] at h1 h3
  unfold tupleVariable TupleV.reported
  generalize hR : tupleItems t input len t.head it acc = R at h1 h2 h3
  cases hv : t.variadic with
  | none =>
    dsimp only
    rw [← h1]
    by_cases hd : Done t R.1
    · obtain ⟨rfl, -⟩ := h3 ha' hd
      have hc := (done_iff_cond t R.1).2 hd
      rw [if_neg (by simp [hc])]
      by_cases hlt : t.head.length < xs.length
      · rw [if_pos ⟨rfl, hd, hlt⟩]
        obtain ⟨y, ys, hy⟩ : ∃ y ys, xs.drop t.head.length = y :: ys := by
          cases hx : xs.drop t.head.length with
          | nil => rw [List.drop_eq_nil_iff] at hx; omega
          | cons y ys => exact ⟨y, ys, rfl⟩
        rw [hy] at h2
        obtain ⟨p1, p2, -, -⟩ := src_pull_cons h2
        have hn : R.2.next.1 = some (R.2.count, y) := by unfold TIter.next; simp only; rw [p1]; rfl
        rw [hn]
        exact ⟨_, _, rfl, rfl, ⟨_, src_next p2⟩, fun hd => by cases hd.1⟩
      · rw [if_neg (by simp [hlt])]
        have hx : xs.drop t.head.length = [] := by rw [List.drop_eq_nil_iff]; omega
        rw [hx] at h2
        obtain ⟨p1, p2, -, p4⟩ := src_pull_nil he h2
        have hn : R.2.next.1 = none := by unfold TIter.next; simp only; rw [p1]; rfl
        rw [hn]
        exact ⟨_, _, rfl, rfl, ⟨_, src_next p2⟩, fun _ => p4⟩
    · have hc : (R.1.2.isSome || (t.failFast && !R.1.1.errs.isEmpty)) = true := by
        rw [← Bool.not_eq_false]; exact fun h => hd ((done_iff_cond t R.1).1 h)
      rw [if_pos hc, if_neg (by simp [hd])]
      exact ⟨_, _, rfl, rfl, ⟨_, h2⟩, fun h => absurd h hd⟩
  | some p =>
    obtain ⟨v, tail⟩ := p
    dsimp only
    simp only [Option.isNone_some, Bool.false_eq_true, false_and, if_false]
    rw [List.append_assoc]
    by_cases hd : Done t R.1
    · obtain ⟨rfl, hcnt⟩ := h3 ha' hd
      rw [Nat.zero_add] at hcnt
      have hc := (done_iff_cond t R.1).2 hd
      rw [if_neg (by simp [hc])]
      rw [done_append ha (h1 ▸ hd), ← h1]
      cases tail with
      | nil =>
        rw [if_pos List.isEmpty_nil]
        obtain ⟨i1, ws, i2, i3⟩ := variadicLoop_slots t input len he v (xs.drop t.head.length) R.2 R.1.1 h2
        change ∃ r it', some ((variadicLoop t input len v.validate (srcList R.2) R.2 R.1.1).1,
          (variadicLoop t input len v.validate (srcList R.2) R.2 R.1.1).2.2) = some (r, it') ∧ _
        refine ⟨_, _, rfl, ?_, ⟨ws, i2⟩, i3 hd.2⟩
        rw [i1, hcnt]
        simp [pairUp]
      | cons tv tail =>
        rw [if_neg (by simp)]
        generalize hk : tv :: tail = tail' at *
        have hk0 : 0 < tail'.length := by rw [← hk]; simp
        obtain ⟨b1, b2, b3⟩ := src_take he tail'.length R.2 _ h2
        generalize hB : R.2.takeInner tail'.length = B at *
        rw [List.drop_drop] at b2
        have hbuf : xs.drop (t.head.length + tail'.length) ≠ [] → B.1 ≠ [] := by
          intro hne hb
          rw [b1, List.take_eq_nil_iff] at hb
          rcases hb with hb | hb
          · omega
          · apply hne; rw [← List.drop_drop, hb]; simp
        obtain ⟨i1, ret, idx, buf, it', i2, ⟨ws, i3⟩, i4, i5⟩ :=
          bufferLoop_slots t input len he v (xs.drop (t.head.length + tail'.length)) B.2 B.2.count B.1
            R.1.1 b2 hbuf
        have hm : (xs.drop (t.head.length + tail'.length)).length
            = xs.length - t.head.length - tail'.length := by rw [List.length_drop]; omega
        have happ : B.1 ++ xs.drop (t.head.length + tail'.length) = xs.drop t.head.length := by
          rw [b1, ← List.drop_drop, List.take_append_drop]
        rw [happ, hm] at i1 i4
        generalize hm' : xs.length - t.head.length - tail'.length = m at *
        have hpt : pairUp (List.replicate m v) B.2.count ((xs.drop t.head.length).take m)
            = pairUp (List.replicate m v) t.head.length (xs.drop t.head.length) := by
          have := pairUp_take (List.replicate m v) B.2.count (xs.drop t.head.length)
          rw [List.length_replicate] at this
          rw [this, b3, hcnt]
        rw [hpt] at i1
        change ∃ r it', (match (bufferLoop t input len v.validate (srcList B.2) B.2 B.2.count B.1 R.1.1).2 with
          | none => none
          | some (returned, index, buffer, it) =>
            if ((bufferLoop t input len v.validate (srcList B.2) B.2 B.2.count B.1 R.1.1).1.2.isSome
                || returned) = true then
              some ((bufferLoop t input len v.validate (srcList B.2) B.2 B.2.count B.1 R.1.1).1, it)
            else some ((tupleItems t input len tail' ⟨buffer.map .ok, 0, none, index⟩
              (bufferLoop t input len v.validate (srcList B.2) B.2 B.2.count B.1 R.1.1).1.1).1, it))
            = some (r, it') ∧ _
        generalize bufferLoop t input len v.validate (srcList B.2) B.2 B.2.count B.1 R.1.1 = Q at *
        rw [i2]
        dsimp only
        have hRe : (t.failFast && !R.1.1.errs.isEmpty) = false := hd.2
        by_cases hq : Done t Q.1
        · obtain ⟨j1, j2, j3, j4⟩ := i4 hRe hq
          subst j1
          have hqn := hq.1
          rw [if_neg (by simp [hqn])]
          have hsrcT : Src (⟨buf.map .ok, 0, none, idx⟩ : TIter α) buf [] := .inl ⟨rfl, by simp⟩
          obtain ⟨k1, -⟩ := tupleItems_slots t input len (.inl rfl) tail' _ buf Q.1.1 hsrcT
          refine ⟨_, it', rfl, ?_, ⟨ws, i3⟩, fun _ => j4⟩
          rw [k1, slotLoop_append t input len _ _ R.1.1 hRe, ← i1]
          dsimp only
          rw [hqn]
          dsimp only
          rw [hq.2, if_neg (by simp)]
          congr 2
          · rw [j3]
            by_cases hm0 : m = 0
            · rw [if_pos hm0, if_pos (List.eq_nil_of_length_eq_zero (by rw [hm]; exact hm0)), b3, hcnt]
            · rw [if_neg hm0, if_neg (by intro h; rw [h] at hm; simp at hm; omega), b3, hcnt]
          · rw [j2, List.drop_drop]
        · have hcond : (Q.1.2.isSome || ret) = true := by
            cases hqe : Q.1.2 with
            | some e => rfl
            | none => rw [i5 hqe hq hRe]; rfl
          rw [if_pos hcond]
          refine ⟨_, it', rfl, ?_, ⟨ws, i3⟩, fun h => absurd h hq⟩
          rw [slotLoop_append t input len _ _ R.1.1 hRe, ← i1]
          obtain ⟨⟨qa, qe⟩, q2⟩ := Q
          dsimp only
          cases qe with
          | some e => rfl
          | none =>
            dsimp only
            by_cases hf : (t.failFast && !qa.errs.isEmpty) = true
            · rw [if_pos hf]
            · exact absurd ⟨rfl, by simpa using hf⟩ hq
    · have hc : (R.1.2.isSome || (t.failFast && !R.1.1.errs.isEmpty)) = true := by
        rw [← Bool.not_eq_false]; exact fun h => hd ((done_iff_cond t R.1).1 h)
      rw [if_pos hc]
      refine ⟨_, _, rfl, ?_, ⟨_, h2⟩, fun h => absurd h hd⟩
      rw [not_done_append ha (h1 ▸ hd)]
      exact h1

end PC.Coll

/-! ### The loop over positions -/

namespace PC.Coll
variable {α : Type}

/-- Absent items come last. -/
def Ordered (L : List (Slot α)) : Prop := L.Pairwise (fun a b => a.value = none → b.value = none)

theorem pairUp_missing (vs : List (TItem α)) : ∀ c, ∀ s ∈ pairUp vs c ([] : List α), s.value = none := by
  induction vs with
  | nil => intro c s hs; simp [pairUp] at hs
  | cons v vs ih =>
    intro c s hs
    simp only [pairUp, List.mem_cons] at hs
    rcases hs with rfl | hs
    · rfl
    · exact ih _ s hs

theorem pairUp_ordered (vs : List (TItem α)) : ∀ c xs, Ordered (pairUp vs c xs) := by
  induction vs with
  | nil => intro c xs; exact List.Pairwise.nil
  | cons v vs ih =>
    intro c xs
    cases xs with
    | nil =>
      exact List.Pairwise.cons (fun b hb _ => pairUp_missing vs _ b hb) (ih _ _)
    | cons x xs =>
      exact List.Pairwise.cons (fun b _ h => by cases h) (ih _ _)

/-- Change the reported index. -/
def Slot.shift (f : Nat → Nat) (s : Slot α) : Slot α := { s with index := f s.index }

theorem pairUp_shift (f : Nat → Nat) (vs : List (TItem α)) :
    ∀ (c c' : Nat) (xs : List α), (∀ i, c ≤ i → i < c + vs.length → f i = i - c + c') →
      (pairUp vs c xs).map (Slot.shift f) = pairUp vs c' xs := by
  induction vs with
  | nil => intro c c' xs _; rfl
  | cons v vs ih =>
    intro c c' xs h
    have h0 : f c = c' := by have := h c (Nat.le_refl _) (by simp); omega
    have hr : ∀ i, c + 1 ≤ i → i < c + 1 + vs.length → f i = i - (c + 1) + (c' + 1) := by
      intro i h1 h2
      have := h i (by omega) (by simp; omega)
      omega
    cases xs with
    | nil => simp only [pairUp, List.map_cons, ih _ _ _ hr, Slot.shift, h0]
    | cons x xs => simp only [pairUp, List.map_cons, ih _ _ _ hr, Slot.shift, h0]

theorem slots_eq (t : TupleV α) (xs : List α) : t.slots xs = pairUp (t.layout xs.length) 0 xs := by
  rw [pairUp_eq]; rfl

theorem slots_ordered (t : TupleV α) (xs : List α) : Ordered (t.slots xs) := by
  rw [slots_eq]; exact pairUp_ordered _ _ _

theorem reported_eq (t : TupleV α) (xs : List α) :
    t.reported xs = (t.slots xs).map (Slot.shift (t.reportedIndex xs.length)) := by
  rw [slots_eq]
  unfold TupleV.reported TupleV.layout
  cases hv : t.variadic with
  | none =>
    dsimp only
    refine (pairUp_shift _ _ 0 0 xs ?_).symm
    intro i _ _
    simp [TupleV.reportedIndex, hv]
  | some p =>
    obtain ⟨v, tail⟩ := p
    dsimp only
    rw [pairUp_append, pairUp_append, List.map_append, List.map_append]
    simp only [Nat.zero_add, List.length_append, List.length_replicate]
    congr 1
    · congr 1
      · symm; apply pairUp_shift
        intro i _ hi
        simp only [TupleV.reportedIndex, hv]
        rw [if_neg (by omega)]; omega
      · symm; apply pairUp_shift
        intro i _ hi
        simp only [TupleV.reportedIndex, hv]
        rw [List.length_replicate] at hi
        rw [if_neg (by omega)]; omega
    · symm; apply pairUp_shift
      intro i hi hi2
      simp only [TupleV.reportedIndex, hv]
      split <;> split <;> omega

theorem slotVisits_shift (f : Nat → Nat) (L : List (Slot α)) :
    ∀ st, (∀ s ∈ L, s.value = none → f s.index = s.index) →
      slotVisits (L.map (Slot.shift f)) st = (slotVisits L st).map (fun x => (f x.1, x.2)) := by
  induction L with
  | nil => intro st _; rfl
  | cons s L ih =>
    intro st h
    rw [List.forall_mem_cons] at h
    have hrun : (Slot.shift f s).run st = s.run st := by
      unfold Slot.run
      show (match s.value with | some a => _ | none => _) = _
      cases hs : s.value with
      | some a => rfl
      | none =>
        dsimp only
        have : (Slot.shift f s).index = s.index := h.1 hs
        rw [this]; rfl
    simp only [List.map_cons, slotVisits, hrun]
    rw [ih _ h.2]
    rfl

theorem slots_missing_index (t : TupleV α) (xs : List α) :
    ∀ s ∈ t.slots xs, s.value = none → t.reportedIndex xs.length s.index = s.index := by
  intro s hs hn
  unfold TupleV.slots at hs
  rw [List.mem_map] at hs
  obtain ⟨p, hp, rfl⟩ := hs
  have hlen := (List.mem_zipIdx hp).2.1
  rw [Nat.zero_add] at hlen
  dsimp only at hn ⊢
  rw [List.getElem?_eq_none_iff] at hn
  unfold TupleV.reportedIndex
  unfold TupleV.layout at hlen
  cases hv : t.variadic with
  | none => rfl
  | some q =>
    obtain ⟨v, tail⟩ := q
    rw [hv] at hlen
    dsimp only at hlen ⊢
    simp only [List.length_append, List.length_replicate] at hlen
    rw [if_neg (by omega)]

theorem visits_reported (t : TupleV α) (xs : List α) (st : VState α) :
    slotVisits (t.reported xs) st
      = (slotVisits (t.slots xs) st).map (fun x => (t.reportedIndex xs.length x.1, x.2)) := by
  rw [reported_eq]
  exact slotVisits_shift _ _ st (slots_missing_index t xs)

theorem reported_ordered (t : TupleV α) (xs : List α) : Ordered (t.reported xs) := by
  rw [reported_eq]
  unfold Ordered
  rw [List.pairwise_map]
  exact slots_ordered t xs

/-- The item schema of a position rejects with at least one error. -/
def SlotRejects (L : List (Slot α)) : Prop := ∀ s ∈ L, RejectsWithErrors s.item.validate

theorem pairUp_item (vs : List (TItem α)) : ∀ c xs, ∀ s ∈ pairUp vs c xs, s.item ∈ vs := by
  induction vs with
  | nil => intro c xs s hs; simp [pairUp] at hs
  | cons v vs ih =>
    intro c xs s hs
    cases xs with
    | nil =>
      simp only [pairUp, List.mem_cons] at hs
      rcases hs with rfl | hs
      · simp
      · exact List.mem_cons_of_mem _ (ih _ _ s hs)
    | cons x xs =>
      simp only [pairUp, List.mem_cons] at hs
      rcases hs with rfl | hs
      · simp
      · exact List.mem_cons_of_mem _ (ih _ _ s hs)

theorem reported_rejects (t : TupleV α) (ht : t.Rejects) (xs : List α) :
    SlotRejects (t.reported xs) := by
  intro s hs
  rw [reported_eq, List.mem_map] at hs
  obtain ⟨s', hs', rfl⟩ := hs
  rw [slots_eq] at hs'
  have := pairUp_item _ _ _ s' hs'
  show RejectsWithErrors s'.item.validate
  unfold TupleV.layout at this
  cases hv : t.variadic with
  | none => rw [hv] at this; exact ht.1 _ this
  | some q =>
    obtain ⟨v, tail⟩ := q
    rw [hv] at this
    dsimp only at this
    rw [List.mem_append, List.mem_append] at this
    obtain ⟨h1, h2⟩ := ht.2 v tail hv
    rcases this with (h | h) | h
    · exact ht.1 _ h
    · rw [List.eq_of_mem_replicate h]; exact h1
    · exact h2 _ h

theorem missing_values (L : List (Slot α)) :
    ∀ st, (∀ s ∈ L, s.value = none) → slotValues (slotVisits L st) = [] := by
  induction L with
  | nil => intro st _; rfl
  | cons s L ih =>
    intro st h
    rw [List.forall_mem_cons] at h
    unfold slotValues slotVisits
    rw [List.flatMap_cons, List.append_eq_nil_iff]
    refine ⟨?_, ih _ h.2⟩
    unfold Slot.run
    rw [h.1]
    dsimp only
    cases (s.item.default s.index st).1 with
    | error e => rfl
    | ok o => cases o <;> rfl

/-- What one step does, by the result at the position. -/
theorem slotStep_eq (t : TupleV α) (input : α) (len : Option Nat) (s : Slot α) (acc : TAcc α) :
    slotStep t input len s acc =
      match (s.run acc.st).1 with
      | .value o => pushOutputItem t input len { acc with st := (s.run acc.st).2 } o
      | .default o => (⟨acc.out ++ [o], acc.errs, (s.run acc.st).2⟩, none)
      | .skipped => (⟨acc.out, acc.errs, (s.run acc.st).2⟩, none)
      | .stop e => (⟨acc.out, acc.errs, (s.run acc.st).2⟩, some e)
      | .errs ls => (⟨acc.out, acc.errs ++ ls.map (·.withOuterLocation (.i s.index)), (s.run acc.st).2⟩, none)
      | .missing => (⟨acc.out, acc.errs ++ [.newWithLoc .missing input (.i s.index)], (s.run acc.st).2⟩, none) := by
  unfold slotStep Slot.run
  cases s.value with
  | some a =>
    dsimp only
    unfold tupleItem
    dsimp only
    generalize s.item.validate a acc.st = r
    obtain ⟨r1, r2⟩ := r
    rcases r1 with e | o
    · cases e <;> rfl
    · rfl
  | none =>
    dsimp only
    generalize s.item.default s.index acc.st = r
    obtain ⟨r1, r2⟩ := r
    rcases r1 with e | o
    · rfl
    · cases o <;> rfl

theorem run_not_empty {s : Slot α} (hs : RejectsWithErrors s.item.validate) (st : VState α) :
    (s.run st).1 ≠ .errs [] := by
  unfold Slot.run
  cases s.value with
  | some a =>
    dsimp only
    have := hs a st
    generalize s.item.validate a st = r at *
    obtain ⟨r1, r2⟩ := r
    dsimp only at this ⊢
    rcases r1 with e | o
    · cases e <;> simp_all
    · simp
  | none =>
    dsimp only
    generalize s.item.default s.index st = r
    obtain ⟨r1, r2⟩ := r
    rcases r1 with e | o
    · simp
    · cases o <;> simp

theorem push_eq (t : TupleV α) (input : α) (len : Option Nat) (acc : TAcc α) (o : α) :
    (FitsMax t.maxLength (acc.out.length + 1) ∧
      pushOutputItem t input len acc o = (⟨acc.out ++ [o], acc.errs, acc.st⟩, none)) ∨
    (∃ m, t.maxLength = some m ∧ m < acc.out.length + 1 ∧
      pushOutputItem t input len acc o = (⟨acc.out ++ [o], acc.errs, acc.st⟩,
        some (.new (.tooLong "Tuple" m len) input))) := by
  unfold pushOutputItem
  cases hm : t.maxLength with
  | none => left; exact ⟨fun m h => (by cases h), by simp⟩
  | some m =>
    by_cases hlt : m < acc.out.length + 1
    · right; refine ⟨m, rfl, hlt, ?_⟩
      simp [Option.filter, hlt]
    · left; refine ⟨fun m' h => by cases h; omega, ?_⟩
      simp [Option.filter, hlt]

theorem slotVisits_cons (s : Slot α) (L : List (Slot α)) (st : VState α) :
    slotVisits (s :: L) st = (s.index, (s.run st).1) :: slotVisits L (s.run st).2 := rfl

theorem slotValues_cons (x : Nat × SlotResult α) (vs) :
    slotValues (x :: vs) = x.2.values ++ slotValues vs := rfl

theorem slotOutputs_cons (x : Nat × SlotResult α) (vs) :
    slotOutputs (x :: vs) = x.2.outputs ++ slotOutputs vs := rfl

/-- What follows a step. -/
def contSlots (t : TupleV α) (input : α) (len : Option Nat) (L : List (Slot α)) (r : TRes α) :
    TRes α :=
  match r.2 with
  | some e => (r.1, some e)
  | none => if t.failFast && !r.1.errs.isEmpty then (r.1, none) else slotLoop t input len L r.1

theorem slotLoop_step (t : TupleV α) (input : α) (len : Option Nat) (s : Slot α)
    (L : List (Slot α)) (acc : TAcc α) :
    slotLoop t input len (s :: L) acc = contSlots t input len L (slotStep t input len s acc) := rfl

theorem cont_some (t : TupleV α) (input : α) (len : Option Nat) (L : List (Slot α)) (acc : TAcc α)
    (e : ValError α) : contSlots t input len L (acc, some e) = (acc, some e) := rfl

theorem cont_clean (t : TupleV α) (input : α) (len : Option Nat) (L : List (Slot α)) (acc : TAcc α)
    (h : acc.errs = []) : contSlots t input len L (acc, none) = slotLoop t input len L acc := by
  unfold contSlots; simp [h]

theorem cont_slow (t : TupleV α) (input : α) (len : Option Nat) (L : List (Slot α)) (acc : TAcc α)
    (h : t.failFast = false) : contSlots t input len L (acc, none) = slotLoop t input len L acc := by
  unfold contSlots; simp [h]

theorem slotLoop_errs_ne (t : TupleV α) (input : α) (len : Option Nat) {out : List α}
    {st' : VState α} (L : List (Slot α)) : ∀ acc : TAcc α, acc.errs ≠ [] →
    contSlots t input len L (acc, none) ≠ (⟨out, [], st'⟩, none) := by
  induction L with
  | nil =>
    intro acc hne h
    unfold contSlots at h
    dsimp only [slotLoop] at h
    split at h <;> (cases h; exact hne rfl)
  | cons s L ih =>
    intro acc hne h
    unfold contSlots at h
    dsimp only at h
    split at h
    · cases h; exact hne rfl
    rw [slotLoop_step, slotStep_eq] at h
    generalize s.run acc.st = r at h
    obtain ⟨res, st1⟩ := r
    cases res with
    | value o =>
      dsimp only at h
      rcases push_eq t input len { acc with st := st1 } o with ⟨_, hp⟩ | ⟨m, _, _, hp⟩
      · rw [hp] at h; exact ih ⟨acc.out ++ [o], acc.errs, st1⟩ hne h
      · rw [hp] at h; exact absurd (congrArg Prod.snd h) (by simp [contSlots])
    | default o => exact ih ⟨acc.out ++ [o], acc.errs, st1⟩ hne h
    | skipped => exact ih ⟨acc.out, acc.errs, st1⟩ hne h
    | errs ls => exact ih ⟨acc.out, acc.errs ++ ls.map (·.withOuterLocation (.i s.index)), st1⟩ (by simp [hne]) h
    | missing => exact ih ⟨acc.out, acc.errs ++ [.newWithLoc .missing input (.i s.index)], st1⟩ (by simp) h
    | stop e => exact absurd (congrArg Prod.snd h) (by simp [contSlots])

theorem slotLoop_accept (t : TupleV α) (input : α) (len : Option Nat) (L : List (Slot α)) :
    ∀ acc, SlotRejects L → Ordered L → acc.errs = [] → ∀ out,
      (∃ st', slotLoop t input len L acc = (⟨out, [], st'⟩, none)) ↔
        (∀ x ∈ slotVisits L acc.st, x.2.Fine) ∧ out = acc.out ++ slotOutputs (slotVisits L acc.st) ∧
        (slotValues (slotVisits L acc.st) ≠ [] →
          FitsMax t.maxLength (acc.out.length + (slotValues (slotVisits L acc.st)).length)) := by
  induction L with
  | nil =>
    intro acc _ _ he out
    obtain ⟨o, es, st⟩ := acc
    dsimp only at he
    subst he
    simp only [slotLoop, slotVisits, slotOutputs, slotValues, List.flatMap_nil, List.append_nil]
    constructor
    · rintro ⟨st', h⟩; cases h; simp
    · rintro ⟨-, h, -⟩; subst h; exact ⟨st, rfl⟩
  | cons s L ih =>
    intro acc hr ho he out
    obtain ⟨hr1, hr2⟩ := List.forall_mem_cons.1 hr
    obtain ⟨ho1, ho2⟩ := List.pairwise_cons.1 ho
    rw [slotLoop_step, slotVisits_cons, List.forall_mem_cons, slotOutputs_cons, slotValues_cons,
      slotStep_eq]
    have hne := run_not_empty hr1 acc.st
    have hmiss : ∀ o, (s.run acc.st).1 = .default o →
        slotValues (slotVisits L (s.run acc.st).2) = [] := by
      intro o hd
      have hv : s.value = none := by
        cases hv : s.value with
        | none => rfl
        | some a =>
          exfalso
          unfold Slot.run at hd
          rw [hv] at hd
          dsimp only at hd
          generalize (s.item.validate a acc.st).1 = r at hd
          rcases r with e | o
          · cases e <;> cases hd
          · cases hd
      exact missing_values L _ (fun b hb => ho1 b hb hv)
    generalize s.run acc.st = r at *
    obtain ⟨res, st'⟩ := r
    dsimp only at hne hmiss ⊢
    cases res with
    | value o =>
      dsimp only
      rcases push_eq t input len { acc with st := st' } o with ⟨hf, hp⟩ | ⟨m, hm, hlt, hp⟩
      · rw [hp, cont_clean t input len L ⟨acc.out ++ [o], acc.errs, st'⟩ he]
        have := ih ⟨acc.out ++ [o], acc.errs, st'⟩ hr2 ho2 he out
        dsimp only at this ⊢
        rw [this]
        rw [List.length_append, List.length_singleton]
        constructor
        · rintro ⟨a, b, c⟩
          refine ⟨⟨trivial, a⟩, by simpa [SlotResult.outputs] using b, fun _ => ?_⟩
          by_cases hz : slotValues (slotVisits L st') = []
          · simpa [SlotResult.values, hz] using hf
          · have := c hz
            simp only [SlotResult.values, List.length_append, List.length_singleton]
            rwa [← Nat.add_assoc]
        · rintro ⟨⟨-, a⟩, b, c⟩
          refine ⟨a, by simpa [SlotResult.outputs] using b, fun _ => ?_⟩
          have := c (by simp [SlotResult.values])
          simp only [SlotResult.values, List.length_append, List.length_singleton] at this
          rwa [← Nat.add_assoc] at this
      · rw [hp, cont_some]
        constructor
        · rintro ⟨_, h⟩; exact absurd (congrArg Prod.snd h) (by simp)
        · rintro ⟨-, -, c⟩
          have := c (by simp [SlotResult.values]) m hm
          simp only [SlotResult.values, List.length_append, List.length_singleton] at this
          dsimp only at hlt
          omega
    | default o =>
      dsimp only
      rw [cont_clean t input len L ⟨acc.out ++ [o], acc.errs, st'⟩ he]
      have := ih ⟨acc.out ++ [o], acc.errs, st'⟩ hr2 ho2 he out
      dsimp only at this ⊢
      rw [this]
      have hz := hmiss o rfl
      rw [hz]
      simp [SlotResult.values, SlotResult.outputs, SlotResult.Fine]
    | skipped =>
      dsimp only
      rw [cont_clean t input len L ⟨acc.out, acc.errs, st'⟩ he]
      have := ih ⟨acc.out, acc.errs, st'⟩ hr2 ho2 he out
      dsimp only at this ⊢
      rw [this]
      simp [SlotResult.values, SlotResult.outputs, SlotResult.Fine]
    | stop e =>
      dsimp only
      rw [cont_some]
      constructor
      · rintro ⟨_, h⟩; exact absurd (congrArg Prod.snd h) (by simp)
      · rintro ⟨⟨h, -⟩, -⟩; exact h.elim
    | errs ls =>
      have hls : ls ≠ [] := fun h => hne (by rw [h])
      constructor
      · rintro ⟨st'', h⟩
        exact absurd h (slotLoop_errs_ne t input len L _ (by rw [he]; simpa using hls))
      · rintro ⟨⟨h, -⟩, -⟩; exact h.elim
    | missing =>
      constructor
      · rintro ⟨st'', h⟩
        exact absurd h (slotLoop_errs_ne t input len L _ (by simp))
      · rintro ⟨⟨h, -⟩, -⟩; exact h.elim

theorem slotLoop_full (t : TupleV α) (hff : t.failFast = false) (input : α) (len : Option Nat)
    (L : List (Slot α)) : ∀ acc, Ordered L →
      (∀ x ∈ slotVisits L acc.st, x.2.Plain) →
      (slotValues (slotVisits L acc.st) ≠ [] →
        FitsMax t.maxLength (acc.out.length + (slotValues (slotVisits L acc.st)).length)) →
      ∃ st', slotLoop t input len L acc = (⟨acc.out ++ slotOutputs (slotVisits L acc.st),
        acc.errs ++ (slotVisits L acc.st).flatMap (slotErrors input), st'⟩, none) := by
  induction L with
  | nil => intro acc _ _ _; exact ⟨acc.st, by simp [slotLoop, slotVisits, slotOutputs]⟩
  | cons s L ih =>
    intro acc ho hp hm
    obtain ⟨ho1, ho2⟩ := List.pairwise_cons.1 ho
    rw [slotVisits_cons] at hp hm ⊢
    rw [List.forall_mem_cons] at hp
    obtain ⟨hp1, hp2⟩ := hp
    rw [slotLoop_step, slotStep_eq]
    rw [slotOutputs_cons, List.flatMap_cons]
    rw [slotValues_cons] at hm
    have hmiss : ∀ o, (s.run acc.st).1 = .default o →
        slotValues (slotVisits L (s.run acc.st).2) = [] := by
      intro o hd
      have hv : s.value = none := by
        cases hv : s.value with
        | none => rfl
        | some a =>
          exfalso
          unfold Slot.run at hd
          rw [hv] at hd
          dsimp only at hd
          generalize (s.item.validate a acc.st).1 = r at hd
          rcases r with e | o
          · cases e <;> cases hd
          · cases hd
      exact missing_values L _ (fun b hb => ho1 b hb hv)
    generalize s.run acc.st = r at *
    obtain ⟨res, st'⟩ := r
    dsimp only at hmiss hp1 hp2 hm ⊢
    cases res with
    | value o =>
      dsimp only
      rcases push_eq t input len { acc with st := st' } o with ⟨hf, he⟩ | ⟨m, hm', hlt, he⟩
      · rw [he, cont_slow _ _ _ _ _ hff]
        obtain ⟨st'', h⟩ := ih ⟨acc.out ++ [o], acc.errs, st'⟩ ho2 hp2 (by
          intro hz
          have := hm (by simp [SlotResult.values])
          simp only [SlotResult.values, List.length_append, List.length_singleton] at this
          dsimp only
          rw [List.length_append, List.length_singleton]
          rwa [← Nat.add_assoc] at this)
        exact ⟨st'', by rw [h]; simp [slotErrors, SlotResult.outputs]⟩
      · exfalso
        have := hm (by simp [SlotResult.values]) m hm'
        simp only [SlotResult.values, List.length_append, List.length_singleton] at this
        dsimp only at hlt
        omega
    | default o =>
      obtain ⟨st'', h⟩ := ih ⟨acc.out ++ [o], acc.errs, st'⟩ ho2 hp2 (by
        intro hz; exact absurd (hmiss o rfl) hz)
      exact ⟨st'', by dsimp only; rw [cont_slow _ _ _ _ _ hff, h]; simp [slotErrors, SlotResult.outputs]⟩
    | skipped =>
      obtain ⟨st'', h⟩ := ih ⟨acc.out, acc.errs, st'⟩ ho2 hp2 hm
      exact ⟨st'', by dsimp only; rw [cont_slow _ _ _ _ _ hff, h]; simp [slotErrors, SlotResult.outputs]⟩
    | errs ls =>
      obtain ⟨st'', h⟩ := ih ⟨acc.out, acc.errs ++ ls.map (·.withOuterLocation (.i s.index)), st'⟩ ho2 hp2 hm
      exact ⟨st'', by dsimp only; rw [cont_slow _ _ _ _ _ hff, h]; simp [slotErrors, SlotResult.outputs]⟩
    | missing =>
      obtain ⟨st'', h⟩ := ih ⟨acc.out, acc.errs ++ [.newWithLoc .missing input (.i s.index)], st'⟩ ho2 hp2 hm
      exact ⟨st'', by dsimp only; rw [cont_slow _ _ _ _ _ hff, h]; simp [slotErrors, SlotResult.outputs]⟩
    | stop e => exact hp1.elim

theorem slotLoop_too_long (t : TupleV α) (hff : t.failFast = false) (input : α) (len : Option Nat)
    (m : Nat) (hmax : t.maxLength = some m) (L : List (Slot α)) : ∀ acc, Ordered L →
      (∀ x ∈ slotVisits L acc.st, x.2.Plain) → acc.out.length ≤ m →
      m < acc.out.length + (slotValues (slotVisits L acc.st)).length →
      ∃ acc', slotLoop t input len L acc = (acc', some (.new (.tooLong "Tuple" m len) input)) := by
  induction L with
  | nil => intro acc _ _ h1 h2; simp [slotVisits, slotValues] at h2; omega
  | cons s L ih =>
    intro acc ho hp h1 h2
    obtain ⟨ho1, ho2⟩ := List.pairwise_cons.1 ho
    by_cases hv : s.value = none
    · exfalso
      have := missing_values (s :: L) acc.st (List.forall_mem_cons.2 ⟨hv, fun b hb => ho1 b hb hv⟩)
      rw [this] at h2; simp at h2; omega
    have hnd : ∀ o, (s.run acc.st).1 ≠ .default o := by
      intro o hd
      unfold Slot.run at hd
      cases hv' : s.value with
      | none => exact hv hv'
      | some a =>
        rw [hv'] at hd
        dsimp only at hd
        generalize (s.item.validate a acc.st).1 = r at hd
        rcases r with e | o
        · cases e <;> cases hd
        · cases hd
    rw [slotVisits_cons] at hp h2
    rw [List.forall_mem_cons] at hp
    obtain ⟨hp1, hp2⟩ := hp
    rw [slotLoop_step, slotStep_eq]
    rw [slotValues_cons, List.length_append] at h2
    generalize s.run acc.st = r at *
    obtain ⟨res, st'⟩ := r
    dsimp only at hnd hp1 hp2 h2 ⊢
    cases res with
    | value o =>
      dsimp only
      rcases push_eq t input len { acc with st := st' } o with ⟨hf, he⟩ | ⟨m', hm', hlt, he⟩
      · rw [he, cont_slow _ _ _ _ _ hff]
        dsimp only
        have hf' := hf m hmax
        apply ih _ ho2 hp2
        · simpa using hf'
        · simp only [SlotResult.values, List.length_singleton, List.length_append] at h2 ⊢; omega
      · rw [he, cont_some]
        rw [hmax] at hm'
        cases hm'
        exact ⟨_, rfl⟩
    | default o => exact absurd rfl (hnd o)
    | skipped => dsimp only; rw [cont_slow _ _ _ _ _ hff]; exact ih ⟨acc.out, acc.errs, st'⟩ ho2 hp2 h1 (by simpa [SlotResult.values] using h2)
    | errs ls =>
      dsimp only; rw [cont_slow _ _ _ _ _ hff]
      exact ih ⟨acc.out, acc.errs ++ ls.map (·.withOuterLocation (.i s.index)), st'⟩ ho2 hp2 h1
        (by simpa [SlotResult.values] using h2)
    | missing =>
      dsimp only; rw [cont_slow _ _ _ _ _ hff]
      exact ih ⟨acc.out, acc.errs ++ [.newWithLoc .missing input (.i s.index)], st'⟩ ho2 hp2 h1
        (by simpa [SlotResult.values] using h2)
    | stop e => exact hp1.elim

end PC.Coll
