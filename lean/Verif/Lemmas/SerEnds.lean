import Verif.Lemmas.SerTupleItems
import Verif.Model.SerSchema
import Verif.Lemmas.EngineBuild

namespace PC.Infer
open PC.Float (F64)
open PC.Filter (FVal Filt indexFilter keyFilter)
open PC.Engine (Inv enter_inv leave_inv)

variable {α : Type}

/-- Equal outcomes, with a guard as `P` says. -/
def Step (P : Guard.State → Prop) {O : Type} (p q : Except SErr O × St) : Prop := p = q ∧ P p.2.guard

/-- Two serialisers do the same when started with a guard as `P` says, and leave it so. -/
structure AtFn (P : Guard.State → Prop) (f f' : SerFn α) : Prop where
  py : ∀ x a incl excl st, P st.guard → Step P (f.py x a incl excl st) (f'.py x a incl excl st)
  json : ∀ x a incl excl st, P st.guard → Step P (f.json x a incl excl st) (f'.json x a incl excl st)

section steps
variable {P : Guard.State → Prop}

theorem Step.cases {O : Type} {p q : Except SErr O × St} (h : Step P p q) :
    (∃ e st, p = (.error e, st) ∧ q = (.error e, st) ∧ P st.guard)
      ∨ ∃ o st, p = (.ok o, st) ∧ q = (.ok o, st) ∧ P st.guard := by
  obtain ⟨rfl, h⟩ := h
  obtain ⟨r, st⟩ := p
  cases r with
  | error e => exact .inl ⟨e, st, rfl, rfl, h⟩
  | ok o => exact .inr ⟨o, st, rfl, rfl, h⟩

theorem Step.refl {O : Type} {r : Except SErr O} {st : St} (h : P st.guard) : Step P (r, st) (r, st) := ⟨rfl, h⟩

theorem Step.map {O O' : Type} {f : O → O'} {p q : Except SErr O × St} (h : Step P p q) :
    Step P (mapM f p) (mapM f q) := by
  rcases h.cases with ⟨e, st, rfl, rfl, h'⟩ | ⟨o, st, rfl, rfl, h'⟩ <;> exact .refl h'

/-! ### Keys leave the guard alone -/

theorem onFallback_guard (W : World α) (name : Text) (x : Extra α) (a : α) (st : St) :
    (onFallback W name x a st).2.guard = st.guard := by
  unfold onFallback
  split
  · rfl
  · split <;> rfl

theorem fallbackKey_guard (E : Env α) (name : Text) (x : Extra α) (a : α) (st : St) :
    (fallbackKey E name x a st).2.guard = st.guard := by
  have h := onFallback_guard E.world name x a st
  unfold fallbackKey
  cases ho : onFallback E.world name x a st with
  | mk r st1 =>
    rw [ho] at h
    cases r <;> exact h

theorem invalidKey_guard (E : Env α) (name : Text) (x : Extra α) (a : α) (st : St) :
    (invalidAsJsonKey E name x a st).2.guard = st.guard := by
  unfold invalidAsJsonKey
  split
  · rfl
  · exact fallbackKey_guard ..

theorem leafKey_guard (E : Env α) (l : Leaf) : ∀ (x : Extra α) (a : α) (st : St),
    (leafKey E l x a st).2.guard = st.guard := by
  have henum : ∀ (cls : Nat) (key : KeyFn α), (∀ x a st, (key x a st).2.guard = st.guard) →
      ∀ x a st, (enumKey E cls key x a st).2.guard = st.guard := by
    intro cls key hk x a st
    simp only [enumKey]
    repeat' (first | rfl | exact hk .. | exact fallbackKey_guard .. | split)
  induction l with
  | enum cls => exact henum cls _ fun _ _ _ => rfl
  | enumOf cls sub ih => exact henum cls _ ih
  | _ =>
    intro x a st
    simp only [leafKey]
    repeat' (first | rfl | exact fallbackKey_guard .. | split)

theorem extraKeys_guard (E : Env α) (f : Filt) (x : Extra α) (len : Nat) : ∀ (i : Nat) (vs : List α) (b : Keys.KeyBuilder)
    (st : St), (extraKeys E f x len i vs b st).2.guard = st.guard
  | _, [], _, _ => rfl
  | i, v :: vs, b, st => by
    simp only [extraKeys]
    repeat' (first | rfl | exact extraKeys_guard .. | split)

theorem tupleKeys_guard (E : Env α) (f : Filt) (more : Bool) (x : Extra α) (len : Nat) : ∀ (i : Nat) (ks : List (KeyFn α))
    (vs : List α) (b : Keys.KeyBuilder) (st : St), (∀ k ∈ ks, ∀ x a st, (k x a st).2.guard = st.guard) →
    (tupleKeys E f more x len i ks vs b st).2.guard = st.guard
  | _, [], [], _, _, _ => rfl
  | _, _ :: _, [], _, _, _ => rfl
  | i, [], v :: vs, b, st, _ => by
    simp only [tupleKeys]
    split
    · exact extraKeys_guard ..
    · rfl
  | i, k :: ks, v :: vs, b, st, hk => by
    have ih := fun b st => tupleKeys_guard E f more x len (i + 1) ks vs b st (fun k h => hk k (List.mem_cons_of_mem _ h))
    have h := hk k (List.mem_cons_self ..) x v st
    simp only [tupleKeys]
    cases indexFilter f i Option.none Option.none (some len) with
    | error e => rfl
    | ok r =>
      cases r with
      | none => exact ih _ _
      | some r =>
        dsimp only
        cases hr : k x v st with
        | mk r st1 =>
          rw [hr] at h
          cases r with
          | error e => exact h
          | ok t => exact (ih _ _).trans h

theorem onFuncError_guard (x : Extra α) (e : FuncErr) (st : St) : (onFuncError x e st).2.guard = st.guard := by
  unfold onFuncError
  repeat' (first | rfl | split)

mutual
theorem keyWith_guard (E : Env α) (ref : Nat → KeyFn α) (href : ∀ d x a st, (ref d x a st).2.guard = st.guard) :
    ∀ (s : Schema α) (x : Extra α) (a : α) (st : St), (keyWith E ref s x a st).2.guard = st.guard
  | .any, x, a, st => rfl
  | .leaf l, x, a, st => leafKey_guard E l x a st
  | .nullable s, x, a, st => by
    simp only [keyWith]
    split
    · rfl
    · exact keyWith_guard E ref href s x a st
  | .list _ _ _, x, a, st => invalidKey_guard ..
  | .set _ _ _, x, a, st => invalidKey_guard ..
  | .dict _ _ _ _, x, a, st => invalidKey_guard ..
  | .model _ _ _ _ _, x, a, st => by
    simp only [keyWith, modelKey]
    repeat' (first | rfl | exact fallbackKey_guard .. | split)
  | .fields _ _, x, a, st => invalidKey_guard ..
  | .ref d, x, a, st => href d x a st
  | .dataclass _ _ _ _, x, a, st => by
    simp only [keyWith, dataclassKey]
    repeat' (first | rfl | exact fallbackKey_guard .. | split)
  | .jsonOrPython json _, x, a, st => keyWith_guard E ref href json x a st
  | .tuple name f v items, x, a, st => by
    simp only [keyWith, tupleSerKey]
    cases E.asTuple a with
    | none => exact fallbackKey_guard ..
    | some xs =>
      dsimp only
      split
      · rfl
      · exact tupleKeys_guard E f _ x _ _ _ _ _ st fun k hk => keyItems_guard E ref href items k (mem_tupleSers hk)
  | .function fi ret other, x, a, st => by
    simp only [keyWith, functionKey]
    split
    · cases callFunction E fi x a Option.none Option.none with
      | ok b => exact keyWith_guard E ref href ret x b st
      | error e =>
        have h := onFuncError_guard x e st
        dsimp only
        cases hr : onFuncError x e st with
        | mk r st1 =>
          rw [hr] at h
          cases r <;> exact h
    · exact keyWith_guard E ref href other x a st
theorem keyItems_guard (E : Env α) (ref : Nat → KeyFn α) (href : ∀ d x a st, (ref d x a st).2.guard = st.guard) :
    ∀ (items : Items α), ∀ k ∈ keyItems E ref items, ∀ (x : Extra α) (a : α) (st : St), (k x a st).2.guard = st.guard
  | .nil => by
    rw [keyItems]
    intro k hk
    cases hk
  | .cons s rest => by
    rw [keyItems]
    intro k hk
    rcases List.mem_cons.1 hk with rfl | hk
    · exact keyWith_guard E ref href s
    · exact keyItems_guard E ref href rest k hk
end

theorem refKey_guard (E : Env α) : ∀ n d x a st, (refKey E n d x a st).2.guard = st.guard
  | 0, _, _, _, _ => rfl
  | n + 1, d, x, a, st => keyWith_guard E _ (refKey_guard E n) (E.defs d) x a st

theorem keyOf_guard (E : Env α) (s : Schema α) (x : Extra α) (a : α) (st : St) :
    (keyOf E s x a st).2.guard = st.guard := keyWith_guard E _ (refKey_guard E _) s x a st

/-! ### Loops -/

theorem pySeq_at {rec rec' : SerFn α} (hr : AtFn P rec rec') (x : Extra α) :
    ∀ (xs : List α) (st : St), P st.guard →
      Step P (pySeq rec x xs st) (pySeq rec' x xs st)
  | [], st, h => .refl h
  | v :: vs, st, h => by
    simp only [pySeq]
    rcases (hr.py x v Option.none Option.none st h).cases with ⟨e, st1, h1, h2, h3⟩ | ⟨o, st1, h1, h2, h3⟩
    · rw [h1, h2]; exact .refl h3
    · rw [h1, h2]
      dsimp only
      rcases (pySeq_at hr x vs st1 h3).cases with ⟨e, st2, h4, h5, h6⟩ | ⟨o, st2, h4, h5, h6⟩
      · rw [h4, h5]; exact .refl h6
      · rw [h4, h5]; exact .refl h6

theorem jsonSeq_at {rec rec' : SerFn α} (hr : AtFn P rec rec') (x : Extra α) (incl excl : Option FVal) :
    ∀ (xs : List α) (st : St), P st.guard →
      Step P (jsonSeq rec x incl excl xs st) (jsonSeq rec' x incl excl xs st)
  | [], st, h => .refl h
  | v :: vs, st, h => by
    simp only [jsonSeq]
    rcases (hr.json x v incl excl st h).cases with ⟨e, st1, h1, h2, h3⟩ | ⟨o, st1, h1, h2, h3⟩
    · rw [h1, h2]; exact .refl h3
    · rw [h1, h2]
      dsimp only
      rcases (jsonSeq_at hr x incl excl vs st1 h3).cases with ⟨e, st2, h4, h5, h6⟩ | ⟨o, st2, h4, h5, h6⟩
      · rw [h4, h5]; exact .refl h6
      · rw [h4, h5]; exact .refl h6

theorem pySeqFilter_at {rec rec' : SerFn α} (hr : AtFn P rec rec') (x : Extra α) (len : Option Nat) (incl excl : Option FVal) :
    ∀ (i : Nat) (xs : List (Except SErr α)) (st : St), P st.guard →
      Step P (pySeqFilter rec x len incl excl i xs st) (pySeqFilter rec' x len incl excl i xs st)
  | _, [], st, h => .refl h
  | _, .error e :: _, st, h => .refl h
  | i, .ok v :: vs, st, h => by
    simp only [pySeqFilter]
    cases hf : indexFilter .any i incl excl len with
    | error e => exact .refl h
    | ok r =>
      cases r with
      | none => exact pySeqFilter_at hr x len incl excl (i + 1) vs st h
      | some r =>
        obtain ⟨ni, ne⟩ := r
        dsimp only
        rcases (hr.py x v ni ne st h).cases with ⟨e, st1, h1, h2, h3⟩ | ⟨o, st1, h1, h2, h3⟩
        · rw [h1, h2]; exact .refl h3
        · rw [h1, h2]
          dsimp only
          rcases (pySeqFilter_at hr x len incl excl (i + 1) vs st1 h3).cases with ⟨e, st2, h4, h5, h6⟩ | ⟨o, st2, h4, h5, h6⟩
          · rw [h4, h5]; exact .refl h6
          · rw [h4, h5]; exact .refl h6

theorem jsonSeqFilter_at {rec rec' : SerFn α} (hr : AtFn P rec rec') (x : Extra α) (len : Option Nat) (incl excl : Option FVal) :
    ∀ (i : Nat) (xs : List (Except SErr α)) (st : St), P st.guard →
      Step P (jsonSeqFilter rec x len incl excl i xs st) (jsonSeqFilter rec' x len incl excl i xs st)
  | _, [], st, h => .refl h
  | _, .error e :: _, st, h => .refl h
  | i, .ok v :: vs, st, h => by
    simp only [jsonSeqFilter]
    cases hf : indexFilter .any i incl excl len with
    | error e => exact .refl h
    | ok r =>
      cases r with
      | none => exact jsonSeqFilter_at hr x len incl excl (i + 1) vs st h
      | some r =>
        obtain ⟨ni, ne⟩ := r
        dsimp only
        rcases (hr.json x v ni ne st h).cases with ⟨e, st1, h1, h2, h3⟩ | ⟨o, st1, h1, h2, h3⟩
        · rw [h1, h2]; exact .refl h3
        · rw [h1, h2]
          dsimp only
          rcases (jsonSeqFilter_at hr x len incl excl (i + 1) vs st1 h3).cases with ⟨e, st2, h4, h5, h6⟩ | ⟨o, st2, h4, h5, h6⟩
          · rw [h4, h5]; exact .refl h6
          · rw [h4, h5]; exact .refl h6

theorem listPy_at {rec rec' : SerFn α} (hr : AtFn P rec rec') (f : Filt) (x : Extra α) (len : Nat) (incl excl : Option FVal) :
    ∀ (i : Nat) (xs : List α) (st : St), P st.guard →
      Step P (listPy f rec x len incl excl i xs st) (listPy f rec' x len incl excl i xs st)
  | _, [], st, h => .refl h
  | i, v :: vs, st, h => by
    simp only [listPy]
    cases hf : indexFilter f i incl excl (some len) with
    | error e => exact .refl h
    | ok r =>
      cases r with
      | none => exact listPy_at hr f x len incl excl (i + 1) vs st h
      | some r =>
        obtain ⟨ni, ne⟩ := r
        dsimp only
        rcases (hr.py x v ni ne st h).cases with ⟨e, st1, h1, h2, h3⟩ | ⟨o, st1, h1, h2, h3⟩
        · rw [h1, h2]; exact .refl h3
        · rw [h1, h2]
          dsimp only
          rcases (listPy_at hr f x len incl excl (i + 1) vs st1 h3).cases with ⟨e, st2, h4, h5, h6⟩ | ⟨o, st2, h4, h5, h6⟩
          · rw [h4, h5]; exact .refl h6
          · rw [h4, h5]; exact .refl h6

theorem listJson_at {rec rec' : SerFn α} (hr : AtFn P rec rec') (f : Filt) (x : Extra α) (len : Nat) (incl excl : Option FVal) :
    ∀ (i : Nat) (xs : List α) (st : St), P st.guard →
      Step P (listJson f rec x len incl excl i xs st) (listJson f rec' x len incl excl i xs st)
  | _, [], st, h => .refl h
  | i, v :: vs, st, h => by
    simp only [listJson]
    cases hf : indexFilter f i incl excl (some len) with
    | error e => exact .refl h
    | ok r =>
      cases r with
      | none => exact listJson_at hr f x len incl excl (i + 1) vs st h
      | some r =>
        obtain ⟨ni, ne⟩ := r
        dsimp only
        rcases (hr.json x v ni ne st h).cases with ⟨e, st1, h1, h2, h3⟩ | ⟨o, st1, h1, h2, h3⟩
        · rw [h1, h2]; exact .refl h3
        · rw [h1, h2]
          dsimp only
          rcases (listJson_at hr f x len incl excl (i + 1) vs st1 h3).cases with ⟨e, st2, h4, h5, h6⟩ | ⟨o, st2, h4, h5, h6⟩
          · rw [h4, h5]; exact .refl h6
          · rw [h4, h5]; exact .refl h6

theorem setPy_at {rec rec' : SerFn α} (hr : AtFn P rec rec') (x : Extra α) (incl excl : Option FVal) :
    ∀ (xs : List α) (st : St), P st.guard →
      Step P (setPy rec x incl excl xs st) (setPy rec' x incl excl xs st)
  | [], st, h => .refl h
  | v :: vs, st, h => by
    simp only [setPy]
    rcases (hr.py x v incl excl st h).cases with ⟨e, st1, h1, h2, h3⟩ | ⟨o, st1, h1, h2, h3⟩
    · rw [h1, h2]; exact .refl h3
    · rw [h1, h2]
      dsimp only
      rcases (setPy_at hr x incl excl vs st1 h3).cases with ⟨e, st2, h4, h5, h6⟩ | ⟨o, st2, h4, h5, h6⟩
      · rw [h4, h5]; exact .refl h6
      · rw [h4, h5]; exact .refl h6

theorem setJson_at {rec rec' : SerFn α} (hr : AtFn P rec rec') (x : Extra α) (incl excl : Option FVal) :
    ∀ (xs : List α) (st : St), P st.guard →
      Step P (setJson rec x incl excl xs st) (setJson rec' x incl excl xs st)
  | [], st, h => .refl h
  | v :: vs, st, h => by
    simp only [setJson]
    rcases (hr.json x v incl excl st h).cases with ⟨e, st1, h1, h2, h3⟩ | ⟨o, st1, h1, h2, h3⟩
    · rw [h1, h2]; exact .refl h3
    · rw [h1, h2]
      dsimp only
      rcases (setJson_at hr x incl excl vs st1 h3).cases with ⟨e, st2, h4, h5, h6⟩ | ⟨o, st2, h4, h5, h6⟩
      · rw [h4, h5]; exact .refl h6
      · rw [h4, h5]; exact .refl h6

theorem pyPairsJson_at (W : World α) {rec rec' : SerFn α} (hr : AtFn P rec rec') (x : Extra α) (incl excl : Option FVal) :
    ∀ (es : List (Except SErr (α × α))) (acc : List (Text × Py α)) (st : St), P st.guard →
      Step P (pyPairsJson W rec x incl excl es acc st) (pyPairsJson W rec' x incl excl es acc st)
  | [], _, st, h => .refl h
  | .error e :: _, _, st, h => .refl h
  | .ok (k, v) :: es, acc, st, h => by
    simp only [pyPairsJson]
    cases hf : keyFilter (fun _ => 0) .any (W.filterKey k) incl excl with
    | error e => exact .refl h
    | ok r =>
      cases r with
      | none => exact pyPairsJson_at W hr x incl excl es acc st h
      | some r =>
        obtain ⟨ni, ne⟩ := r
        dsimp only
        cases hk : inferKey W x k with
        | error e => exact .refl h
        | ok t =>
          dsimp only
          rcases (hr.py x v ni ne st h).cases with ⟨e, st1, h1, h2, h3⟩ | ⟨o, st1, h1, h2, h3⟩
          · rw [h1, h2]; exact .refl h3
          · rw [h1, h2]
            exact pyPairsJson_at W hr x incl excl es _ st1 h3

theorem pyPairs_at (W : World α) {rec rec' : SerFn α} (hr : AtFn P rec rec') (x : Extra α) (incl excl : Option FVal) :
    ∀ (es : List (Except SErr (α × α))) (st : St), P st.guard →
      Step P (pyPairs W rec x incl excl es st) (pyPairs W rec' x incl excl es st)
  | [], st, h => .refl h
  | .error e :: _, st, h => .refl h
  | .ok (k, v) :: es, st, h => by
    simp only [pyPairs]
    cases hf : keyFilter (fun _ => 0) .any (W.filterKey k) incl excl with
    | error e => exact .refl h
    | ok r =>
      cases r with
      | none => exact pyPairs_at W hr x incl excl es st h
      | some r =>
        obtain ⟨ni, ne⟩ := r
        dsimp only
        rcases (hr.py x v ni ne st h).cases with ⟨e, st1, h1, h2, h3⟩ | ⟨o, st1, h1, h2, h3⟩
        · rw [h1, h2]; exact .refl h3
        · rw [h1, h2]
          dsimp only
          rcases (pyPairs_at W hr x incl excl es st1 h3).cases with ⟨e, st2, h4, h5, h6⟩ | ⟨o, st2, h4, h5, h6⟩
          · rw [h4, h5]; exact .refl h6
          · rw [h4, h5]; exact .refl h6

theorem jsonPairs_at (W : World α) {rec rec' : SerFn α} (hr : AtFn P rec rec') (x : Extra α) (incl excl : Option FVal) :
    ∀ (es : List (Except SErr (α × α))) (st : St), P st.guard →
      Step P (jsonPairs W rec x incl excl es st) (jsonPairs W rec' x incl excl es st)
  | [], st, h => .refl h
  | .error e :: _, st, h => .refl h
  | .ok (k, v) :: es, st, h => by
    simp only [jsonPairs]
    cases hf : keyFilter (fun _ => 0) .any (W.filterKey k) incl excl with
    | error e => exact .refl h
    | ok r =>
      cases r with
      | none => exact jsonPairs_at W hr x incl excl es st h
      | some r =>
        obtain ⟨ni, ne⟩ := r
        dsimp only
        cases hk : inferKey W x k with
        | error e => exact .refl h
        | ok t =>
          dsimp only
          rcases (hr.json x v ni ne st h).cases with ⟨e, st1, h1, h2, h3⟩ | ⟨o, st1, h1, h2, h3⟩
          · rw [h1, h2]; exact .refl h3
          · rw [h1, h2]
            dsimp only
            rcases (jsonPairs_at W hr x incl excl es st1 h3).cases with ⟨e, st2, h4, h5, h6⟩ | ⟨o, st2, h4, h5, h6⟩
            · rw [h4, h5]; exact .refl h6
            · rw [h4, h5]; exact .refl h6

theorem dictPyJson_at (E : Env α) (f : Filt) {kf : KeyFn α} (hk : ∀ x a st, (kf x a st).2.guard = st.guard) {rec rec' : SerFn α}
    (hr : AtFn P rec rec') (x : Extra α) (incl excl : Option FVal) :
    ∀ (es : List (α × α)) (acc : List (Text × Py α)) (st : St), P st.guard →
      Step P (dictPyJson E f kf rec x incl excl es acc st) (dictPyJson E f kf rec' x incl excl es acc st)
  | [], _, st, h => .refl h
  | (kk, v) :: es, acc, st, h => by
    simp only [dictPyJson]
    cases hf : keyFilter E.hash f (E.world.filterKey kk) incl excl with
    | error e => exact .refl h
    | ok r =>
      cases r with
      | none => exact dictPyJson_at E f hk hr x incl excl es acc st h
      | some r =>
        obtain ⟨ni, ne⟩ := r
        dsimp only
        have hg := hk x kk st
        cases hkk : kf x kk st with
        | mk r st0 =>
          rw [hkk] at hg
          have h0 : P st0.guard := by rw [show st0.guard = st.guard from hg]; exact h
          cases r with
          | error e => exact .refl h0
          | ok t =>
            dsimp only
            rcases (hr.py x v ni ne st0 h0).cases with ⟨e, st1, h1, h2, h3⟩ | ⟨o, st1, h1, h2, h3⟩
            · rw [h1, h2]; exact .refl h3
            · rw [h1, h2]
              exact dictPyJson_at E f hk hr x incl excl es _ st1 h3

theorem dictPyPython_at (E : Env α) (f : Filt) {k k' : SerFn α} (hk : AtFn P k k') {rec rec' : SerFn α}
    (hr : AtFn P rec rec') (x : Extra α) (incl excl : Option FVal) :
    ∀ (es : List (α × α)) (st : St), P st.guard →
      Step P (dictPyPython E f k rec x incl excl es st) (dictPyPython E f k' rec' x incl excl es st)
  | [], st, h => .refl h
  | (kk, v) :: es, st, h => by
    simp only [dictPyPython]
    cases hf : keyFilter E.hash f (E.world.filterKey kk) incl excl with
    | error e => exact .refl h
    | ok r =>
      cases r with
      | none => exact dictPyPython_at E f hk hr x incl excl es st h
      | some r =>
        obtain ⟨ni, ne⟩ := r
        dsimp only
        rcases (hk.py x kk Option.none Option.none st h).cases with ⟨e, st0, h1, h2, h0⟩ | ⟨o, st0, h1, h2, h0⟩
        · rw [h1, h2]; exact .refl h0
        · rw [h1, h2]
          dsimp only
          rcases (hr.py x v ni ne st0 h0).cases with ⟨e, st1, h1, h2, h3⟩ | ⟨o, st1, h1, h2, h3⟩
          · rw [h1, h2]; exact .refl h3
          · rw [h1, h2]
            dsimp only
            rcases (dictPyPython_at E f hk hr x incl excl es st1 h3).cases with ⟨e, st2, h4, h5, h6⟩ | ⟨o, st2, h4, h5, h6⟩
            · rw [h4, h5]; exact .refl h6
            · rw [h4, h5]; exact .refl h6

theorem dictJson_at (E : Env α) (f : Filt) {kf : KeyFn α} (hk : ∀ x a st, (kf x a st).2.guard = st.guard) {rec rec' : SerFn α}
    (hr : AtFn P rec rec') (x : Extra α) (incl excl : Option FVal) :
    ∀ (es : List (α × α)) (st : St), P st.guard →
      Step P (dictJson E f kf rec x incl excl es st) (dictJson E f kf rec' x incl excl es st)
  | [], st, h => .refl h
  | (kk, v) :: es, st, h => by
    simp only [dictJson]
    cases hf : keyFilter E.hash f (E.world.filterKey kk) incl excl with
    | error e => exact .refl h
    | ok r =>
      cases r with
      | none => exact dictJson_at E f hk hr x incl excl es st h
      | some r =>
        obtain ⟨ni, ne⟩ := r
        dsimp only
        have hg := hk x kk st
        cases hkk : kf x kk st with
        | mk r st0 =>
          rw [hkk] at hg
          have h0 : P st0.guard := by rw [show st0.guard = st.guard from hg]; exact h
          cases r with
          | error e => exact .refl h0
          | ok t =>
            dsimp only
            rcases (hr.json x v ni ne st0 h0).cases with ⟨e, st1, h1, h2, h3⟩ | ⟨o, st1, h1, h2, h3⟩
            · rw [h1, h2]; exact .refl h3
            · rw [h1, h2]
              dsimp only
              rcases (dictJson_at E f hk hr x incl excl es st1 h3).cases with ⟨e, st2, h4, h5, h6⟩ | ⟨o, st2, h4, h5, h6⟩
              · rw [h4, h5]; exact .refl h6
              · rw [h4, h5]; exact .refl h6

/-! ### Inference -/

theorem ser_cases {E : Env α} {R R' : Recs α} (hb : ∀ s, AtFn P (build E R s) (build E R' s)) (a : α) :
    (∃ e, serializerFn E R a = .error e ∧ serializerFn E R' a = .error e)
      ∨ ∃ c f f', serializerFn E R a = .ok (c, f) ∧ serializerFn E R' a = .ok (c, f') ∧ AtFn P f f' := by
  unfold serializerFn
  cases E.serializerOf a with
  | error e => exact .inl ⟨e, rfl, rfl⟩
  | ok cs => exact .inr ⟨cs.1, _, _, rfl, rfl, hb cs.2⟩

theorem pyJsonBody_at {E : Env α} {R R' : Recs α} (hr : AtFn P R.infer R'.infer)
    (hb : ∀ s, AtFn P (build E R s) (build E R' s)) (x : Extra α) (a : α) (incl excl : Option FVal) (st : St)
    (h : P st.guard) :
    Step P (pyJsonBody E.world R.infer (serializerFn E R) x a incl excl st)
      (pyJsonBody E.world R'.infer (serializerFn E R') x a incl excl st) := by
  unfold pyJsonBody
  cases ha : E.world.shape a with
  | list xs => exact (pySeqFilter_at hr x _ incl excl _ _ st h).map
  | tuple xs => exact (pySeqFilter_at hr x _ incl excl _ _ st h).map
  | generator xs => exact (pySeqFilter_at hr x _ incl excl _ _ st h).map
  | set xs => exact (pySeq_at hr x xs st h).map
  | frozenset xs => exact (pySeq_at hr x xs st h).map
  | dict es => exact (pyPairsJson_at E.world hr x incl excl _ [] st h).map
  | dataclass fields =>
    cases fields with
    | error e => exact .refl h
    | ok es => exact (pyPairsJson_at E.world hr x incl excl _ [] st h).map
  | pydantic =>
    dsimp only
    rcases ser_cases hb a with ⟨e, h1, h2⟩ | ⟨c, f, f', h1, h2, hf⟩
    · rw [h1, h2]; exact .refl h
    · rw [h1, h2]; exact hf.py _ _ _ _ st h
  | enum v =>
    cases v with
    | error e => exact .refl h
    | ok v => exact hr.py _ _ _ _ st h
  | unknown =>
    dsimp only
    cases x.fallback with
    | none =>
      dsimp only
      split <;> exact .refl h
    | some f =>
      dsimp only
      cases f a with
      | error e => exact .refl h
      | ok v => exact hr.py _ _ _ _ st h
  | _ => dsimp only; repeat' (first | exact .refl h | split)

theorem pyPythonBody_at {E : Env α} {R R' : Recs α} (hr : AtFn P R.infer R'.infer)
    (hb : ∀ s, AtFn P (build E R s) (build E R' s)) (x : Extra α) (a : α) (incl excl : Option FVal) (st : St)
    (h : P st.guard) :
    Step P (pyPythonBody E.world R.infer (serializerFn E R) x a incl excl st)
      (pyPythonBody E.world R'.infer (serializerFn E R') x a incl excl st) := by
  unfold pyPythonBody
  cases ha : E.world.shape a with
  | list xs => exact (pySeqFilter_at hr x _ incl excl _ _ st h).map
  | tuple xs => exact (pySeqFilter_at hr x _ incl excl _ _ st h).map
  | set xs =>
    dsimp only
    rcases (pySeq_at hr x xs st h).cases with ⟨e, st1, h1, h2, h3⟩ | ⟨o, st1, h1, h2, h3⟩
    · rw [h1, h2]; exact .refl h3
    · rw [h1, h2]; exact .refl h3
  | frozenset xs =>
    dsimp only
    rcases (pySeq_at hr x xs st h).cases with ⟨e, st1, h1, h2, h3⟩ | ⟨o, st1, h1, h2, h3⟩
    · rw [h1, h2]; exact .refl h3
    · rw [h1, h2]; exact .refl h3
  | dict es => exact (pyPairs_at E.world hr x incl excl _ st h).map
  | dataclass fields =>
    cases fields with
    | error e => exact .refl h
    | ok es => exact (pyPairs_at E.world hr x incl excl _ st h).map
  | pydantic =>
    dsimp only
    rcases ser_cases hb a with ⟨e, h1, h2⟩ | ⟨c, f, f', h1, h2, hf⟩
    · rw [h1, h2]; exact .refl h
    · rw [h1, h2]; exact hf.py _ _ _ _ st h
  | unknown =>
    dsimp only
    cases x.fallback with
    | none => exact .refl h
    | some f =>
      dsimp only
      cases f a with
      | error e => exact .refl h
      | ok v => exact hr.py _ _ _ _ st h
  | _ => exact .refl h

theorem jsonBody_at {E : Env α} {R R' : Recs α} (hr : AtFn P R.infer R'.infer)
    (hb : ∀ s, AtFn P (build E R s) (build E R' s)) (x : Extra α) (a : α) (incl excl : Option FVal) (st : St)
    (h : P st.guard) :
    Step P (jsonBody E.world R.infer (serializerFn E R) x a incl excl st)
      (jsonBody E.world R'.infer (serializerFn E R') x a incl excl st) := by
  unfold jsonBody
  cases ha : E.world.shape a with
  | list xs => exact (jsonSeqFilter_at hr x _ incl excl _ _ st h).map
  | tuple xs => exact (jsonSeqFilter_at hr x _ incl excl _ _ st h).map
  | generator xs => exact (jsonSeqFilter_at hr x _ incl excl _ _ st h).map
  | set xs => exact (jsonSeq_at hr x incl excl xs st h).map
  | frozenset xs => exact (jsonSeq_at hr x incl excl xs st h).map
  | dict es => exact (jsonPairs_at E.world hr x incl excl _ st h).map
  | dataclass fields =>
    cases fields with
    | error e => exact .refl h
    | ok es => exact (jsonPairs_at E.world hr x incl excl _ st h).map
  | pydantic =>
    dsimp only
    rcases ser_cases hb a with ⟨e, h1, h2⟩ | ⟨c, f, f', h1, h2, hf⟩
    · rw [h1, h2]; exact .refl h
    · rw [h1, h2]; exact hf.json _ _ _ _ st h
  | enum v =>
    cases v with
    | error e => exact .refl h
    | ok v => exact hr.json _ _ _ _ st h
  | unknown =>
    dsimp only
    cases x.fallback with
    | none =>
      dsimp only
      split <;> exact .refl h
    | some f =>
      dsimp only
      cases f a with
      | error e => exact .refl h
      | ok v => exact hr.json _ _ _ _ st h
  | _ => dsimp only; repeat' (first | exact .refl h | split)

/-! ### Serialisers -/

theorem fallback_at {E : Env α} {R R' : Recs α} (hr : AtFn P R.infer R'.infer) (name : Text) :
    AtFn P ⟨fallbackPy E R name, fallbackJson E R name⟩ ⟨fallbackPy E R' name, fallbackJson E R' name⟩ := by
  refine ⟨fun x a incl excl st h => ?_, fun x a incl excl st h => ?_⟩
  all_goals
    have hg := onFallback_guard E.world name x a st
    simp only [fallbackPy, fallbackJson]
    cases ho : onFallback E.world name x a st with
    | mk r st0 =>
      rw [ho] at hg
      have h0 : P st0.guard := by rw [show st0.guard = st.guard from hg]; exact h
      cases r with
      | error e => exact .refl h0
      | ok u => first | exact hr.py _ _ _ _ st0 h0 | exact hr.json _ _ _ _ st0 h0

theorem leaf_at {E : Env α} {R R' : Recs α} (hr : AtFn P R.infer R'.infer) (l : Leaf) :
    AtFn P (leafSer E R l) (leafSer E R' l) := by
  have hfp := fun name x a incl excl st h => (fallback_at (E := E) hr name).py x a incl excl st h
  have hfj := fun name x a incl excl st h => (fallback_at (E := E) hr name).json x a incl excl st h
  dsimp only at hfp hfj
  have henum : ∀ (cls : Nat) {f f' : SerFn α}, AtFn P f f' → AtFn P (enumSer E R cls f) (enumSer E R' cls f') := by
    intro cls f f' hf
    refine ⟨fun x a incl excl st h => ?_, fun x a incl excl st h => ?_⟩
    · simp only [enumSer]
      repeat' (first | exact .refl h | exact hfp _ x a incl excl st h | exact hf.py _ _ incl excl st h | split)
    · simp only [enumSer]
      repeat' (first | exact .refl h | exact hfj _ x a incl excl st h | exact hf.json _ _ incl excl st h | split)
  induction l with
  | enum cls => exact henum cls hr
  | enumOf cls sub ih => exact henum cls ih
  | _ =>
    refine ⟨fun x a incl excl st h => ?_, fun x a incl excl st h => ?_⟩
    · simp only [leafSer, noneSer, simplePy, strPy, bytesPy, textPy, timedeltaSer, decimalSer, literalSer]
      repeat' (first | exact .refl h | exact hfp _ x a incl excl st h | exact hr.py x a incl excl st h | split)
    · simp only [leafSer, noneSer, simpleJson, strSerJson, bytesJson, textJson, timedeltaSer, decimalSer, literalSer]
      repeat' (first | exact .refl h | exact hfj _ x a incl excl st h | exact hr.json x a incl excl st h | split)

theorem dataclass_at {E : Env α} {R R' : Recs α} (hr : AtFn P R.infer R'.infer) (name : Text) (cls : Nat)
    (names : List Text) {f f' : SerFn α} (hf : AtFn P f f') :
    AtFn P (dataclassSer E R name cls names f) (dataclassSer E R' name cls names f') := by
  have hfp := fun x a incl excl st h => (fallback_at (E := E) hr name).py x a incl excl st h
  have hfj := fun x a incl excl st h => (fallback_at (E := E) hr name).json x a incl excl st h
  dsimp only at hfp hfj
  refine ⟨fun x a incl excl st h => ?_, fun x a incl excl st h => ?_⟩
  · simp only [dataclassSer]
    repeat' (first | exact .refl h | exact hfp _ a incl excl st h | exact hr.py _ a incl excl st h
                   | exact hf.py _ _ incl excl st h | split)
  · simp only [dataclassSer]
    repeat' (first | exact .refl h | exact hfj _ a incl excl st h | exact hr.json _ a incl excl st h
                   | exact hf.json _ _ incl excl st h | split)

theorem model_at {E : Env α} {R R' : Recs α} (hr : AtFn P R.infer R'.infer) (name : Text) (cls : Nat)
    (hasExtra root : Bool) {f f' : SerFn α} (hf : AtFn P f f') :
    AtFn P (modelSer E R name cls hasExtra root f) (modelSer E R' name cls hasExtra root f') := by
  have hfp := fun x a incl excl st h => (fallback_at (E := E) hr name).py x a incl excl st h
  have hfj := fun x a incl excl st h => (fallback_at (E := E) hr name).json x a incl excl st h
  dsimp only at hfp hfj
  refine ⟨fun x a incl excl st h => ?_, fun x a incl excl st h => ?_⟩
  · simp only [modelSer]
    repeat' (first | exact .refl h | exact hfp _ a incl excl st h | exact hr.py _ a incl excl st h
                   | exact hf.py _ _ incl excl st h | split)
  · simp only [modelSer]
    repeat' (first | exact .refl h | exact hfj _ a incl excl st h | exact hr.json _ a incl excl st h
                   | exact hf.json _ _ incl excl st h | split)

/-- The fields of two builds of a schema. -/
inductive FieldsAt (P : Guard.State → Prop) :
    List (FieldInfo × Option (SerFn α)) → List (FieldInfo × Option (SerFn α)) → Prop
  | nil : FieldsAt P [] []
  | cons {info f f' fs fs'} (h : AtFn P f f') (hs : FieldsAt P fs fs') :
    FieldsAt P ((info, some f) :: fs) ((info, some f') :: fs')
  | excluded {info fs fs'} (hs : FieldsAt P fs fs') :
    FieldsAt P ((info, Option.none) :: fs) ((info, Option.none) :: fs')

theorem FieldsAt.get {fs fs' : List (FieldInfo × Option (SerFn α))} (h : FieldsAt P fs fs') (t : Text) :
    (getField fs t = Option.none ∧ getField fs' t = Option.none)
      ∨ (∃ info, getField fs t = some (info, Option.none) ∧ getField fs' t = some (info, Option.none))
      ∨ ∃ info f f', getField fs t = some (info, some f) ∧ getField fs' t = some (info, some f') ∧ AtFn P f f' := by
  induction h with
  | nil => exact .inl ⟨rfl, rfl⟩
  | @cons info f f' fs fs' h hs ih =>
    unfold getField at ih ⊢
    simp only [List.find?_cons]
    cases info.name == t with
    | true => exact .inr (.inr ⟨info, f, f', rfl, rfl, h⟩)
    | false => exact ih
  | @excluded info fs fs' hs ih =>
    unfold getField at ih ⊢
    simp only [List.find?_cons]
    cases info.name == t with
    | true => exact .inr (.inl ⟨info, rfl, rfl⟩)
    | false => exact ih

theorem FieldsAt.required {fs fs' : List (FieldInfo × Option (SerFn α))} (h : FieldsAt P fs fs') :
    (fs.filter (·.1.required)).length = (fs'.filter (·.1.required)).length := by
  induction h with
  | nil => rfl
  | @cons info f f' fs fs' h hs ih =>
    simp only [List.filter_cons]
    cases info.required <;> simp [ih]
  | @excluded info fs fs' hs ih =>
    simp only [List.filter_cons]
    cases info.required <;> simp [ih]

theorem mainPy_at {E : Env α} {R R' : Recs α} (hr : AtFn P R.infer R'.infer) (mode : FieldsMode)
    {fs fs' : List (FieldInfo × Option (SerFn α))} (hfs : FieldsAt P fs fs') (x : Extra α) (incl excl : Option FVal) :
    ∀ (es : List (α × α)) (acc : List (Text × Py α)) (used : Nat) (st : St), P st.guard →
      Step P (mainPy E R mode fs x incl excl es acc used st) (mainPy E R' mode fs' x incl excl es acc used st)
  | [], _, _, st, h => .refl h
  | (k, v) :: es, acc, used, st, h => by
    have ih := mainPy_at (E := E) hr mode hfs x incl excl es
    simp only [mainPy]
    cases keyStr E.world k with
    | error e => exact .refl h
    | ok t =>
      dsimp only
      have hmap : (getField fs t).map (·.1) = (getField fs' t).map (·.1) := by
        rcases hfs.get t with ⟨h1, h2⟩ | ⟨info, h1, h2⟩ | ⟨info, f, f', h1, h2, _⟩ <;> rw [h1, h2] <;> rfl
      rw [hmap]
      split
      · exact ih _ _ st h
      · cases keyFilter E.hash (.schema Option.none Option.none) (E.world.filterKey k) incl excl with
        | error e => exact .refl h
        | ok r =>
          cases r with
          | none => exact ih _ _ st h
          | some r =>
            obtain ⟨ni, ne⟩ := r
            dsimp only
            rcases hfs.get t with ⟨h1, h2⟩ | ⟨info, h1, h2⟩ | ⟨info, f, f', h1, h2, hf⟩
            · rw [h1, h2]
              dsimp only
              split
              · rcases (hr.py x v ni ne st h).cases with ⟨e, st1, h3, h4, h5⟩ | ⟨o, st1, h3, h4, h5⟩
                · rw [h3, h4]; exact .refl h5
                · rw [h3, h4]; exact ih _ _ st1 h5
              · split
                · exact .refl h
                · exact ih _ _ st h
            · rw [h1, h2]
              exact ih _ _ st h
            · rw [h1, h2]
              dsimp only
              rcases (hf.py x v ni ne st h).cases with ⟨e, st1, h3, h4, h5⟩ | ⟨o, st1, h3, h4, h5⟩
              · rw [h3, h4]; exact .refl h5
              · rw [h3, h4]; exact ih _ _ st1 h5

theorem mainJson_at {E : Env α} {R R' : Recs α} (hr : AtFn P R.infer R'.infer) (mode : FieldsMode)
    {fs fs' : List (FieldInfo × Option (SerFn α))} (hfs : FieldsAt P fs fs') (x : Extra α) (incl excl : Option FVal) :
    ∀ (es : List (α × α)) (st : St), P st.guard →
      Step P (mainJson E R mode fs x incl excl es st) (mainJson E R' mode fs' x incl excl es st)
  | [], st, h => .refl h
  | (k, v) :: es, st, h => by
    have ih := mainJson_at (E := E) hr mode hfs x incl excl es
    simp only [mainJson]
    split
    · exact ih st h
    · cases keyStr E.world k with
      | error e => exact .refl h
      | ok t =>
        dsimp only
        cases keyFilter E.hash (.schema Option.none Option.none) (E.world.filterKey k) incl excl with
        | error e => exact .refl h
        | ok r =>
          cases r with
          | none => exact ih st h
          | some r =>
            obtain ⟨ni, ne⟩ := r
            dsimp only
            rcases hfs.get t with ⟨h1, h2⟩ | ⟨info, h1, h2⟩ | ⟨info, f, f', h1, h2, hf⟩
            · rw [h1, h2]
              dsimp only
              split
              · cases inferKey E.world x k with
                | error e => exact .refl h
                | ok kt =>
                  dsimp only
                  rcases (hr.json x v ni ne st h).cases with ⟨e, st1, h3, h4, h5⟩ | ⟨o, st1, h3, h4, h5⟩
                  · rw [h3, h4]; exact .refl h5
                  · rw [h3, h4]
                    dsimp only
                    rcases (ih st1 h5).cases with ⟨e, st2, h3, h4, h5⟩ | ⟨o, st2, h3, h4, h5⟩
                    · rw [h3, h4]; exact .refl h5
                    · rw [h3, h4]; exact .refl h5
              · exact ih st h
            · rw [h1, h2]
              exact ih st h
            · rw [h1, h2]
              dsimp only
              rcases (hf.json x v ni ne st h).cases with ⟨e, st1, h3, h4, h5⟩ | ⟨o, st1, h3, h4, h5⟩
              · rw [h3, h4]; exact .refl h5
              · rw [h3, h4]
                dsimp only
                rcases (ih st1 h5).cases with ⟨e, st2, h3, h4, h5⟩ | ⟨o, st2, h3, h4, h5⟩
                · rw [h3, h4]; exact .refl h5
                · rw [h3, h4]; exact .refl h5

theorem extrasPy_at {E : Env α} {R R' : Recs α} (hr : AtFn P R.infer R'.infer) (x : Extra α) (incl excl : Option FVal) :
    ∀ (es : List (α × α)) (acc : List (Py α × Py α)) (st : St), P st.guard →
      Step P (extrasPy E R x incl excl es acc st) (extrasPy E R' x incl excl es acc st)
  | [], _, st, h => .refl h
  | (k, v) :: es, acc, st, h => by
    have ih := extrasPy_at (E := E) hr x incl excl es
    simp only [extrasPy]
    split
    · exact ih _ st h
    · cases keyFilter E.hash (.schema Option.none Option.none) (E.world.filterKey k) incl excl with
      | error e => exact .refl h
      | ok r =>
        cases r with
        | none => exact ih _ st h
        | some r =>
          obtain ⟨ni, ne⟩ := r
          dsimp only
          rcases (hr.py x v ni ne st h).cases with ⟨e, st1, h3, h4, h5⟩ | ⟨o, st1, h3, h4, h5⟩
          · rw [h3, h4]; exact .refl h5
          · rw [h3, h4]; exact ih _ st1 h5

theorem extrasJson_at {E : Env α} {R R' : Recs α} (hr : AtFn P R.infer R'.infer) (x : Extra α)
    (incl excl : Option FVal) : ∀ (es : List (α × α)) (st : St), P st.guard →
      Step P (extrasJson E R x incl excl es st) (extrasJson E R' x incl excl es st)
  | [], st, h => .refl h
  | (k, v) :: es, st, h => by
    have ih := extrasJson_at (E := E) hr x incl excl es
    simp only [extrasJson]
    split
    · exact ih st h
    · cases keyFilter E.hash (.schema Option.none Option.none) (E.world.filterKey k) incl excl with
      | error e => exact .refl h
      | ok r =>
        cases r with
        | none => exact ih st h
        | some r =>
          obtain ⟨ni, ne⟩ := r
          dsimp only
          cases inferKey E.world x k with
          | error e => exact .refl h
          | ok kt =>
            dsimp only
            rcases (hr.json x v ni ne st h).cases with ⟨e, st1, h3, h4, h5⟩ | ⟨o, st1, h3, h4, h5⟩
            · rw [h3, h4]; exact .refl h5
            · rw [h3, h4]
              dsimp only
              rcases (ih st1 h5).cases with ⟨e, st2, h3, h4, h5⟩ | ⟨o, st2, h3, h4, h5⟩
              · rw [h3, h4]; exact .refl h5
              · rw [h3, h4]; exact .refl h5

theorem fields_at {E : Env α} {R R' : Recs α} (hr : AtFn P R.infer R'.infer) (mode : FieldsMode)
    {fs fs' : List (FieldInfo × Option (SerFn α))} (hfs : FieldsAt P fs fs') :
    AtFn P (fieldsSer E R mode fs) (fieldsSer E R' mode fs') := by
  refine ⟨fun x a incl excl st h => ?_, fun x a incl excl st h => ?_⟩
  · simp only [fieldsSer, hfs.required]
    split
    · exact hr.py _ _ _ _ st h
    · cases E.dicts mode a with
      | none => exact (fallback_at (E := E) hr _).py x a incl excl st h
      | some de =>
        obtain ⟨main, extras⟩ := de
        dsimp only
        rcases (mainPy_at (E := E) hr mode hfs (x.modelOr a) incl excl main [] 0 st h).cases with
          ⟨e, st1, h3, h4, h5⟩ | ⟨o, st1, h3, h4, h5⟩
        · rw [h3, h4]; exact .refl h5
        · rw [h3, h4]
          dsimp only
          split
          · exact .refl h5
          · cases extras with
            | none => exact .refl h5
            | some ex => exact (extrasPy_at (E := E) hr x incl excl ex _ st1 h5).map
  · simp only [fieldsSer]
    cases E.dicts mode a with
    | none => exact (fallback_at (E := E) hr _).json x a incl excl st h
    | some de =>
      obtain ⟨main, extras⟩ := de
      dsimp only
      split
      · exact hr.json _ _ _ _ st h
      · rcases (mainJson_at (E := E) hr mode hfs (x.modelOr a) incl excl main st h).cases with
          ⟨e, st1, h3, h4, h5⟩ | ⟨o, st1, h3, h4, h5⟩
        · rw [h3, h4]; exact .refl h5
        · rw [h3, h4]
          dsimp only
          cases extras with
          | none => exact .refl h5
          | some ex => exact (extrasJson_at (E := E) hr x incl excl ex st1 h5).map

/-- Serialisers of items, in pairs that do the same. -/
inductive ItemsAt (P : Guard.State → Prop) : List (SerFn α) → List (SerFn α) → Prop
  | nil : ItemsAt P [] []
  | cons {f f' fs fs'} (h : AtFn P f f') (hs : ItemsAt P fs fs') : ItemsAt P (f :: fs) (f' :: fs')

theorem ItemsAt.append {fs fs' gs gs' : List (SerFn α)} (h : ItemsAt P fs fs') (hg : ItemsAt P gs gs') :
    ItemsAt P (fs ++ gs) (fs' ++ gs') := by
  induction h with
  | nil => exact hg
  | cons h _ ih => exact .cons h ih

theorem ItemsAt.replicate {f f' : SerFn α} (h : AtFn P f f') : ∀ n, ItemsAt P (List.replicate n f) (List.replicate n f')
  | 0 => .nil
  | n + 1 => .cons h (ItemsAt.replicate h n)

theorem ItemsAt.length {fs fs' : List (SerFn α)} (h : ItemsAt P fs fs') : fs.length = fs'.length := by
  induction h with
  | nil => rfl
  | cons _ _ ih => simp [ih]

theorem ItemsAt.take {fs fs' : List (SerFn α)} (h : ItemsAt P fs fs') : ∀ n, ItemsAt P (fs.take n) (fs'.take n) := by
  induction h with
  | nil => intro n; simp only [List.take_nil]; exact .nil
  | cons h _ ih =>
    intro n
    cases n with
    | zero => exact .nil
    | succ n => exact .cons h (ih n)

theorem ItemsAt.drop {fs fs' : List (SerFn α)} (h : ItemsAt P fs fs') : ∀ n, ItemsAt P (fs.drop n) (fs'.drop n) := by
  induction h with
  | nil => intro n; simp only [List.drop_nil]; exact .nil
  | cons h hs ih =>
    intro n
    cases n with
    | zero => exact .cons h hs
    | succ n => exact ih n

theorem ItemsAt.get {fs fs' : List (SerFn α)} (h : ItemsAt P fs fs') : ∀ (n : Nat),
    (fs[n]? = Option.none ∧ fs'[n]? = Option.none) ∨ ∃ f f', fs[n]? = some f ∧ fs'[n]? = some f' ∧ AtFn P f f' := by
  induction h with
  | nil => intro n; exact .inl ⟨rfl, rfl⟩
  | cons h hs ih =>
    intro n
    cases n with
    | zero => exact .inr ⟨_, _, rfl, rfl, h⟩
    | succ n => exact ih n

theorem ItemsAt.sers {fs fs' : List (SerFn α)} (h : ItemsAt P fs fs') (v : Option Nat) (n : Nat) :
    ItemsAt P (tupleSers v fs n) (tupleSers v fs' n) := by
  unfold tupleSers
  cases v with
  | none => exact h
  | some v =>
    dsimp only
    refine ((h.take v).append ?_).append (h.drop _)
    rcases h.get v with ⟨h1, h2⟩ | ⟨f, f', h1, h2, h3⟩
    · rw [h1, h2]; exact .nil
    · rw [h1, h2, h.length]; exact .replicate h3 _

theorem tuplePy_at {R R' : Recs α} (hr : AtFn P R.infer R'.infer) (f : Filt) (more : Bool) (x : Extra α) (len : Nat)
    (incl excl : Option FVal) {fs fs' : List (SerFn α)} (hf : ItemsAt P fs fs') :
    ∀ (i : Nat) (xs : List α) (st : St), P st.guard →
      Step P (tuplePy R f more x len incl excl i fs xs st) (tuplePy R' f more x len incl excl i fs' xs st) := by
  induction hf with
  | nil =>
    intro i xs st h
    cases xs with
    | nil => exact .refl h
    | cons v vs =>
      simp only [tuplePy]
      split
      · exact listPy_at hr f x len incl excl i (v :: vs) (warnExtraItems st) h
      · exact .refl h
  | cons hf _ ih =>
    intro i xs st h
    cases xs with
    | nil => exact .refl h
    | cons v vs =>
      simp only [tuplePy]
      cases indexFilter f i incl excl (some len) with
      | error e => exact .refl h
      | ok r =>
        cases r with
        | none => exact ih (i + 1) vs st h
        | some r =>
          obtain ⟨ni, ne⟩ := r
          dsimp only
          rcases (hf.py x v ni ne st h).cases with ⟨e, st1, h1, h2, h3⟩ | ⟨o, st1, h1, h2, h3⟩
          · rw [h1, h2]; exact .refl h3
          · rw [h1, h2]
            dsimp only
            rcases (ih (i + 1) vs st1 h3).cases with ⟨e, st2, h4, h5, h6⟩ | ⟨o, st2, h4, h5, h6⟩
            · rw [h4, h5]; exact .refl h6
            · rw [h4, h5]; exact .refl h6

theorem tupleJson_at {R R' : Recs α} (hr : AtFn P R.infer R'.infer) (f : Filt) (more : Bool) (x : Extra α) (len : Nat)
    (incl excl : Option FVal) {fs fs' : List (SerFn α)} (hf : ItemsAt P fs fs') :
    ∀ (i : Nat) (xs : List α) (st : St), P st.guard →
      Step P (tupleJson R f more x len incl excl i fs xs st) (tupleJson R' f more x len incl excl i fs' xs st) := by
  induction hf with
  | nil =>
    intro i xs st h
    cases xs with
    | nil => exact .refl h
    | cons v vs =>
      simp only [tupleJson]
      split
      · exact listJson_at hr f x len incl excl i (v :: vs) (warnExtraItems st) h
      · exact .refl h
  | cons hf _ ih =>
    intro i xs st h
    cases xs with
    | nil => exact .refl h
    | cons v vs =>
      simp only [tupleJson]
      cases indexFilter f i incl excl (some len) with
      | error e => exact .refl h
      | ok r =>
        cases r with
        | none => exact ih (i + 1) vs st h
        | some r =>
          obtain ⟨ni, ne⟩ := r
          dsimp only
          rcases (hf.json x v ni ne st h).cases with ⟨e, st1, h1, h2, h3⟩ | ⟨o, st1, h1, h2, h3⟩
          · rw [h1, h2]; exact .refl h3
          · rw [h1, h2]
            dsimp only
            rcases (ih (i + 1) vs st1 h3).cases with ⟨e, st2, h4, h5, h6⟩ | ⟨o, st2, h4, h5, h6⟩
            · rw [h4, h5]; exact .refl h6
            · rw [h4, h5]; exact .refl h6

theorem function_at {E : Env α} {R R' : Recs α} (hr : AtFn P R.infer R'.infer) (fi : FuncInfo) {f f' g g' : SerFn α}
    (hf : AtFn P f f') (hg : AtFn P g g') : AtFn P (functionSer E R fi f g) (functionSer E R' fi f' g') := by
  have he : ∀ (x : Extra α) e (st : St), P st.guard → (∃ e' st1, onFuncError x e st = (.error e', st1) ∧ P st1.guard)
      ∨ ∃ st1, onFuncError x e st = (.ok (), st1) ∧ P st1.guard := by
    intro x e st h
    have hgd := onFuncError_guard x e st
    cases ho : onFuncError x e st with
    | mk r st1 =>
      rw [ho] at hgd
      have h1 : P st1.guard := by rw [show st1.guard = st.guard from hgd]; exact h
      cases r with
      | error e' => exact .inl ⟨e', st1, rfl, h1⟩
      | ok u => exact .inr ⟨st1, rfl, h1⟩
  refine ⟨fun x a incl excl st h => ?_, fun x a incl excl st h => ?_⟩
  · simp only [functionSer]
    split
    · cases callFunction E fi x a incl excl with
      | ok b => exact hf.py x b _ _ st h
      | error e =>
        dsimp only
        rcases he x e st h with ⟨e', st1, h1, h2⟩ | ⟨st1, h1, h2⟩
        · rw [h1]; exact .refl h2
        · rw [h1]; exact hr.py x a incl excl st1 h2
    · exact hg.py x a _ _ st h
  · simp only [functionSer]
    split
    · cases callFunction E fi x a incl excl with
      | ok b => exact hf.json x b _ _ st h
      | error e =>
        dsimp only
        rcases he x e st h with ⟨e', st1, h1, h2⟩ | ⟨st1, h1, h2⟩
        · rw [h1]; exact .refl h2
        · rw [h1]; exact hr.json x a incl excl st1 h2
    · exact hg.json x a _ _ st h

mutual
theorem build_at {E : Env α} {R R' : Recs α} (hr : AtFn P R.infer R'.infer)
    (hd : ∀ d, AtFn P (refSer E R d) (refSer E R' d)) : ∀ s : Schema α, AtFn P (build E R s) (build E R' s)
  | .any => hr
  | .leaf l => by
    rw [build, build]
    exact leaf_at hr l
  | .nullable s => by
    have ih := build_at hr hd s
    rw [build, build]
    refine ⟨fun x a incl excl st h => ?_, fun x a incl excl st h => ?_⟩
    · simp only [nullableSer]
      split
      · exact .refl h
      · exact ih.py _ _ _ _ st h
    · simp only [nullableSer]
      split
      · exact .refl h
      · exact ih.json _ _ _ _ st h
  | .list name f s => by
    have ih := build_at hr hd s
    rw [build, build]
    refine ⟨fun x a incl excl st h => ?_, fun x a incl excl st h => ?_⟩
    · simp only [listSer]
      cases E.asList a with
      | none => exact (fallback_at (E := E) hr _).py x a incl excl st h
      | some xs => exact (listPy_at ih f x _ incl excl _ xs st h).map
    · simp only [listSer]
      cases E.asList a with
      | none => exact (fallback_at (E := E) hr _).json x a incl excl st h
      | some xs => exact (listJson_at ih f x _ incl excl _ xs st h).map
  | .set name frozen s => by
    have ih := build_at hr hd s
    rw [build, build]
    refine ⟨fun x a incl excl st h => ?_, fun x a incl excl st h => ?_⟩
    · simp only [setSer]
      cases E.asSet frozen a with
      | none => exact (fallback_at (E := E) hr _).py x a incl excl st h
      | some xs =>
        dsimp only
        rcases (setPy_at ih x incl excl xs st h).cases with ⟨e, st1, h3, h4, h5⟩ | ⟨o, st1, h3, h4, h5⟩
        · rw [h3, h4]; exact .refl h5
        · rw [h3, h4]
          dsimp only
          cases x.mode <;> exact .refl h5
    · simp only [setSer]
      cases E.asSet frozen a with
      | none => exact (fallback_at (E := E) hr _).json x a incl excl st h
      | some xs => exact (setJson_at ih x incl excl xs st h).map
  | .dict name f k v => by
    have ihk := build_at hr hd k
    have ih := build_at hr hd v
    rw [build, build]
    refine ⟨fun x a incl excl st h => ?_, fun x a incl excl st h => ?_⟩
    · simp only [dictSer]
      cases E.asDict a with
      | none => exact (fallback_at (E := E) hr _).py x a incl excl st h
      | some es =>
        dsimp only
        cases x.mode with
        | json => exact (dictPyJson_at E f (keyOf_guard E k) ih x incl excl es [] st h).map
        | python =>
          dsimp only
          rcases (dictPyPython_at E f ihk ih x incl excl es st h).cases with ⟨e, st1, h3, h4, h5⟩ | ⟨o, st1, h3, h4, h5⟩
          · rw [h3, h4]; exact .refl h5
          · rw [h3, h4]; exact .refl h5
    · simp only [dictSer]
      cases E.asDict a with
      | none => exact (fallback_at (E := E) hr _).json x a incl excl st h
      | some es => exact (dictJson_at E f (keyOf_guard E k) ih x incl excl es st h).map
  | .model name cls hasExtra root s => by
    rw [build, build]
    exact model_at hr name cls hasExtra root (build_at hr hd s)
  | .fields mode fs => by
    rw [build, build]
    exact fields_at hr mode (buildFields_at hr hd fs)
  | .dataclass name cls names s => by
    rw [build, build]
    exact dataclass_at hr name cls names (build_at hr hd s)
  | .jsonOrPython json python => by
    rw [build, build]
    exact ⟨(build_at hr hd python).py, (build_at hr hd json).json⟩
  | .tuple name f v items => by
    have ih := buildItems_at hr hd items
    rw [build, build]
    refine ⟨fun x a incl excl st h => ?_, fun x a incl excl st h => ?_⟩
    · simp only [tupleSer]
      cases E.asTuple a with
      | none => exact (fallback_at (E := E) hr _).py x a incl excl st h
      | some xs =>
        dsimp only
        rw [ih.length]
        split
        · exact .refl h
        · exact (tuplePy_at hr f _ x _ incl excl (ih.sers v _) _ xs st h).map
    · simp only [tupleSer]
      cases E.asTuple a with
      | none => exact (fallback_at (E := E) hr _).json x a incl excl st h
      | some xs =>
        dsimp only
        rw [ih.length]
        split
        · exact .refl h
        · exact (tupleJson_at hr f _ x _ incl excl (ih.sers v _) _ xs st h).map
  | .function fi ret other => by
    rw [build, build]
    exact function_at hr fi (build_at hr hd ret) (build_at hr hd other)
  | .ref d => by
    rw [build, build]
    exact hd d
theorem buildFields_at {E : Env α} {R R' : Recs α} (hr : AtFn P R.infer R'.infer)
    (hd : ∀ d, AtFn P (refSer E R d) (refSer E R' d)) :
    ∀ fs : Fields α, FieldsAt P (buildFields E R fs) (buildFields E R' fs)
  | .nil => by
    rw [buildFields, buildFields]
    exact .nil
  | .cons info s rest => by
    rw [buildFields, buildFields]
    exact .cons (build_at hr hd s) (buildFields_at hr hd rest)
  | .excluded info rest => by
    rw [buildFields, buildFields]
    exact .excluded (buildFields_at hr hd rest)
theorem buildItems_at {E : Env α} {R R' : Recs α} (hr : AtFn P R.infer R'.infer)
    (hd : ∀ d, AtFn P (refSer E R d) (refSer E R' d)) :
    ∀ items : Items α, ItemsAt P (buildItems E R items) (buildItems E R' items)
  | .nil => by
    rw [buildItems, buildItems]
    exact .nil
  | .cons s rest => by
    rw [buildItems, buildItems]
    exact .cons (build_at hr hd s) (buildItems_at hr hd rest)
end
end steps

/-! ### The guard -/

theorem guarded_at {p : Guard.Platform} (hp : p.Valid) {opn : List Guard.Key} {d : Nat} (hd : d ≤ 255) {O : Type}
    (k : Guard.Key) (refused : SErr → Except SErr O) {body body' : M O}
    (hb : d < p.limit → ∀ st : St, Inv (k :: opn) (d + 1) st.guard → Step (Inv (k :: opn) (d + 1)) (body st) (body' st))
    (st : St) (h : Inv opn d st.guard) :
    Step (Inv opn d) (guarded p k refused body st) (guarded p k refused body' st) := by
  unfold guarded
  have he := enter_inv hp (k := k) h hd
  cases hen : Guard.enter p st.guard k with
  | mk r g =>
    rw [hen] at he
    cases r with
    | error e => cases e <;> exact ⟨rfl, he⟩
    | ok u =>
      obtain ⟨hinv, hlt⟩ := he
      dsimp only
      rcases (hb hlt { st with guard := g } hinv).cases with ⟨e, st1, h1, h2, h3⟩ | ⟨o, st1, h1, h2, h3⟩
      · rw [h1, h2]
        obtain ⟨g1, hg1, hinv1⟩ := leave_inv h3
        dsimp only
        rw [hg1]
        exact ⟨rfl, hinv1⟩
      · rw [h1, h2]
        obtain ⟨g1, hg1, hinv1⟩ := leave_inv h3
        dsimp only
        rw [hg1]
        exact ⟨rfl, hinv1⟩

theorem recs_at {E : Env α} (hp : E.platform.Valid) (bottom bottom' : Recs α) : ∀ (n m : Nat) (opn : List Guard.Key)
    (d : Nat), d ≤ 255 → E.platform.limit ≤ n + d → E.platform.limit ≤ m + d →
      AtFn (Inv opn d) (recs E bottom (n + 1)).infer (recs E bottom' (m + 1)).infer
        ∧ ∀ dd, AtFn (Inv opn d) (refSer E (recs E bottom (n + 1)) dd) (refSer E (recs E bottom' (m + 1)) dd)
  | n, m, opn, d, hd, hn, hm => by
    have hl := (Guard.valid_limit hp).2.1
    have inner : ∀ key, d < E.platform.limit →
        AtFn (Inv (key :: opn) (d + 1)) (recs E bottom n).infer (recs E bottom' m).infer
          ∧ ∀ s, AtFn (Inv (key :: opn) (d + 1)) (build E (recs E bottom n) s) (build E (recs E bottom' m) s) := by
      intro key hlt
      cases n with
      | zero => omega
      | succ n =>
        cases m with
        | zero => omega
        | succ m =>
          obtain ⟨h1, h2⟩ := recs_at hp bottom bottom' n m (key :: opn) (d + 1) (by omega) (by omega) (by omega)
          exact ⟨h1, build_at h1 h2⟩
    refine ⟨⟨fun x a incl excl st h => ?_, fun x a incl excl st h => ?_⟩, fun dd => ⟨fun x a incl excl st h => ?_,
      fun x a incl excl st h => ?_⟩⟩
    · simp only [recs, inferPy]
      cases x.mode with
      | json =>
        exact guarded_at hp hd _ _ (fun hlt st h => pyJsonBody_at (inner _ hlt).1 (inner _ hlt).2 x a incl excl st h)
          st h
      | python =>
        exact guarded_at hp hd _ _ (fun hlt st h => pyPythonBody_at (inner _ hlt).1 (inner _ hlt).2 x a incl excl st h)
          st h
    · simp only [recs, inferJson]
      exact guarded_at hp hd _ _ (fun hlt st h => jsonBody_at (inner _ hlt).1 (inner _ hlt).2 x a incl excl st h) st h
    · simp only [refSer, recs]
      exact guarded_at hp hd _ _ (fun hlt st h => ((inner _ hlt).2 _).py x a incl excl st h) st h
    · simp only [refSer, recs]
      exact guarded_at hp hd _ _ (fun hlt st h => ((inner _ hlt).2 _).json x a incl excl st h) st h

theorem whole_at {E : Env α} (hp : E.platform.Valid) (bottom bottom' : Recs α) (n m : Nat)
    (hn : E.platform.limit < n) (hm : E.platform.limit < m) (s : Schema α) :
    AtFn (Inv [] 0) (build E (recs E bottom n) s) (build E (recs E bottom' m) s) := by
  obtain ⟨n, rfl⟩ : ∃ n', n = n' + 1 := ⟨n - 1, by omega⟩
  obtain ⟨m, rfl⟩ : ∃ m', m = m' + 1 := ⟨m - 1, by omega⟩
  obtain ⟨h1, h2⟩ := recs_at (E := E) hp bottom bottom' n m [] 0 (by omega) (by omega) (by omega)
  exact build_at h1 h2 s

theorem fresh_inv : Inv [] 0 freshSt.guard := ⟨by simp [Guard.Weak, freshSt, Guard.State.init], Nat.zero_le _⟩

end PC.Infer
