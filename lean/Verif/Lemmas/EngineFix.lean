import Verif.Spec.Revalidate
import Verif.Lemmas.EnginePostTyped
import Verif.Lemmas.RecursionGuard

/-
Values that a validator gives back.
-/

namespace PC.Engine
open PC.Comb PC.Coll PC.Union PC.Fields PC.Lookup
variable {α : Type}

/-- What stays the same during a run: platform, strictness, lookup flags. -/
structure Mode where
  platform : Guard.Platform
  strict : Option Bool
  byAlias : Option Bool
  byName : Option Bool
  fromAttributes : Option Bool

/-- The state of such a run that holds the keys `opn` in the guard. -/
structure Ready (c : Mode) (opn : List Guard.Key) (st : VState α) : Prop where
  strict : st.extra.strict = c.strict
  byAlias : st.extra.byAlias = c.byAlias
  byName : st.extra.byName = c.byName
  off : st.allowPartial = .off
  guard : Guard.Good c.platform opn st.guard
  attrs : st.extra.fromAttributes = c.fromAttributes

/-- The validator gives `y` back. -/
def Fix (c : Mode) (opn : List Guard.Key) (v : Validator α α) (y : α) : Prop :=
  ∀ st, Ready c opn st → ∃ st', v y st = (.ok y, st') ∧ Ready c opn st'

variable {c : Mode} {opn : List Guard.Key}

theorem Ready.floor {st : VState α} (h : Ready c opn st) (e : Exactness) : Ready c opn (st.floorExactness e) := by
  obtain ⟨h1, h2, h3, h4, h5, h6⟩ := h
  simp only [VState.floorExactness]
  split
  · exact ⟨h1, h2, h3, h4, h5, h6⟩
  · exact ⟨h1, h2, h3, h4, h5, h6⟩
  · split <;> exact ⟨h1, h2, h3, h4, h5, h6⟩
  · exact ⟨h1, h2, h3, h4, h5, h6⟩

theorem Ready.setPartial {st : VState α} (h : Ready c opn st) (b : Bool) : Ready c opn (setPartial .off b st) :=
  ⟨h.1, h.2, h.3, by cases b <;> rfl, h.5, h.6⟩

theorem Ready.strictOr {st : VState α} (h : Ready c opn st) (b : Bool) : st.strictOr b = c.strict.getD b := by
  rw [VState.strictOr, h.strict]

theorem fix_leaf (l : Leaf α) {y : α} (h : ∃ ex, l.check (c.strict.getD l.strict) y = .ok (y, ex)) :
    Fix c opn l.validate y := by
  obtain ⟨ex, h⟩ := h
  intro st hst
  refine ⟨st.floorExactness ex, ?_, hst.floor ex⟩
  simp only [Leaf.validate, hst.strictOr, h]

theorem fix_none {isNone : α → Bool} {noneV : α} {v : Validator α α} (h : isNone noneV = true) :
    Fix c opn (nullable isNone noneV v) noneV := by
  intro st hst
  exact ⟨st, by simp only [nullable, h, if_true], hst⟩

theorem fix_nullable {isNone : α → Bool} {noneV : α} {v : Validator α α} {y : α} (h : isNone y = true → y = noneV)
    (hv : Fix c opn v y) : Fix c opn (nullable isNone noneV v) y := by
  intro st hst
  by_cases hn : isNone y = true
  · exact ⟨st, by simp only [nullable, hn, if_true, ← h hn], hst⟩
  · obtain ⟨st', h1, h2⟩ := hv st hst
    exact ⟨st', by simp only [nullable, hn, Bool.false_eq_true, if_false]; exact h1, h2⟩

theorem fitsMax_incr {mlc : MaxLengthCheck α} {n : Nat} (h : FitsMax mlc.maxLength (mlc.current + (n + 1))) :
    ∃ mlc', mlc.incr = .ok mlc' ∧ FitsMax mlc'.maxLength (mlc'.current + n) := by
  cases hm : mlc.maxLength with
  | none =>
    refine ⟨mlc, ?_, fun k hk => (by rw [hm] at hk; cases hk)⟩
    simp only [MaxLengthCheck.incr, hm]
  | some k =>
    have := h k hm
    refine ⟨{ mlc with current := mlc.current + 1 }, ?_, fun k' hk => ?_⟩
    · simp only [MaxLengthCheck.incr, hm]
      rw [if_neg (by omega)]
    · rw [hm] at hk
      cases hk
      dsimp only
      omega

theorem fix_vecLoop {v : Validator α α} (ff : Bool) : ∀ (ys : List α) (i : Nat) (mlc : MaxLengthCheck α) (out : List α)
    (st : VState α), (∀ y ∈ ys, Fix c opn v y) → FitsMax mlc.maxLength (mlc.current + ys.length) → Ready c opn st →
    ∃ st', vecLoop v .off ff (enumerateLastPartial .off i (ys.map .ok)) mlc out [] st = ⟨.ok (out ++ ys), st', []⟩ ∧
      Ready c opn st'
  | [], i, mlc, out, st, _, _, hst => ⟨st, by simp [enumerateLastPartial, vecLoop], hst⟩
  | y :: ys, i, mlc, out, st, hv, hm, hst => by
    obtain ⟨st1, h1, h2⟩ := hv y (.head _) _ (hst.setPartial false)
    obtain ⟨mlc', h3, h4⟩ := fitsMax_incr (n := ys.length) hm
    obtain ⟨st', h5, h6⟩ := fix_vecLoop ff ys (i + 1) mlc' (out ++ [y]) st1 (fun z hz => hv z (.tail _ hz)) h4 h2
    refine ⟨st', ?_, h6⟩
    simp only [List.map_cons, enumerateLastPartial, vecLoop]
    rw [show (PartialMode.off.isActive && (List.map Except.ok ys : List (Except PyErr α)).isEmpty) = false from rfl]
    rw [h1]
    dsimp only
    rw [h3]
    dsimp only
    rw [h5, List.append_assoc]
    rfl

theorem minCheck_ok {input : α} {ft : String} {mn : Option Nat} {n : Nat} (h : FitsMin mn n) :
    minLengthCheck input ft mn n = .ok () := by
  unfold minLengthCheck
  cases mn with
  | none => rfl
  | some k =>
    have := h k rfl
    simp [Option.filter, Nat.not_lt.mpr this]

theorem check_ok {input : α} {ft : String} {mn mx : Option Nat} {n : Nat} (h : FitsMin mn n) (h' : FitsMax mx n) :
    lengthCheck input ft mn mx n = .ok () := by
  unfold lengthCheck
  have h1 : mn.filter (n < ·) = none := by
    cases mn with
    | none => rfl
    | some k => simp [Option.filter, Nat.not_lt.mpr (h k rfl)]
  have h2 : mx.filter (· < n) = none := by
    cases mx with
    | none => rfl
    | some k => simp [Option.filter, Nat.not_lt.mpr (h' k rfl)]
  simp only [h1, h2]

theorem fix_list (l : ListV α) (v : Validator α α) (hl : l.item = some v) (ys : List α)
    (has : ∀ strict, ∃ len py ex, l.asList strict (l.build ys) = .ok (⟨ys.map .ok, len, py⟩, ex))
    (hv : ∀ y ∈ ys, Fix c opn v y) (hmn : FitsMin l.minLength ys.length) (hmx : FitsMax l.maxLength ys.length) :
    Fix c opn l.validate (l.build ys) := by
  intro st hst
  obtain ⟨len, py, ex, h⟩ := has (st.strictOr l.strict)
  obtain ⟨st', h1, h2⟩ := fix_vecLoop l.failFast ys 0 (MaxLengthCheck.new l.maxLength "List" (l.build ys) len) []
    (st.floorExactness ex) hv (by simpa [MaxLengthCheck.new] using hmx) (hst.floor ex)
  refine ⟨st', ?_, h2⟩
  simp only [ListV.validate, h, hl, validateIterToVec, (hst.floor ex).off, h1, List.nil_append, minCheck_ok hmn]

theorem fix_setLoop (h : Hashing α) {v : Validator α α} (input : α) (ft : String) (mx : Option Nat) (ff : Bool) :
    ∀ (ys : List α) (i : Nat) (set : List α) (st : VState α), (∀ y ∈ ys, Fix c opn v y) → SetOk h (set ++ ys) →
    FitsMax mx (set ++ ys).length → Ready c opn st →
    ∃ st', setLoop h v input ft mx .off ff (enumerateLastPartial .off i (ys.map .ok)) set [] st =
      ⟨.ok (set ++ ys), st', []⟩ ∧ Ready c opn st'
  | [], i, set, st, _, _, _, hst => ⟨st, by simp [enumerateLastPartial, setLoop], hst⟩
  | y :: ys, i, set, st, hv, hs, hm, hst => by
    obtain ⟨st1, h1, h2⟩ := hv y (.head _) _ (hst.setPartial false)
    have happ : set ++ y :: ys = (set ++ [y]) ++ ys := by simp
    obtain ⟨st', h5, h6⟩ := fix_setLoop h input ft mx ff ys (i + 1) (set ++ [y]) st1 (fun z hz => hv z (.tail _ hz))
      (happ ▸ hs) (happ ▸ hm) h2
    have hadd : h.add set y = .ok (set ++ [y]) := by
      simp only [Hashing.add, hs.1 y (by simp)]
      have : (set.any fun x => h.same x y) = false := by
        rw [List.any_eq_false]
        intro x hx
        rw [(List.pairwise_append.mp hs.2).2.2 x hx y (.head _)]
        exact Bool.false_ne_true
      rw [this]
      rfl
    have hlen : mx.filter (· < (set ++ [y]).length) = none := by
      cases mx with
      | none => rfl
      | some k =>
        have := hm k rfl
        simp only [List.length_append, List.length_cons, List.length_nil] at this ⊢
        exact if_neg (by simp only [decide_eq_true_eq]; omega)
    refine ⟨st', ?_, h6⟩
    simp only [List.map_cons, enumerateLastPartial, setLoop]
    rw [show (PartialMode.off.isActive && (List.map Except.ok ys : List (Except PyErr α)).isEmpty) = false from rfl]
    simp only [validateAdd, h1, hadd, hlen]
    simp only [List.isEmpty_nil, Bool.not_true, Bool.and_false, Bool.false_eq_true, if_false]
    rw [h5, happ]

theorem SetOk.perm {h : Hashing α} (hsym : ∀ x y, h.same x y = h.same y x) {ys zs : List α} (hp : zs.Perm ys)
    (hs : SetOk h ys) : SetOk h zs :=
  ⟨fun y hy => hs.1 y (hp.subset hy), (hp.pairwise_iff (fun {a b} hab => by rw [hsym]; exact hab)).mpr hs.2⟩

theorem fix_set (s : SetV α) (hsym : ∀ x y, s.hashing.same x y = s.hashing.same y x) (ys : List α)
    (hs : SetOk s.hashing ys)
    (has : ∀ strict, ∃ zs len py ex, s.asSet strict (s.build ys) = .ok (⟨zs.map .ok, len, py⟩, ex) ∧
      zs.Perm ys ∧ s.build zs = s.build ys)
    (hv : ∀ y ∈ ys, Fix c opn s.item y) (hmn : FitsMin s.minLength ys.length) (hmx : FitsMax s.maxLength ys.length) :
    Fix c opn s.validate (s.build ys) := by
  intro st hst
  obtain ⟨zs, len, py, ex, h, hp, hb⟩ := has (st.strictOr s.strict)
  obtain ⟨st', h1, h2⟩ := fix_setLoop s.hashing (s.build ys) s.fieldType s.maxLength s.failFast zs 0 []
    (st.floorExactness ex) (fun y hy => hv y (hp.subset hy)) (hs.perm hsym hp)
    (by rw [List.nil_append, hp.length_eq]; exact hmx) (hst.floor ex)
  refine ⟨st', ?_, h2⟩
  rw [← hp.length_eq] at hmn
  simp only [SetV.validate, h, validateIterToSet, (hst.floor ex).off, h1, List.nil_append, minCheck_ok hmn, hb]

theorem setItem_new {h : Hashing α} {k w : α} : ∀ {d : List (α × α)}, (∀ x ∈ d, h.same x.1 k = false) →
    setItem h d k w = d ++ [(k, w)]
  | [], _ => rfl
  | (k', v') :: rest, hd => by
    simp only [setItem, hd (k', v') (.head _), Bool.false_eq_true, if_false,
      setItem_new (fun x hx => hd x (.tail _ hx)), List.cons_append]

theorem fix_dictLoop (d : DictV α) (input : α) : ∀ (kvs : List (α × α)) (i : Nat) (out : List (α × α)) (st : VState α),
    (∀ x ∈ kvs, Fix c opn d.key x.1) → (∀ x ∈ kvs, Fix c opn d.value x.2) → DictOk d.hashing (out ++ kvs) →
    FitsMin d.minLength (out ++ kvs).length → FitsMax d.maxLength (out ++ kvs).length → Ready c opn st →
    ∃ st', dictLoop d input .off (enumerateLastPartial .off i (kvs.map .ok)) out [] st =
      (.ok (d.build (out ++ kvs)), st') ∧ Ready c opn st'
  | [], i, out, st, _, _, _, hmn, hmx, hst => by
    rw [List.append_nil] at hmn hmx ⊢
    exact ⟨st, by simp [enumerateLastPartial, dictLoop, check_ok hmn hmx], hst⟩
  | (k, w) :: kvs, i, out, st, hk, hw, hd, hmn, hmx, hst => by
    obtain ⟨st1, h1, h2⟩ := hk (k, w) (.head _) { st with allowPartial := .off } ⟨hst.1, hst.2, hst.3, rfl, hst.5, hst.6⟩
    obtain ⟨st2, h3, h4⟩ := hw (k, w) (.head _) _ (h2.setPartial false)
    have happ : out ++ (k, w) :: kvs = (out ++ [(k, w)]) ++ kvs := by simp
    obtain ⟨st', h5, h6⟩ := fix_dictLoop d input kvs (i + 1) (out ++ [(k, w)]) st2 (fun z hz => hk z (.tail _ hz))
      (fun z hz => hw z (.tail _ hz)) (happ ▸ hd) (happ ▸ hmn) (happ ▸ hmx) h4
    refine ⟨st', ?_, h6⟩
    have hset : setItem d.hashing out k w = out ++ [(k, w)] :=
      setItem_new fun x hx => (List.pairwise_append.mp hd.2).2.2 x hx (k, w) (.head _)
    simp only [List.map_cons, enumerateLastPartial, dictLoop]
    rw [show (PartialMode.off.isActive && (List.map Except.ok kvs : List (ValResult α (α × α))).isEmpty) = false from rfl]
    dsimp only at h1 h3
    simp only [h1, h3, hd.1 (k, w) (by simp), hset, h5, happ]

theorem fix_dict (d : DictV α) (kvs : List (α × α)) (hd : DictOk d.hashing kvs)
    (has : ∀ strict, d.asDict strict (d.build kvs) = .ok (kvs.map .ok))
    (hk : ∀ x ∈ kvs, Fix c opn d.key x.1) (hw : ∀ x ∈ kvs, Fix c opn d.value x.2)
    (hmn : FitsMin d.minLength kvs.length) (hmx : FitsMax d.maxLength kvs.length) :
    Fix c opn d.validate (d.build kvs) := by
  intro st hst
  obtain ⟨st', h1, h2⟩ := fix_dictLoop d (d.build kvs) kvs 0 [] st hk hw hd hmn hmx hst
  exact ⟨st', by simp only [DictV.validate, has, hst.off, h1, List.nil_append], h2⟩

theorem fix_customError (t : ErrType) {v : Validator α α} {y : α} (h : Fix c opn v y) : Fix c opn (customError t v) y := by
  intro st hst
  obtain ⟨st', h1, h2⟩ := h st hst
  exact ⟨st', by simp only [customError, h1], h2⟩

/-! ### Tuples -/

theorem fix_tupleItem (t : TupleV α) (input : α) (len : Option Nat) {v : Validator α α} (index : Nat) {y : α}
    (out : List α) {st : VState α} (hv : Fix c opn v y) (hm : FitsMax t.maxLength (out.length + 1)) (hst : Ready c opn st) :
    ∃ st', tupleItem t input len v index y ⟨out, [], st⟩ = (⟨out ++ [y], [], st'⟩, none) ∧ Ready c opn st' := by
  obtain ⟨st', h1, h2⟩ := hv st hst
  refine ⟨st', ?_, h2⟩
  have hlen : t.maxLength.filter (· < (out ++ [y]).length) = none := by
    cases hmx : t.maxLength with
    | none => rfl
    | some k =>
      have := hm k hmx
      simp only [List.length_append, List.length_cons, List.length_nil]
      exact if_neg (by simp only [decide_eq_true_eq]; omega)
  simp only [tupleItem, h1, pushOutputItem, hlen]

/-- The item validators give the values back, one for one. -/
abbrev FixAll (c : Mode) (opn : List Guard.Key) : List (TItem α) → List α → Prop :=
  All2 fun v y => Fix c opn v.validate y

theorem fix_tupleItems (t : TupleV α) (input : α) (len : Option Nat) : ∀ (vs : List (TItem α)) (ys : List α)
    (rest : List (Except PyErr α)) (i n : Nat) (out : List α) (st : VState α), FixAll c opn vs ys →
    FitsMax t.maxLength (out.length + ys.length) → Ready c opn st →
    ∃ st', tupleItems t input len vs ⟨ys.map .ok ++ rest, i, none, n⟩ ⟨out, [], st⟩ =
      ((⟨out ++ ys, [], st'⟩, none), ⟨rest, i + ys.length, none, n + ys.length⟩) ∧ Ready c opn st'
  | [], _, rest, i, n, out, st, .nil, _, hst => ⟨st, by simp [tupleItems], hst⟩
  | v :: vs, _, rest, i, n, out, st, @All2.cons _ _ _ _ y _ ys hv hvs, hm, hst => by
    obtain ⟨st1, h1, h2⟩ := fix_tupleItem t input len n out hv
      (fun k hk => by have := hm k hk; simp only [List.length_cons] at this; omega) hst
    obtain ⟨st', h3, h4⟩ := fix_tupleItems t input len vs ys rest (i + 1) (n + 1) (out ++ [y]) st1 hvs
      (fun k hk => by
        have := hm k hk
        simp only [List.length_cons, List.length_append, List.length_nil] at this ⊢
        omega) h2
    refine ⟨st', ?_, h4⟩
    simp only [tupleItems, List.map_cons, List.cons_append, TIter.next, TIter.pull, Option.isSome_none,
      Bool.false_eq_true, if_false, Option.map_some, h1, List.isEmpty_nil, Bool.not_true, Bool.and_false, h3,
      List.append_assoc, List.nil_append, List.length_cons]
    rw [show i + 1 + ys.length = i + (ys.length + 1) by omega, show n + 1 + ys.length = n + (ys.length + 1) by omega]


theorem fix_variadicLoop (t : TupleV α) (input : α) (len : Option Nat) {v : Validator α α} : ∀ (ys : List α)
    (it : TIter α) (out : List α) (st : VState α), it.rest = ys.map .ok → it.err = none → (∀ y ∈ ys, Fix c opn v y) →
    FitsMax t.maxLength (out.length + ys.length) → Ready c opn st →
    ∃ st' it', variadicLoop t input len v (ys.map .ok) it ⟨out, [], st⟩ = ((⟨out ++ ys, [], st'⟩, none), false, it') ∧
      it'.err = none ∧ Ready c opn st'
  | [], it, out, st, hr, he, _, _, hst => by
    refine ⟨st, it.next.2, by simp only [List.map_nil, variadicLoop, List.append_nil], ?_, hst⟩
    simp only [TIter.next, TIter.pull, he, hr, Option.isSome_none, Bool.false_eq_true, if_false, List.map_nil]
  | y :: ys, it, out, st, hr, he, hv, hm, hst => by
    obtain ⟨st1, h1, h2⟩ := fix_tupleItem t input len it.count out (hv y (.head _))
      (fun k hk => by have := hm k hk; simp only [List.length_cons] at this; omega) hst
    obtain ⟨st', it', h3, h4⟩ := fix_variadicLoop t input len ys
      { it with rest := ys.map .ok, index := it.index + 1, count := it.count + 1 } (out ++ [y]) st1 rfl he
      (fun z hz => hv z (.tail _ hz))
      (fun k hk => by
        have := hm k hk
        simp only [List.length_cons, List.length_append, List.length_nil] at this ⊢
        omega) h2
    refine ⟨st', it', ?_, h4⟩
    simp only [List.map_cons, variadicLoop, h1, List.isEmpty_nil, Bool.not_true, Bool.and_false, Bool.false_eq_true,
      if_false, h3, List.append_assoc, List.cons_append, List.nil_append]

theorem takeInner_map : ∀ (ys zs : List α) (i n : Nat),
    TIter.takeInner ys.length ⟨ys.map .ok ++ zs.map .ok, i, none, n⟩ = (ys, ⟨zs.map .ok, i + ys.length, none, n⟩)
  | [], zs, i, n => rfl
  | y :: ys, zs, i, n => by
    simp only [List.length_cons, TIter.takeInner, List.map_cons, List.cons_append, TIter.pull, Option.isSome_none,
      Bool.false_eq_true, if_false, takeInner_map ys zs]
    rw [show i + 1 + ys.length = i + (ys.length + 1) by omega]

theorem fix_bufferLoop (t : TupleV α) (input : α) (len : Option Nat) {v : Validator α α} (ts : List α) (hts : ts ≠ []) :
    ∀ (rest : List α) (vs buffer : List α) (it : TIter α) (index : Nat) (out : List α) (st : VState α),
    buffer ++ rest = vs ++ ts → rest.length = vs.length → it.rest = rest.map .ok → it.err = none →
    (∀ y ∈ vs, Fix c opn v y) → FitsMax t.maxLength (out.length + vs.length) → Ready c opn st →
    ∃ st' it' i', bufferLoop t input len v (rest.map .ok) it index buffer ⟨out, [], st⟩ =
      ((⟨out ++ vs, [], st'⟩, none), some (false, i', ts, it')) ∧ it'.err = none ∧ Ready c opn st'
  | [], vs, buffer, it, index, out, st, hb, hl, hr, he, _, _, hst => by
    obtain rfl : vs = [] := List.eq_nil_of_length_eq_zero (by simpa using hl.symm)
    simp only [List.append_nil, List.nil_append] at hb
    subst hb
    refine ⟨st, it.next.2, index, by simp only [List.map_nil, bufferLoop, List.append_nil], ?_, hst⟩
    simp only [TIter.next, TIter.pull, he, hr, Option.isSome_none, Bool.false_eq_true, if_false, List.map_nil]
  | a :: rest, vs, buffer, it, index, out, st, hb, hl, hr, he, hv, hm, hst => by
    cases vs with
    | nil => simp at hl
    | cons w vs =>
      simp only [List.length_cons, Nat.add_right_cancel_iff] at hl
      cases buffer with
      | nil =>
        exfalso
        have := congrArg List.length hb
        simp only [List.nil_append, List.length_cons, List.length_append] at this
        have : ts.length ≠ 0 := fun h => hts (List.eq_nil_of_length_eq_zero h)
        omega
      | cons b buffer =>
        simp only [List.cons_append] at hb
        injection hb with hb1 hb2
        subst hb1
        obtain ⟨st1, h1, h2⟩ := fix_tupleItem t input len it.count out (hv b (.head _))
          (fun k hk => by have := hm k hk; simp only [List.length_cons] at this; omega) hst
        obtain ⟨st', it', i', h3, h4⟩ := fix_bufferLoop t input len ts hts rest vs (buffer ++ [a])
          { it with rest := rest.map .ok, index := it.index + 1, count := it.count + 1 } it.count (out ++ [b]) st1
          (by simpa using hb2) hl rfl he (fun z hz => hv z (.tail _ hz))
          (fun k hk => by
            have := hm k hk
            simp only [List.length_cons, List.length_append, List.length_nil] at this ⊢
            omega) h2
        refine ⟨st', it', i', ?_, h4⟩
        simp only [List.map_cons, bufferLoop, h1, List.isEmpty_nil, Bool.not_true, Bool.and_false, Bool.false_eq_true,
          if_false, h3, List.append_assoc, List.cons_append, List.nil_append]

theorem tupleMin_ok (t : TupleV α) (input : α) {n : Nat} (h : FitsMin t.minLength n) : tupleMinLengthError t input n = [] := by
  unfold tupleMinLengthError
  have : t.minLength.filter (n < ·) = none := by
    cases hm : t.minLength with
    | none => rfl
    | some k => simp [Option.filter, Nat.not_lt.mpr (h k hm)]
  rw [this]

theorem All2.length {β γ : Type} {R : β → γ → Prop} : ∀ {as : List β} {bs : List γ}, All2 R as bs → as.length = bs.length
  | _, _, .nil => rfl
  | _, _, .cons _ h => by rw [List.length_cons, List.length_cons, All2.length h]

theorem fix_tuple (p : ValResult α α) (t : TupleV α) (hvar : t.variadic = none) (ys : List α)
    (has : ∀ strict, ∃ len py ex, t.asTuple strict (t.build ys) = .ok (⟨ys.map .ok, len, py⟩, ex))
    (hv : FixAll c opn t.head ys) (hmn : FitsMin t.minLength ys.length) (hmx : FitsMax t.maxLength ys.length) :
    Fix c opn (tupleRun p t) (t.build ys) := by
  intro st hst
  have hst0 : Ready c opn ({ st with allowPartial := .off } : VState α) := ⟨hst.1, hst.2, hst.3, rfl, hst.5, hst.6⟩
  obtain ⟨len, py, ex, h⟩ := has (({ st with allowPartial := .off } : VState α).strictOr t.strict)
  obtain ⟨st', h1, h2⟩ := fix_tupleItems t (t.build ys) len t.head ys [] 0 0 []
    (({ st with allowPartial := .off } : VState α).floorExactness ex) hv (by simpa using hmx) (hst0.floor ex)
  simp only [List.append_nil, List.nil_append, Nat.zero_add] at h1
  refine ⟨st', ?_, h2⟩
  simp only [tupleRun, TupleV.validate, h, tupleVariable, hvar, h1, Option.isSome_none, List.isEmpty_nil, Bool.not_true,
    Bool.and_false, Bool.or_false, Bool.false_eq_true, if_false, TIter.next, TIter.pull, Option.map_none,
    tupleMin_ok t _ hmn, List.append_nil, if_true, Option.getD_some]

theorem fix_tupleVar (p : ValResult α α) (t : TupleV α) (v : TItem α) (tail : List (TItem α))
    (hvar : t.variadic = some (v, tail)) (hs vs ts : List α)
    (has : ∀ strict, ∃ len py ex, t.asTuple strict (t.build (hs ++ (vs ++ ts))) = .ok (⟨(hs ++ (vs ++ ts)).map .ok, len, py⟩, ex))
    (hh : FixAll c opn t.head hs) (hv : ∀ y ∈ vs, Fix c opn v.validate y) (ht : FixAll c opn tail ts)
    (hmn : FitsMin t.minLength (hs ++ (vs ++ ts)).length) (hmx : FitsMax t.maxLength (hs ++ (vs ++ ts)).length) :
    Fix c opn (tupleRun p t) (t.build (hs ++ (vs ++ ts))) := by
  intro st hst
  have hst0 : Ready c opn ({ st with allowPartial := .off } : VState α) := ⟨hst.1, hst.2, hst.3, rfl, hst.5, hst.6⟩
  obtain ⟨len, py, ex, h⟩ := has (({ st with allowPartial := .off } : VState α).strictOr t.strict)
  have hmx' : ∀ k, t.maxLength = some k → hs.length + (vs.length + ts.length) ≤ k := by
    intro k hk
    have := hmx k hk
    simpa using this
  obtain ⟨st1, h1, h2⟩ := fix_tupleItems t (t.build (hs ++ (vs ++ ts))) len t.head hs ((vs ++ ts).map .ok) 0 0 []
    (({ st with allowPartial := .off } : VState α).floorExactness ex) hh
    (fun k hk => by have := hmx' k hk; simp only [List.length_nil]; omega) (hst0.floor ex)
  rw [← List.map_append, List.nil_append] at h1
  by_cases htl : tail = []
  · subst htl
    obtain rfl : ts = [] := by cases ht; rfl
    obtain ⟨st', it', h3, h4, h5⟩ := fix_variadicLoop t (t.build (hs ++ (vs ++ []))) len vs
      ⟨(vs ++ []).map .ok, 0 + hs.length, none, 0 + hs.length⟩ hs st1 (by simp) rfl hv
      (fun k hk => by have := hmx' k hk; omega) h2
    refine ⟨st', ?_, h5⟩
    simp only [List.append_nil] at h h1 h3 hmn ⊢
    simp only [tupleRun, TupleV.validate, h, tupleVariable, hvar, h1, Option.isSome_none, List.isEmpty_nil, Bool.not_true,
      Bool.and_false, Bool.or_false, Bool.false_eq_true, if_false, if_true, h3, h4, tupleMin_ok t _ hmn, List.append_nil,
      Option.getD_some]
  · have htn : ts ≠ [] := by
      rintro rfl
      cases ht
      exact htl rfl
    have hle : tail.length = ts.length := ht.length
    have hsplit : (vs ++ ts).take tail.length ++ (vs ++ ts).drop tail.length = vs ++ ts := List.take_append_drop ..
    have htake : ((vs ++ ts).take tail.length).length = tail.length := by
      rw [List.length_take, List.length_append]; omega
    have hdrop : ((vs ++ ts).drop tail.length).length = vs.length := by
      rw [List.length_drop, List.length_append]; omega
    have htk := takeInner_map ((vs ++ ts).take tail.length) ((vs ++ ts).drop tail.length) (0 + hs.length) (0 + hs.length)
    rw [← List.map_append, hsplit, htake] at htk
    obtain ⟨st2, it2, i2, h3, h4, h5⟩ := fix_bufferLoop t (t.build (hs ++ (vs ++ ts))) len ts htn
      ((vs ++ ts).drop tail.length) vs ((vs ++ ts).take tail.length)
      ⟨((vs ++ ts).drop tail.length).map .ok, 0 + hs.length + tail.length, none, 0 + hs.length⟩ (0 + hs.length) hs st1
      hsplit hdrop rfl rfl hv (fun k hk => by have := hmx' k hk; omega) h2
    obtain ⟨st', h6, h7⟩ := fix_tupleItems t (t.build (hs ++ (vs ++ ts))) len tail ts [] 0 i2 (hs ++ vs) st2 ht
      (fun k hk => by have := hmx' k hk; rw [List.length_append]; omega) h5
    rw [List.append_nil] at h6
    have htl' : tail.isEmpty = false := by cases tail with
      | nil => exact absurd rfl htl
      | cons _ _ => rfl
    refine ⟨st', ?_, h7⟩
    simp only [tupleRun, TupleV.validate, h, tupleVariable, hvar, h1, Option.isSome_none, List.isEmpty_nil, Bool.not_true,
      Bool.and_false, Bool.or_false, Bool.false_eq_true, if_false, if_true, htl', htk, h3, h6, h4, List.append_assoc,
      tupleMin_ok t _ hmn, List.append_nil, Option.getD_some]

/-! ### Typed dicts -/

theorem get_notMem {n : String} : ∀ {d : Dict α}, n ∉ d.map Prod.fst → Dict.get n d = none
  | [], _ => rfl
  | (k, v) :: d, h => by
    simp only [List.map_cons, List.mem_cons, not_or] at h
    rw [Dict.get, if_neg (fun e => h.1 e.symm), get_notMem h.2]

theorem get_mem {n : String} {v : α} : ∀ {d : Dict α}, (d.map Prod.fst).Nodup → (n, v) ∈ d → Dict.get n d = some v
  | (k, w) :: d, hd, h => by
    simp only [List.map_cons, List.nodup_cons] at hd
    rcases List.mem_cons.mp h with h | h
    · cases h
      rw [Dict.get, if_pos rfl]
    · have hne : k ≠ n := fun e => hd.1 (e ▸ List.mem_map_of_mem (f := Prod.fst) h)
      rw [Dict.get, if_neg hne, get_mem hd.2 h]

/-- A field whose value is given back, or that may be absent. -/
structure FieldFix (c : Mode) (opn : List Guard.Key) (ba bn : Bool) (D ds : Dict α) (f : Field α) : Prop where
  key : f.keys.select ba bn = .ok (.simple (.ofStr f.name))
  present : ∀ v, (f.name, v) ∈ ds → Fix c opn f.run v ∧ Dict.get f.name D = some v
  absent : f.name ∉ ds.map Prod.fst → Dict.get f.name D = none ∧ f.required = false ∧ ∀ loc st, f.dflt loc st = (.ok none, st)

theorem FieldFix.mono {ba bn : Bool} {D ds ds' : Dict α} {f : Field α} (h : FieldFix c opn ba bn D ds f)
    (hsub : ∀ x ∈ ds', x ∈ ds) (hne : f.name ∈ ds.map Prod.fst → f.name ∈ ds'.map Prod.fst) :
    FieldFix c opn ba bn D ds' f :=
  ⟨h.key, fun v hv => h.present v (hsub _ hv), fun hn => h.absent fun hm => hn (hne hm)⟩

theorem fix_fieldLoop (t : TypedDict α) (view : DictView α) (input : α) (ba bn : Bool) (D : Dict α)
    (hget : ∀ n, view.get (.simple (.ofStr n)) = .ok ((Dict.get n D).map fun v => (.ofStr n, v))) :
    ∀ (fs : List (Field α)) (ds : Dict α) (acc : FAcc α), (ds.map Prod.fst).Sublist (fs.map Field.name) →
    (fs.map Field.name).Nodup → (∀ f ∈ fs, FieldFix c opn ba bn D ds f) → acc.errs = [] →
    (∀ f ∈ fs, f.name ∉ acc.dict.map Prod.fst) → Ready c opn acc.st →
    ∃ acc', t.fieldLoop view input ba bn none .off fs acc = (.ok (), acc') ∧ acc'.dict = acc.dict ++ ds ∧
      acc'.errs = [] ∧ (∀ k, k ∈ acc'.used ↔ k ∈ acc.used ∨ k ∈ ds.map Prod.fst) ∧ Ready c opn acc'.st
  | [], ds, acc, hsub, _, _, he, _, hst => by
    obtain rfl : ds = [] := by
      cases ds with
      | nil => rfl
      | cons _ _ => cases hsub
    exact ⟨acc, by simp only [TypedDict.fieldLoop], by simp, he, by simp, hst⟩
  | f :: fs, ds, acc, hsub, hnd, hf, he, hnew, hst => by
    simp only [List.map_cons, List.nodup_cons] at hnd
    rw [List.map_cons] at hsub
    have h0 := hf f (.head _)
    rcases List.sublist_cons_iff.mp hsub with hsub' | ⟨r, hr, hsub'⟩
    · have hn : f.name ∉ ds.map Prod.fst := fun h => hnd.1 (hsub'.subset h)
      obtain ⟨h1, h2, h3⟩ := h0.absent hn
      obtain ⟨acc', h4, h5⟩ := fix_fieldLoop t view input ba bn D hget fs ds acc hsub' hnd.2
        (fun g hg => hf g (.tail _ hg)) he (fun g hg => hnew g (.tail _ hg)) hst
      refine ⟨acc', ?_, h5⟩
      simp only [TypedDict.fieldLoop, TypedDict.fieldStep, h0.key, hget, h1, Option.map_none, h3, h2, rebindExtra,
        Bool.false_eq_true, if_false]
      exact h4
    · cases ds with
      | nil => simp at hr
      | cons x ds =>
        obtain ⟨n, v⟩ := x
        simp only [List.map_cons, List.cons.injEq] at hr
        obtain ⟨hn, hr⟩ := hr
        subst hr
        subst hn
        obtain ⟨h1, h2⟩ := h0.present v (.head _)
        obtain ⟨st1, h3, h4⟩ := h1
          { acc.st with
            allowPartial := .off
            extra := { acc.st.extra with data := some acc.dict, fieldName := some f.name } }
          ⟨hst.1, hst.2, hst.3, rfl, hst.5, hst.6⟩
        have hnew0 := hnew f (.head _)
        obtain ⟨acc', h5, h6, h7, h8, h9⟩ := fix_fieldLoop t view input ba bn D hget fs ds
          { acc with used := acc.used ++ [f.name], st := { st1 with extra := acc.st.extra },
                     dict := acc.dict ++ [(f.name, v)], count := acc.count + 1 } hsub' hnd.2
          (fun g hg => (hf g (.tail _ hg)).mono (fun x hx => .tail _ hx) (fun hm => by
            simp only [List.map_cons, List.mem_cons] at hm
            rcases hm with hm | hm
            · exact absurd (hm ▸ List.mem_map_of_mem hg) hnd.1
            · exact hm)) he
          (fun g hg => by
            simp only [List.map_append, List.map_cons, List.map_nil, List.mem_append, List.mem_singleton, not_or]
            exact ⟨hnew g (.tail _ hg), fun e => hnd.1 (e ▸ List.mem_map_of_mem hg)⟩)
          ⟨hst.1, hst.2, hst.3, h4.4, h4.5, hst.6⟩
        refine ⟨acc', ?_, ?_, h7, ?_, h9⟩
        · simp only [TypedDict.fieldLoop, TypedDict.fieldStep, h0.key, hget, h2, Option.map_some, rebindExtra, h3,
            set_new hnew0, reduceCtorEq, decide_false, Bool.false_eq_true, if_false]
          exact h5
        · rw [h6]; simp
        · intro k
          rw [h8]
          simp only [List.mem_append, List.map_cons, List.mem_cons, List.not_mem_nil, or_false, or_assoc]

theorem fix_extraSkip (t : TypedDict α) (keys : String → α) (hstr : ∀ n, t.keyOps.str (keys n) = .ok n) (used : List String)
    (rest : List (ValResult α (α × α))) : ∀ (ds : Dict α) (acc : Fields.TAcc α), (∀ x ∈ ds, x.1 ∈ used) →
    t.extraLoop used none .off ((ds.map fun kv => .ok (keys kv.1, kv.2)) ++ rest) acc = t.extraLoop used none .off rest acc
  | [], acc, _ => rfl
  | (n, v) :: ds, acc, h => by
    have hn : used.contains n = true := List.contains_iff_mem.mpr (h (n, v) (.head _))
    simp only [List.map_cons, List.cons_append, TypedDict.extraLoop, TypedDict.extraStep, hstr, hn, if_true]
    exact fix_extraSkip t keys hstr used rest ds acc (fun x hx => h x (.tail _ hx))

theorem fix_extraLoop (t : TypedDict α) (keys : String → α) (hstr : ∀ n, t.keyOps.str (keys n) = .ok n) (used : List String)
    (ha : t.extra = .allow) : ∀ (xs : Dict α) (acc : Fields.TAcc α), (∀ x ∈ xs, x.1 ∉ used) → (xs.map Prod.fst).Nodup →
    (∀ x ∈ xs, x.1 ∉ acc.dict.map Prod.fst) → (∀ v, t.extrasV = some v → ∀ x ∈ xs, Fix c opn v x.2) →
    acc.errs = [] → Ready c opn acc.st →
    ∃ acc', t.extraLoop used none .off (xs.map fun kv => .ok (keys kv.1, kv.2)) acc = (.ok (), acc') ∧
      acc'.dict = acc.dict ++ xs ∧ acc'.errs = [] ∧ Ready c opn acc'.st
  | [], acc, _, _, _, _, he, hst => ⟨acc, by simp [TypedDict.extraLoop], by simp, he, hst⟩
  | (n, v) :: xs, acc, hu, hnd, hnew, hv, he, hst => by
    have hn : used.contains n = false := by
      rw [Bool.eq_false_iff]
      exact fun h => hu (n, v) (.head _) (List.contains_iff_mem.mp h)
    simp only [List.map_cons, List.nodup_cons] at hnd
    have hset := hnew (n, v) (.head _)
    have key : ∀ st1, Ready c opn st1 → ∃ acc', t.extraLoop used none .off (xs.map fun kv => .ok (keys kv.1, kv.2))
        { acc with dict := acc.dict ++ [(n, v)], st := st1 } = (.ok (), acc') ∧
        acc'.dict = acc.dict ++ (n, v) :: xs ∧ acc'.errs = [] ∧ Ready c opn acc'.st := by
      intro st1 hst1
      obtain ⟨acc', h1, h2, h3⟩ := fix_extraLoop t keys hstr used ha xs
        { acc with dict := acc.dict ++ [(n, v)], st := st1 } (fun x hx => hu x (.tail _ hx)) hnd.2
        (fun x hx => by
          simp only [List.map_append, List.map_cons, List.map_nil, List.mem_append, List.mem_singleton, not_or]
          exact ⟨hnew x (.tail _ hx), fun e => hnd.1 (e ▸ List.mem_map_of_mem (f := Prod.fst) hx)⟩)
        (fun w hw x hx => hv w hw x (.tail _ hx)) he hst1
      exact ⟨acc', h1, by rw [h2]; simp, h3⟩
    cases hx : t.extrasV with
    | none =>
      obtain ⟨acc', h1, h2⟩ := key acc.st hst
      refine ⟨acc', ?_, h2⟩
      simp only [List.map_cons, TypedDict.extraLoop, TypedDict.extraStep, hstr, hn, Bool.false_eq_true, if_false, ha, hx,
        set_new hset]
      exact h1
    | some w =>
      obtain ⟨st1, h3, h4⟩ := hv w hx (n, v) (.head _) { acc.st with allowPartial := .off } ⟨hst.1, hst.2, hst.3, rfl, hst.5, hst.6⟩
      obtain ⟨acc', h1, h2⟩ := key st1 h4
      refine ⟨acc', ?_, h2⟩
      dsimp only at h3
      simp only [List.map_cons, TypedDict.extraLoop, TypedDict.extraStep, hstr, hn, Bool.false_eq_true, if_false, ha, hx,
        reduceCtorEq, decide_false, h3, set_new hset]
      exact h1

theorem Ready.addFieldsSet {st : VState α} (h : Ready c opn st) (n : Nat) : Ready c opn (st.addFieldsSet n) := by
  obtain ⟨h1, h2, h3, h4, h5, h6⟩ := h
  exact ⟨h1, h2, h3, h4, h5, h6⟩

theorem fix_typedDict (t : TypedDict α) (ds xs : Dict α)
    (hview : ∀ strict, ∃ (view : DictView α) (keys : String → α), t.asDict strict (t.build (ds ++ xs)) = .ok view ∧
      (∀ n, view.get (.simple (.ofStr n)) = .ok ((Dict.get n (ds ++ xs)).map fun v => (.ofStr n, v))) ∧
      view.isPyGetAttr = false ∧ view.entries = .ok ((ds ++ xs).map fun kv => .ok (keys kv.1, kv.2)) ∧
      ∀ n, t.keyOps.str (keys n) = .ok n)
    (hsub : (ds.map Prod.fst).Sublist (t.fields.map Field.name)) (hnd : (t.fields.map Field.name).Nodup)
    (hf : ∀ f ∈ t.fields, FieldFix c opn ((c.byAlias.or t.byAlias).getD true) ((c.byName.or t.byName).getD false) (ds ++ xs) ds f)
    (hxnd : (xs.map Prod.fst).Nodup) (hxnew : ∀ x ∈ xs, x.1 ∉ ds.map Prod.fst) (hxa : xs ≠ [] → t.extra = .allow)
    (hxv : ∀ v, t.extrasV = some v → ∀ x ∈ xs, Fix c opn v x.2) :
    Fix c opn t.validate (t.build (ds ++ xs)) := by
  intro st hst
  obtain ⟨view, keys, h1, h2, h3, h4, h5⟩ := hview (st.strictOr t.strict)
  obtain ⟨acc, h6, h7, h8, h9, h10⟩ := fix_fieldLoop t view (t.build (ds ++ xs)) _ _ (ds ++ xs) h2 t.fields ds
    ⟨[], [], [], 0, [], st⟩ hsub hnd hf rfl (fun f _ => by simp) hst
  rw [List.nil_append] at h7
  have hba : st.validateByAliasOr t.byAlias = (c.byAlias.or t.byAlias).getD true := by
    rw [VState.validateByAliasOr, hst.byAlias]
  have hbn : st.validateByNameOr t.byName = (c.byName.or t.byName).getD false := by
    rw [VState.validateByNameOr, hst.byName]
  have hused : ∀ k, k ∈ acc.used ↔ k ∈ ds.map Prod.fst := fun k => by rw [h9]; simp
  simp only [TypedDict.validate, h1, hst.off, hba, hbn]
  rw [show PartialMode.off.isActive = false from rfl]
  simp only [Bool.false_eq_true, if_false, h6, TypedDict.afterFields, h3, or_false]
  split
  · rename_i hi
    obtain rfl : xs = [] := Classical.byContradiction fun hne => by rw [hxa hne] at hi; cases hi
    refine ⟨_, ?_, h10.addFieldsSet acc.count⟩
    simp only [TypedDict.finish, h8, List.isEmpty_nil, if_true, h7, List.append_nil]
  · simp only [h4, List.map_append]
    rw [fix_extraSkip t keys h5 acc.used _ ds _ (fun x hx => (hused _).mpr (List.mem_map_of_mem hx))]
    by_cases hx : xs = []
    · subst hx
      refine ⟨_, ?_, h10.addFieldsSet acc.count⟩
      simp only [List.map_nil, TypedDict.extraLoop, TypedDict.finish, h8, List.isEmpty_nil, if_true, h7, List.append_nil]
    · obtain ⟨acc', g1, g2, g3, g4⟩ := fix_extraLoop t keys h5 acc.used (hxa hx) xs
        ⟨acc.dict, acc.errs, acc.st.addFieldsSet acc.count⟩ (fun x hm => fun hu => hxnew x hm ((hused _).mp hu)) hxnd
        (fun x hm => by dsimp only; rw [h7]; exact hxnew x hm) hxv h8 (h10.addFieldsSet acc.count)
      refine ⟨acc'.st, ?_, g4⟩
      rw [g1]
      simp only [TypedDict.finish, g2, g3, List.isEmpty_nil, if_true, h7]

/-! ### Models -/

/-- A model validator gives back an instance that it does not revalidate. -/
theorem fix_kept (W : World α) (cls : Nat) (v : Cls.ModelV α) {y : α} (h : Cls.Kept v.revalidate (W.source cls y)) :
    Fix c opn (modelRun W cls v) y := by
  intro st hst
  refine ⟨st, ?_, hst⟩
  have : v.validate (W.source cls y) y st = (.ok .same, st) := by
    unfold Cls.ModelV.validate
    cases hs : W.source cls y with
    | exact i =>
      rw [hs] at h
      cases hv : v.revalidate with
      | always => exact absurd hv h
      | never => rfl
      | subclassInstances => rfl
    | subclass i =>
      rw [hs] at h
      have hv : v.revalidate = .never := h
      rw [hv]
      rfl
    | genericOrigin i => rw [hs] at h; exact h.elim
    | other => rw [hs] at h; exact h.elim
  simp only [modelRun, this]

theorem fix_modelFieldLoop (t : ModelFields α) (view : DictView α) (input : α) (ba bn : Bool) (D : Dict α)
    (hget : ∀ n, view.get (.simple (.ofStr n)) = .ok ((Dict.get n D).map fun v => (.ofStr n, v))) :
    ∀ (fs : List (Field α)) (ds : Dict α) (acc : FAcc α), ds.map Prod.fst = fs.map Field.name →
    (fs.map Field.name).Nodup → (∀ f ∈ fs, f.keys.select ba bn = .ok (.simple (.ofStr f.name))) →
    (∀ f ∈ fs, ∀ v, (f.name, v) ∈ ds → Fix c opn f.run v ∧ Dict.get f.name D = some v) → acc.errs = [] →
    (∀ f ∈ fs, f.name ∉ acc.dict.map Prod.fst) → Ready c opn acc.st →
    ∃ acc', t.fieldLoop view input ba bn fs acc = (.ok (), acc') ∧ acc'.dict = acc.dict ++ ds ∧
      acc'.errs = [] ∧ (∀ k, k ∈ acc'.used ↔ k ∈ acc.used ∨ k ∈ ds.map Prod.fst) ∧ Ready c opn acc'.st
  | [], ds, acc, hsub, _, _, _, he, _, hst => by
    obtain rfl : ds = [] := List.map_eq_nil_iff.mp hsub
    exact ⟨acc, by simp only [ModelFields.fieldLoop], by simp, he, by simp, hst⟩
  | f :: fs, ds, acc, hsub, hnd, hkey, hf, he, hnew, hst => by
    simp only [List.map_cons, List.nodup_cons] at hnd
    rw [List.map_cons] at hsub
    cases ds with
    | nil => cases hsub
    | cons x ds =>
      obtain ⟨n, v⟩ := x
      simp only [List.map_cons, List.cons.injEq] at hsub
      obtain ⟨hn, hsub⟩ := hsub
      subst hn
      obtain ⟨h1, h2⟩ := hf f (.head _) v (.head _)
      have h0 := hkey f (.head _)
      obtain ⟨st1, h3, h4⟩ := h1
        { acc.st with extra := { acc.st.extra with data := some acc.dict, fieldName := some f.name } }
        ⟨hst.1, hst.2, hst.3, hst.4, hst.5, hst.6⟩
      have hnew0 := hnew f (.head _)
      obtain ⟨acc', h5, h6, h7, h8, h9⟩ := fix_modelFieldLoop t view input ba bn D hget fs ds
        { acc with used := acc.used ++ [f.name], st := { st1 with extra := acc.st.extra },
                   dict := acc.dict ++ [(f.name, v)], fieldsSet := acc.fieldsSet ++ [f.name], count := acc.count + 1 }
        hsub hnd.2 (fun g hg => hkey g (.tail _ hg)) (fun g hg w hw => hf g (.tail _ hg) w (.tail _ hw)) he
        (fun g hg => by
          simp only [List.map_append, List.map_cons, List.map_nil, List.mem_append, List.mem_singleton, not_or]
          exact ⟨hnew g (.tail _ hg), fun e => hnd.1 (e ▸ List.mem_map_of_mem hg)⟩)
        ⟨hst.1, hst.2, hst.3, h4.4, h4.5, hst.6⟩
      refine ⟨acc', ?_, ?_, h7, ?_, h9⟩
      · simp only [ModelFields.fieldLoop, ModelFields.fieldStep, h0, hget, h2, Option.map_some, rebindExtra, h3,
          set_new hnew0]
        exact h5
      · rw [h6]; simp
      · intro k
        rw [h8]
        simp only [List.mem_append, List.map_cons, List.mem_cons, List.not_mem_nil, or_false, or_assoc]

theorem fix_modelExtraSkip (t : ModelFields α) (keys : String → α) (hstr : ∀ n, t.keyOps.str (keys n) = .ok n)
    (used : List String) (rest : List (ValResult α (α × α))) : ∀ (ds : Dict α) (acc : XAcc α), (∀ x ∈ ds, x.1 ∈ used) →
    t.extraLoop used ((ds.map fun kv => .ok (keys kv.1, kv.2)) ++ rest) acc = t.extraLoop used rest acc
  | [], acc, _ => rfl
  | (n, v) :: ds, acc, h => by
    have hn : used.contains n = true := List.contains_iff_mem.mpr (h (n, v) (.head _))
    simp only [List.map_cons, List.cons_append, ModelFields.extraLoop, ModelFields.extraStep, hstr, hn, if_true]
    exact fix_modelExtraSkip t keys hstr used rest ds acc (fun x hx => h x (.tail _ hx))

theorem fix_modelExtraLoop (t : ModelFields α) (ht : t.extrasV = none) (ht2 : t.extrasKeysV = none) (keys : String → α)
    (hstr : ∀ n, t.keyOps.str (keys n) = .ok n) (used : List String)
    (ha : t.extra = .allow) : ∀ (xs : Dict α) (acc : XAcc α), (∀ x ∈ xs, x.1 ∉ used) → (xs.map Prod.fst).Nodup →
    (∀ x ∈ xs, x.1 ∉ acc.extra.map Prod.fst) →
    ∃ acc', t.extraLoop used (xs.map fun kv => .ok (keys kv.1, kv.2)) acc = (.ok (), acc') ∧
      acc'.extra = acc.extra ++ xs ∧ acc'.errs = acc.errs ∧ acc'.st = acc.st
  | [], acc, _, _, _ => ⟨acc, by simp [ModelFields.extraLoop], by simp, rfl, rfl⟩
  | (n, v) :: xs, acc, hu, hnd, hnew => by
    have hn : used.contains n = false := by
      rw [Bool.eq_false_iff]
      exact fun h => hu (n, v) (.head _) (List.contains_iff_mem.mp h)
    simp only [List.map_cons, List.nodup_cons] at hnd
    have hset := hnew (n, v) (.head _)
    obtain ⟨acc', h1, h2, h3, h4⟩ := fix_modelExtraLoop t ht ht2 keys hstr used ha xs
      { acc with extra := acc.extra ++ [(n, v)], fieldsSet := acc.fieldsSet ++ [n] }
      (fun x hx => hu x (.tail _ hx)) hnd.2
      (fun x hx => by
        simp only [List.map_append, List.map_cons, List.map_nil, List.mem_append, List.mem_singleton, not_or]
        exact ⟨hnew x (.tail _ hx), fun e => hnd.1 (e ▸ List.mem_map_of_mem (f := Prod.fst) hx)⟩)
    refine ⟨acc', ?_, by rw [h2]; simp, h3, h4⟩
    simp only [List.map_cons, ModelFields.extraLoop, ModelFields.extraStep, ModelFields.extraKey, hstr, hn,
      Bool.false_eq_true, if_false, ha, ht, ht2, set_new hset]
    exact h1

theorem update_new : ∀ (xs ds : Dict α), (xs.map Prod.fst).Nodup → (∀ x ∈ xs, x.1 ∉ ds.map Prod.fst) →
    Dict.update ds xs = ds ++ xs
  | [], ds, _, _ => by simp [Dict.update]
  | (n, v) :: xs, ds, hnd, hnew => by
    simp only [List.map_cons, List.nodup_cons] at hnd
    have h0 : n ∉ ds.map Prod.fst := hnew (n, v) (.head _)
    have ih := update_new xs (ds ++ [(n, v)]) hnd.2 (fun x hx => by
      simp only [List.map_append, List.map_cons, List.map_nil, List.mem_append, List.mem_singleton, not_or]
      exact ⟨hnew x (.tail _ hx), fun e => hnd.1 (e ▸ List.mem_map_of_mem (f := Prod.fst) hx)⟩)
    unfold Dict.update at ih ⊢
    rw [List.foldl_cons, set_new h0, ih]
    simp

/-- The extra items of an output. -/
def ExtraFix (behaviour : ExtraBehavior) (ds : Dict α) : Option (Dict α) → Prop
  | none => behaviour ≠ .allow
  | some xs => behaviour = .allow ∧ (xs.map Prod.fst).Nodup ∧ ∀ x ∈ xs, x.1 ∉ ds.map Prod.fst

/-- A model-fields validator run on the dict of fields `ds` and extra items gives these back. -/
theorem fix_modelFields (t : ModelFields α) (ht : t.extrasV = none) (ht2 : t.extrasKeysV = none) (input : α)
    (ds : Dict α) (extra : Option (Dict α))
    (hview : ∀ strict fa, ∃ (view : DictView α) (keys : String → α), t.asFields strict fa input = .ok view ∧
      (∀ n, view.get (.simple (.ofStr n)) = .ok ((Dict.get n (ds ++ extra.getD [])).map fun v => (.ofStr n, v))) ∧
      view.isPyGetAttr = false ∧ view.entries = .ok ((ds ++ extra.getD []).map fun kv => .ok (keys kv.1, kv.2)) ∧
      ∀ n, t.keyOps.str (keys n) = .ok n)
    (hds : ds.map Prod.fst = t.fields.map Field.name) (hnd : (t.fields.map Field.name).Nodup)
    (hkey : ∀ f ∈ t.fields, f.keys.select ((c.byAlias.or t.byAlias).getD true) ((c.byName.or t.byName).getD false) =
      .ok (.simple (.ofStr f.name)))
    (hf : ∀ f ∈ t.fields, ∀ v, (f.name, v) ∈ ds → Fix c opn f.run v)
    (hx : ExtraFix t.extra ds extra) :
    ∀ st, Ready c opn st → ∃ fs st', t.validate input st = (.ok ⟨ds, extra, fs⟩, st') ∧ Ready c opn st' := by
  intro st hst
  have hst0 : Ready c opn ({ st with allowPartial := .ofBool false } : VState α) := ⟨hst.1, hst.2, hst.3, rfl, hst.5, hst.6⟩
  obtain ⟨view, keys, h1, h2, h3, h4, h5⟩ := hview (({ st with allowPartial := .ofBool false } : VState α).strictOr t.strict)
    (st.extra.fromAttributes.getD t.fromAttributes)
  have hdsnd : (ds.map Prod.fst).Nodup := hds ▸ hnd
  have hall : ((ds ++ extra.getD []).map Prod.fst).Nodup := by
    cases extra with
    | none => rw [Option.getD_none, List.append_nil]; exact hdsnd
    | some xs =>
      rw [Option.getD_some, List.map_append, List.nodup_append]
      refine ⟨hdsnd, hx.2.1, fun a ha b hb e => ?_⟩
      subst e
      obtain ⟨x, hx', rfl⟩ := List.mem_map.mp hb
      exact hx.2.2 x hx' ha
  obtain ⟨acc, h6, h7, h8, h9, h10⟩ := fix_modelFieldLoop t view input _ _ (ds ++ extra.getD []) h2 t.fields ds
    ⟨[], [], [], 0, [], { st with allowPartial := .ofBool false }⟩ hds hnd hkey
    (fun f hf' v hv => ⟨hf f hf' v hv, get_mem hall (List.mem_append_left _ hv)⟩) rfl (fun f _ => by simp) hst0
  rw [List.nil_append] at h7
  have hba : ({ st with allowPartial := .ofBool false } : VState α).validateByAliasOr t.byAlias =
      (c.byAlias.or t.byAlias).getD true := by
    rw [VState.validateByAliasOr, hst0.byAlias]
  have hbn : ({ st with allowPartial := .ofBool false } : VState α).validateByNameOr t.byName =
      (c.byName.or t.byName).getD false := by
    rw [VState.validateByNameOr, hst0.byName]
  have hused : ∀ k, k ∈ acc.used ↔ k ∈ ds.map Prod.fst := fun k => by rw [h9]; simp
  simp only [ModelFields.validate, h1, hba, hbn, h6, ModelFields.afterFields, h3]
  cases extra with
  | none =>
    have hna : ¬ t.extra = .allow := hx
    split
    · refine ⟨acc.fieldsSet, _, ?_, h10.addFieldsSet acc.count⟩
      simp only [ModelFields.finish, h8, List.isEmpty_nil, if_true, h7, hna, false_and, if_false]
    · simp only [h4, Option.getD_none, List.append_nil]
      rw [← List.append_nil (ds.map _), fix_modelExtraSkip t keys h5 acc.used [] ds _
        (fun x hx => (hused _).mpr (List.mem_map_of_mem hx))]
      refine ⟨acc.fieldsSet, _, ?_, h10.addFieldsSet acc.count⟩
      simp only [ModelFields.extraLoop, ModelFields.finish, h8, List.isEmpty_nil, if_true, h7, hna, if_false, false_and]
  | some xs =>
    obtain ⟨ha, hxn, hxd⟩ := hx
    have hni : ¬ (t.extra = .ignore ∨ false = true) := by
      rw [ha]
      simp
    rw [if_neg hni]
    simp only [h4, Option.getD_some, List.map_append]
    rw [fix_modelExtraSkip t keys h5 acc.used _ ds _ (fun x hx => (hused _).mpr (List.mem_map_of_mem hx))]
    obtain ⟨acc', g1, g2, g3, g4⟩ := fix_modelExtraLoop t ht ht2 keys h5 acc.used ha xs
      ⟨[], acc.errs, acc.fieldsSet, acc.st⟩ (fun x hm => fun hu => hxd x hm ((hused _).mp hu)) hxn
      (fun x hm => by simp)
    rw [List.nil_append] at g2
    have g4' : acc'.st = acc.st := g4
    refine ⟨acc'.fieldsSet, acc.st.addFieldsSet acc.count, ?_, h10.addFieldsSet acc.count⟩
    rw [g1]
    simp only [ModelFields.finish, g2, g3, g4', h8, List.isEmpty_nil, if_true, h7, ha, Option.isNone_some,
      Bool.false_eq_true, and_false, if_false]

/-- A model validator gives back an instance of all its fields. -/
theorem fix_modelV (W : World α) (cfg : ModelCfg) (vs : List (Field α)) (hR : Rebuilds W) (ds : Dict α)
    (extra : Option (Dict α)) (fs : List String) (hds : ds.map Prod.fst = vs.map Field.name) (hnd : (vs.map Field.name).Nodup)
    (hkey : ∀ f ∈ vs, f.keys.select ((c.byAlias.or cfg.byAlias).getD true) ((c.byName.or cfg.byName).getD false) =
      .ok (.simple (.ofStr f.name)))
    (hf : ∀ f ∈ vs, ∀ v, (f.name, v) ∈ ds → Fix c opn f.run v)
    (hx : ExtraFix cfg.extra ds extra) :
    Fix c opn (modelRun W cfg.cls (modelV W cfg vs)) (W.mkModel cfg.cls ⟨ds, extra, fs⟩) := by
  by_cases hrv : cfg.revalidate = .always
  · have hdsnd : (ds.map Prod.fst).Nodup := hds ▸ hnd
    have hattr : Cls.attributes (⟨ds, extra, fs⟩ : Instance α) = ds ++ extra.getD [] := by
      unfold Cls.attributes
      cases extra with
      | none => simp
      | some xs => exact update_new xs ds hx.2.1 hx.2.2
    have hall : ((ds ++ extra.getD []).map Prod.fst).Nodup := by
      cases extra with
      | none => rw [Option.getD_none, List.append_nil]; exact hdsnd
      | some xs =>
        rw [Option.getD_some, List.map_append, List.nodup_append]
        refine ⟨hdsnd, hx.2.1, fun a ha b hb e => ?_⟩
        subst e
        obtain ⟨x, hx', rfl⟩ := List.mem_map.mp hb
        exact hx.2.2 x hx' ha
    intro st hst
    obtain ⟨fs', st', h1, h2⟩ := fix_modelFields (c := c) (opn := opn) (modelFieldsV W cfg vs) rfl rfl
      (W.mkTyped (ds ++ extra.getD [])) ds extra (fun strict fa => hR.fields strict fa _ hall) hds hnd hkey hf hx st hst
    refine ⟨st', ?_, h2⟩
    have h1' : (modelV W cfg vs).inner (W.mkTyped (ds ++ extra.getD [])) st = (.ok ⟨ds, extra, fs'⟩, st') := h1
    have hd : (modelV W cfg vs).data ⟨ds, extra, fs⟩ = .ok (W.mkTyped (ds ++ extra.getD [])) := by
      simp only [Cls.ModelV.data, modelV, hattr]
    simp only [modelRun, Cls.ModelV.validate, hR.model]
    rw [show (modelV W cfg vs).revalidate.should true = true by
      rw [show (modelV W cfg vs).revalidate = .always from hrv]; rfl, if_pos rfl]
    simp only [Cls.ModelV.revalidateInstance, hd, Cls.ModelV.construct, Cls.ModelV.attrs, Cls.ModelV.callPostInit]
    rw [show (modelV W cfg vs).customInit = none from rfl, show (modelV W cfg vs).root = none from rfl,
      show (modelV W cfg vs).postInit = none from rfl]
    dsimp only [Option.bind]
    rw [h1']
    rfl
  · refine fix_kept W cfg.cls _ ?_
    rw [hR.model]
    exact hrv

/-- A root model gives back an instance with a root that the root's validator gives back. -/
theorem fix_rootModel (W : World α) (cls : Nat) (rv : Dc.Revalidate) (v : Validator α α) (hR : Rebuilds W)
    (hu : ∀ x, W.isUndefined x = false) (hrv : rv = .always) (x y : α) (hv : Fix c opn v y) :
    Fix c opn (modelRun W cls (rootModelV W rv v))
      (W.mkModel cls ⟨[("root", y)], none, if W.isUndefined x then [] else ["root"]⟩) := by
  intro st hst
  obtain ⟨st1, h1, h2⟩ := hv { st with extra := { st.extra with fieldName := some "root" } }
    ⟨hst.1, hst.2, hst.3, hst.4, hst.5, hst.6⟩
  refine ⟨{ st1 with extra := st.extra }, ?_, ⟨hst.1, hst.2, hst.3, h2.4, h2.5, hst.6⟩⟩
  simp only [modelRun, Cls.ModelV.validate, hR.model, hu]
  rw [show (rootModelV W rv v).revalidate.should true = true by
    rw [show (rootModelV W rv v).revalidate = .always from hrv]; rfl, if_pos rfl]
  simp only [Cls.ModelV.revalidateInstance, Cls.ModelV.data, rootModelV, Dict.get, if_true, Cls.ModelV.construct,
    Cls.ModelV.attrs, Cls.ModelV.callPostInit, rebindExtra, Option.bind_none, h1, hu, Dict.set, Bool.false_eq_true, if_false]

/-- A tagged union gives back what has the tag of a choice that gives it back. -/
theorem fix_tagged (W : World α) (cfg : TagCfg α) (vs : List (Validator α α)) (y : α) (i : Nat) (v : Validator α α)
    (hv : vs[i]? = some v) (hfix : Fix c opn v y)
    (htag : ∃ tag item, findTag W cfg.key (c.strict.getD false) (c.fromAttributes.getD cfg.fromAttributes) y = .ok (some tag) ∧
      cfg.index tag = some (item, i)) :
    Fix c opn (taggedV W cfg vs).validate y := by
  intro st hst
  obtain ⟨st', h1, h2⟩ := hfix st hst
  obtain ⟨tag, item, h3, h4⟩ := htag
  rw [← hst.strict, ← hst.attrs] at h3
  refine ⟨st', ?_, h2⟩
  simp only [Tagged.validate, taggedV, VState.strictOr, h3, Tagged.findCallValidator, h4, Option.bind_some, hv, Option.map_some, h1]

/-! ### Unions and references -/

theorem fix_smartLoop (oldE : Option Exactness) (oldF : Option Nat) (y : α) :
    ∀ (cs : List (Choice α)) (best : Option (Best α)) (errors : MaybeErrors α) (st : VState α),
    (∀ ch ∈ cs, ∃ l : Leaf α, ch.run = l.validate ∧ l.ExactOutputs) →
    (∃ ch ∈ cs, ∃ l : Leaf α, ch.run = l.validate ∧ l.check (c.strict.getD l.strict) y = .ok (y, .exact)) →
    Ready c opn st → ∃ st', smartLoop oldE oldF y cs best errors st = .returned (.ok y) st' ∧ Ready c opn st'
  | [], _, _, _, _, h, _ => by obtain ⟨ch, h, _⟩ := h; cases h
  | ch :: cs, best, errors, st, hall, hex, hst => by
    obtain ⟨l, hl, hexact⟩ := hall ch (.head _)
    have hst1 : Ready c opn ({ st with exactness := some .exact, fieldsSetCount := none } : VState α) :=
      ⟨hst.1, hst.2, hst.3, hst.4, hst.5, hst.6⟩
    have hs : ({ st with exactness := some .exact, fieldsSetCount := none } : VState α).strictOr l.strict = c.strict.getD l.strict :=
      hst1.strictOr _
    -- the members after this one
    have later : l.check (c.strict.getD l.strict) y ≠ .ok (y, .exact) →
        ∃ ch ∈ cs, ∃ l : Leaf α, ch.run = l.validate ∧ l.check (c.strict.getD l.strict) y = .ok (y, .exact) := by
      intro hne
      obtain ⟨ch', h1, l', h2, h3⟩ := hex
      rcases List.mem_cons.mp h1 with rfl | h1
      · exfalso
        have e : l.validate y ({ st with exactness := some .exact, fieldsSetCount := none } : VState α) =
            l'.validate y { st with exactness := some .exact, fieldsSetCount := none } := by rw [← hl, ← h2]
        simp only [Leaf.validate, hs] at e
        rw [hst1.strictOr l'.strict, h3] at e
        dsimp only at e
        cases hk : l.check (c.strict.getD l.strict) y with
        | error t => rw [hk] at e; cases congrArg Prod.fst e
        | ok r =>
          obtain ⟨v, ex⟩ := r
          rw [hk] at e
          dsimp only at e
          have hv : v = y := by injection congrArg Prod.fst e
          have he := congrArg (fun p => p.2.exactness) e
          subst hv
          cases ex <;> simp_all [VState.floorExactness]
      · exact ⟨ch', h1, l', h2, h3⟩
    have hall' : ∀ ch ∈ cs, ∃ l : Leaf α, ch.run = l.validate ∧ l.ExactOutputs := fun x hx => hall x (.tail _ hx)
    simp only [smartLoop, hl, Leaf.validate, hs]
    cases hk : l.check (c.strict.getD l.strict) y with
    | error t =>
      dsimp only [ValError.new]
      exact fix_smartLoop oldE oldF y cs _ _ _ hall' (later (by rw [hk]; exact fun h => nomatch h)) hst1
    | ok r =>
      obtain ⟨v, ex⟩ := r
      dsimp only
      by_cases hex' : ex = .exact
      · subst hex'
        obtain rfl := hexact.2 _ _ _ hk
        refine ⟨_, rfl, ⟨hst.1, hst.2, hst.3, hst.4, hst.5, hst.6⟩⟩
      · have hl8 := later (by rw [hk]; intro h; cases h; exact hex' rfl)
        have hne : ∀ e, (({ st with exactness := some .exact, fieldsSetCount := none } : VState α).floorExactness ex).exactness = some e → e ≠ .exact := by
          intro e he
          cases ex <;> simp_all [VState.floorExactness] <;> (subst he; intro h; cases h)
        split
        · rename_i h1 h2
          exact absurd rfl (hne _ h1)
        · split
          · exact fix_smartLoop oldE oldF y cs _ _ _ hall' hl8 (hst1.floor ex)
          · exact fix_smartLoop oldE oldF y cs _ _ _ hall' hl8 (hst1.floor ex)

theorem fix_smart (cs : List (Choice α)) (ce : Option ErrType) {y : α}
    (hall : ∀ ch ∈ cs, ∃ l : Leaf α, ch.run = l.validate ∧ l.ExactOutputs)
    (hex : ∃ ch ∈ cs, ∃ l : Leaf α, ch.run = l.validate ∧ l.check (c.strict.getD l.strict) y = .ok (y, .exact)) :
    Fix c opn (validateSmart cs ce) y := by
  intro st hst
  obtain ⟨st', h1, h2⟩ := fix_smartLoop st.exactness st.fieldsSetCount y cs none (.new ce) st hall hex hst
  exact ⟨st', by simp only [validateSmart, h1], h2⟩

theorem fix_definitionRef (E : Env α) (hp : E.platform.Valid) (hc : c.platform = E.platform) (name : Nat)
    {inner : Validator α α} {y : α} (hroom : opn.length < E.platform.limit)
    (hclear : ∀ id, E.world.identity y = some id → (id, name) ∉ opn)
    (hnone : E.world.identity y = none → Fix c opn inner y)
    (hsome : ∀ id, E.world.identity y = some id → Fix c ((id, name) :: opn) inner y) :
    Fix c opn (definitionRef E name inner) y := by
  intro st hst
  have hst0 : Ready c opn ({ st with allowPartial := .off } : VState α) := ⟨hst.1, hst.2, hst.3, rfl, hst.5, hst.6⟩
  simp only [definitionRef]
  rw [show PartialMode.ofBool false = .off from rfl]
  cases hid : E.world.identity y with
  | none => exact hnone hid _ hst0
  | some id =>
    dsimp only
    obtain ⟨g1, h1, h2⟩ := (Guard.enter_good hp (id, name) (hc ▸ hst.guard)).2.1 (hclear id hid) hroom
    rw [h1]
    dsimp only
    obtain ⟨st', h3, h4⟩ := hsome id hid ({ st with allowPartial := .off, guard := g1 } : VState α)
      ⟨hst.1, hst.2, hst.3, rfl, hc ▸ h2, hst.6⟩
    obtain ⟨g2, h5, h6⟩ := Guard.leave_good h4.guard
    rw [h3]
    dsimp only
    rw [h5]
    exact ⟨_, rfl, ⟨h4.1, h4.2, h4.3, h4.4, h6, h4.6⟩⟩


/-! ### Whole schemas -/

theorem fixAll_titem : ∀ {vs : List (Validator α α)} {ys : List α}, All2 (fun v y => Fix c opn v y) vs ys →
    FixAll c opn (vs.map titem) ys
  | _, _, .nil => .nil
  | _, _, .cons h hs => .cons h (fixAll_titem hs)

section
variable (W : World α) (defs : Nat → Schema α) (hR : Rebuilds W) (size : α → Nat) (hS : Sized W size)
variable (p : ValResult α α) (rs : Nat → Validator α α)

/-- References give back what conforms to them, if it is smaller than `k`. -/
def RefsFix (c : Mode) (opn : List Guard.Key) (k : Nat) : Prop :=
  ∀ name x, size x < k → Conforms c.strict W defs (.ref name) x → Fix c opn (rs name) x

theorem buildFields_names : ∀ fs : FieldSchemas α, (buildFields W p rs fs).map Field.name = fs.names
  | .nil => rfl
  | .cons n k r d s rest => by simp only [buildFields, List.map_cons, FieldSchemas.names, buildFields_names rest, field]

theorem mem_buildFields : ∀ {fs : FieldSchemas α} {f : Field α}, f ∈ buildFields W p rs fs →
    ∃ n k r d s, fs.Has n k r d s ∧ f = field n k r d (build W p rs s)
  | .nil, f, h => by cases h
  | .cons n k r d s rest, f, h => by
    rcases List.mem_cons.mp h with h | h
    · exact ⟨n, k, r, d, s, .inl ⟨rfl, rfl, rfl, rfl, rfl⟩, h⟩
    · obtain ⟨n, k, r, d, s, h1, h2⟩ := mem_buildFields h
      exact ⟨n, k, r, d, s, .inr h1, h2⟩

theorem has_names : ∀ {fs : FieldSchemas α} {n k r d s}, fs.Has n k r d s → n ∈ fs.names
  | .cons n k r d s rest, _, _, _, _, _, h => by
    rcases h with ⟨rfl, _⟩ | h
    · exact List.mem_cons_self ..
    · exact List.mem_cons_of_mem _ (has_names h)

theorem names_has : ∀ {fs : FieldSchemas α} {n}, n ∈ fs.names → ∃ k r d s, fs.Has n k r d s
  | .cons n k r d s rest, m, h => by
    rcases List.mem_cons.mp h with rfl | h
    · exact ⟨k, r, d, s, .inl ⟨rfl, rfl, rfl, rfl, rfl⟩⟩
    · obtain ⟨k, r, d, s, h⟩ := names_has h
      exact ⟨k, r, d, s, .inr h⟩

theorem has_unique : ∀ (fs : FieldSchemas α), fs.names.Nodup → ∀ n k r d s k' r' d' s', fs.Has n k r d s →
    fs.Has n k' r' d' s' → s' = s
  | .nil, _ => fun _ _ _ _ _ _ _ _ _ h _ => h.elim
  | .cons _ _ _ _ _ rest, hnd => fun _ _ _ _ _ _ _ _ _ h h' => by
    have h1 := (List.nodup_cons.mp hnd).1
    have h2 := (List.nodup_cons.mp hnd).2
    rcases h with h | h
    · rcases h' with h' | h'
      · rw [h.2.2.2.2, h'.2.2.2.2]
      · rw [h.1] at h'
        exact absurd (has_names h') h1
    · rcases h' with h' | h'
      · rw [h'.1] at h
        exact absurd (has_names h) h1
      · exact has_unique rest h2 _ _ _ _ _ _ _ _ _ h h'

theorem mem_buildMembers_scalars : ∀ {ms : Members α}, ms.Scalars → ∀ ch ∈ buildMembers W p rs ms,
    ∃ l : Leaf α, ch.run = l.validate ∧ l.ExactOutputs
  | .nil, _, ch, h => by cases h
  | .cons n l s rest, hs, ch, h => by
    obtain ⟨⟨l', rfl, hl⟩, hrest⟩ := hs
    rcases List.mem_cons.mp h with rfl | h
    · exact ⟨l', rfl, hl⟩
    · exact mem_buildMembers_scalars hrest ch h

theorem has_buildMembers_scalars {m : Option Bool} : ∀ {ms : Members α}, ms.Scalars → ∀ {n l s y}, ms.Has n l s →
    Conforms m W defs s y → ∃ ch ∈ buildMembers W p rs ms, ∃ lf : Leaf α, ch.run = lf.validate ∧
      lf.check (m.getD lf.strict) y = .ok (y, .exact)
  | .cons n l s rest, hs, n', l', s', y, h, hc => by
    obtain ⟨⟨lf, rfl, hl⟩, hrest⟩ := hs
    rcases h with ⟨_, _, rfl⟩ | h
    · cases hc with
      | leaf h => exact ⟨_, .head _, lf, rfl, hl.1 _ _ _ _ h⟩
    · obtain ⟨ch, h1, h2⟩ := has_buildMembers_scalars hrest h hc
      exact ⟨ch, .tail _ h1, h2⟩

theorem has_at : ∀ {ss : Schemas α} {s : Schema α}, ss.Has s → ∃ i, ss.at? i = some s
  | .cons s rest, x, h => by
    rcases h with rfl | h
    · exact ⟨0, rfl⟩
    · obtain ⟨i, hi⟩ := has_at h
      exact ⟨i + 1, hi⟩

/-- The condition on each schema. -/
abbrev nodeFix (c : Mode) (s : Schema α) : Prop := revalidable c.strict c.byAlias c.byName c.fromAttributes W defs s

variable (c opn) in
/-- The validators of the fields give back what conforms to their schemas. -/
def FieldsFix (k : Nat) (fs : FieldSchemas α) : Prop :=
  ∀ n ks r d s, fs.Has n ks r d s → ∀ y, size y < k → Conforms c.strict W defs s y → Fix c opn (build W p rs s) y

theorem fix_withDefault {d : Option α} {v : Validator α α} {y : α} (h : Fix c opn v y) : Fix c opn (withDefault d v) y := by
  intro st hst
  obtain ⟨st', h1, h2⟩ := h st hst
  exact ⟨st', by simp only [withDefault, h1], h2⟩

include hR hS in
theorem fix_typed {cfg : TypedCfg} {fields : FieldSchemas α} {ex : Option (Validator α α)} {ds xs : Dict α}
    (hnd : fields.names.Nodup)
    (hkey : ∀ n k r d s, fields.Has n k r d s →
      k.select ((c.byAlias.or cfg.byAlias).getD true) ((c.byName.or cfg.byName).getD false) = .ok (.simple (.ofStr n)))
    (hdflt : ∀ n k r v s, fields.Has n k r (some v) s → Conforms c.strict W defs s v)
    (hsub : (ds.map Prod.fst).Sublist fields.names)
    (hds : ∀ n v, (n, v) ∈ ds → Entry c.strict W defs fields n v) (hpres : fields.Present ds)
    (hxs : ExtraItems cfg fields xs)
    (hff : FieldsFix c opn W defs size p rs (size (W.mkTyped (ds ++ xs))) fields)
    (hex : ∀ v, ex = some v → ∀ x ∈ xs, Fix c opn v x.2) :
    Fix c opn (typedDictV W cfg (buildFields W p rs fields) ex).validate (W.mkTyped (ds ++ xs)) := by
  have hdsnd : (ds.map Prod.fst).Nodup := hnd.sublist hsub
  have hdisj : ∀ x ∈ xs, x.1 ∉ ds.map Prod.fst := by
    intro x hx hm
    obtain ⟨k, r, d, s, h⟩ := names_has (hsub.subset hm)
    exact (hxs.2 x.1 x.2 hx).2 k r d s h
  have hall : ((ds ++ xs).map Prod.fst).Nodup := by
    rw [List.map_append, List.nodup_append]
    refine ⟨hdsnd, hxs.1, fun a ha b hb e => ?_⟩
    subst e
    obtain ⟨x, hx, rfl⟩ := List.mem_map.mp hb
    exact hdisj x hx ha
  refine fix_typedDict (typedDictV W cfg (buildFields W p rs fields) ex) ds xs (fun strict => hR.typed strict _ hall) ?_ ?_ ?_
    hxs.1 hdisj ?_ hex
  · rw [typedDictV, buildFields_names]; exact hsub
  · rw [typedDictV, buildFields_names]; exact hnd
  · intro f hf
    obtain ⟨n, k, r, d, s, h1, rfl⟩ := mem_buildFields W p rs hf
    refine ⟨hkey n k r d s h1, fun v hv => ⟨?_, ?_⟩, fun hn => ?_⟩
    · have hv' : (n, v) ∈ ds ++ xs := List.mem_append_left _ hv
      have hc : Conforms c.strict W defs s v := by
        cases hds n v hv with
        | field h2 h3 => rwa [← has_unique fields hnd _ _ _ _ _ _ _ _ _ h1 h2]
        | default h2 =>
          have := hdflt _ _ _ _ _ h2
          rwa [← has_unique fields hnd _ _ _ _ _ _ _ _ _ h1 h2]
      exact fix_withDefault (hff n k r d s h1 v (hS.typed _ _ hv') hc)
    · exact get_mem hall (List.mem_append_left _ hv)
    · have hn' : n ∉ ds.map Prod.fst := hn
      have hnx : n ∉ (ds ++ xs).map Prod.fst := by
        rw [List.map_append, List.mem_append, not_or]
        refine ⟨hn', fun hm => ?_⟩
        obtain ⟨x, hx, rfl⟩ := List.mem_map.mp hm
        exact (hxs.2 x.1 x.2 hx).2 k r d s h1
      have hr : ¬ (r = true ∨ d ≠ none) := fun h => hn' (hpres n k r d s h1 h)
      simp only [not_or, Bool.not_eq_true, Classical.not_not, ne_eq] at hr
      obtain ⟨rfl, rfl⟩ := hr
      exact ⟨get_notMem hnx, rfl, fun _ _ => rfl⟩
  · intro hne
    cases xs with
    | nil => exact absurd rfl hne
    | cons x xs => exact (hxs.2 x.1 x.2 (.head _)).1

set_option linter.unusedSectionVars false in
include hR hS in
mutual
/-- The validator of a schema gives back what conforms to it. -/
theorem build_fix : ∀ (s : Schema α), s.All (nodeFix W defs c) → ∀ y, Conforms c.strict W defs s y →
    RefsFix W defs size rs c opn (size y) → (∀ name ∈ s.direct, Conforms c.strict W defs (.ref name) y → Fix c opn (rs name) y) →
    Fix c opn (build W p rs s) y
  | .leaf l, hs, y, hc, _, _ => by
    cases hc with
    | leaf h => exact fix_leaf l (hs _ _ _ _ h)
  | .nullable s, hs, y, hc, hin, hdir => by
    cases hc with
    | none => exact fix_none hR.none
    | nullable h => exact fix_nullable (hR.isNone y) (build_fix s hs.2 y h hin hdir)
  | .list strict mn mx ff item, hs, y, hc, hin, hdir => by
    cases hc with
    | @list _ _ _ _ _ ys h1 h2 h3 =>
      exact fix_list { strict := strict, item := some (build W p rs item), minLength := mn, maxLength := mx,
                       failFast := ff, asList := W.asList, build := W.mkList } _ rfl ys (fun b => hR.list b ys)
        (fun z hz => build_fix item hs.2 z (h1 z hz) (fun nm x hx => hin nm x (Nat.lt_trans hx (hS.list ys z hz)))
          (fun nm _ => hin nm z (hS.list ys z hz))) h2 h3
  | .set t strict mn mx ff item, hs, y, hc, hin, hdir => by
    cases hc with
    | @set _ _ _ _ _ _ ys h1 h2 h3 h4 =>
      exact fix_set { strict := strict, item := build W p rs item, minLength := mn, maxLength := mx,
                      failFast := ff, fieldType := t, hashing := W.hashing, asSet := W.asSet, build := W.mkSet }
        hR.same ys h2 (fun b => hR.set b ys h2)
        (fun z hz => build_fix item hs.2 z (h1 z hz) (fun nm x hx => hin nm x (Nat.lt_trans hx (hS.set ys z hz)))
          (fun nm _ => hin nm z (hS.set ys z hz))) h3 h4
  | .dict strict mn mx key value, hs, y, hc, hin, hdir => by
    cases hc with
    | @dict _ _ _ _ _ kvs h1 h2 h3 h4 h5 =>
      exact fix_dict { strict := strict, key := build W p rs key, value := build W p rs value, minLength := mn,
                       maxLength := mx, hashing := W.hashing, keyLoc := W.keyLoc, asDict := W.asDict, build := W.mkDict }
        kvs h3 (fun b => hR.dict b kvs h3)
        (fun z hz => build_fix key hs.2.1 z.1 (h1 z hz) (fun nm x hx => hin nm x (Nat.lt_trans hx (hS.dictKey kvs z hz)))
          (fun nm _ => hin nm z.1 (hS.dictKey kvs z hz)))
        (fun z hz => build_fix value hs.2.2 z.2 (h2 z hz) (fun nm x hx => hin nm x (Nat.lt_trans hx (hS.dictValue kvs z hz)))
          (fun nm _ => hin nm z.2 (hS.dictValue kvs z hz))) h4 h5
  | .tuple strict mn mx ff head, hs, y, hc, hin, hdir => by
    cases hc with
    | @tuple _ _ _ _ _ ys h1 h2 h3 =>
      exact fix_tuple p { strict := strict, head := (buildAll W p rs head).map titem, variadic := none, minLength := mn,
                          maxLength := mx, failFast := ff, asTuple := W.asTuple, build := W.mkTuple } rfl ys
        (fun b => hR.tuple b ys)
        (fixAll_titem (buildAll_fix head hs.2 ys h1 (size (W.mkTuple ys)) (fun z hz => hS.tuple ys z hz) hin)) h2 h3
  | .tupleVar strict mn mx ff head variadic tail, hs, y, hc, hin, hdir => by
    cases hc with
    | @tupleVar _ _ _ _ _ _ _ ys vs ts h1 h2 h3 h4 h5 =>
      have hsz := hS.tuple (ys ++ (vs ++ ts))
      exact fix_tupleVar p
        { strict := strict, head := (buildAll W p rs head).map titem,
          variadic := some (titem (build W p rs variadic), (buildAll W p rs tail).map titem),
          minLength := mn, maxLength := mx, failFast := ff, asTuple := W.asTuple, build := W.mkTuple } _ _ rfl ys vs ts
        (fun b => hR.tuple b _)
        (fixAll_titem (buildAll_fix head hs.2.1 ys h1 _ (fun z hz => hsz z (by simp [hz])) hin))
        (fun z hz => build_fix variadic hs.2.2.1 z (h2 z hz)
          (fun nm x hx => hin nm x (Nat.lt_trans hx (hsz z (by simp [hz])))) (fun nm _ => hin nm z (hsz z (by simp [hz]))))
        (fixAll_titem (buildAll_fix tail hs.2.2.2 ts h3 _ (fun z hz => hsz z (by simp [hz])) hin)) h4 h5
  | .typedDict cfg fields, hs, y, hc, hin, hdir => by
    cases hc with
    | typedDict h1 h2 h3 h4 =>
      exact fix_typed W defs hR size hS p rs hs.1.1 hs.1.2.1 hs.1.2.2 h1 h2 h3 h4 (buildFields_fix fields hs.2 _ hin)
        (fun v hv => nomatch hv)
  | .typedDictExtras cfg fields extras, hs, y, hc, hin, hdir => by
    cases hc with
    | @typedDictExtras _ _ _ ds xs h1 h2 h3 h4 h5 =>
      refine fix_typed W defs hR size hS p rs hs.1.1 hs.1.2.1 hs.1.2.2 h1 h2 h3 h4 (buildFields_fix fields hs.2.1 _ hin)
        (fun v hv x hx => ?_)
      cases hv
      have hsz := hS.typed (ds ++ xs) x (List.mem_append_right _ hx)
      exact build_fix extras hs.2.2 x.2 (h5 x.1 x.2 hx) (fun nm x hx => hin nm x (Nat.lt_trans hx hsz)) (fun nm _ => hin nm x.2 hsz)
  | .union ltr ce members, hs, y, hc, hin, hdir => by
    cases hc with
    | union h1 h2 =>
      have h0 : ltr = false ∧ members.Scalars := hs.1
      obtain ⟨rfl, h0⟩ := h0
      simp only [build, Bool.false_eq_true, if_false]
      exact fix_smart _ ce (mem_buildMembers_scalars W p rs h0) (has_buildMembers_scalars W defs p rs h0 h1 h2)
  | .tagged cfg choices, hs, y, hc, hin, hdir => by
    cases hc with
    | tagged h1 h2 =>
      obtain ⟨i, hi⟩ := has_at h1
      obtain ⟨v, h3, h4⟩ := buildChoice_fix choices hs.2 i _ hi y h2 hin hdir
      exact fix_tagged W cfg _ y i v h3 h4 (hs.1 i _ y hi h2)
  | .model cfg fields, hs, y, hc, hin, hdir => by
    cases hc with
    | @model _ _ ds extra fs h1 h2 h3 =>
      by_cases hrv : cfg.revalidate = .always
      · obtain ⟨g1, g2, g3, g4⟩ := hs.1 hrv
        have hff := buildFields_fix fields hs.2 _ hin
        refine fix_modelV W cfg _ hR ds extra fs (by rw [buildFields_names]; exact h1) (by rw [buildFields_names]; exact g1)
          ?_ ?_ ?_
        · intro f hf
          obtain ⟨n, k, r, d, s, e1, rfl⟩ := mem_buildFields W p rs hf
          exact g2 n k r d s e1
        · intro f hf v hv
          obtain ⟨n, k, r, d, s, e1, rfl⟩ := mem_buildFields W p rs hf
          have hcv : Conforms c.strict W defs s v := by
            cases h2 n v hv with
            | field h2 h3 => rwa [← has_unique fields g1 _ _ _ _ _ _ _ _ _ e1 h2]
            | default h2 =>
              have := g4 _ _ _ _ _ h2
              rwa [← has_unique fields g1 _ _ _ _ _ _ _ _ _ e1 h2]
          exact fix_withDefault (hff n k r d s e1 v (hS.model _ ⟨ds, extra, fs⟩ _ hv) hcv)
        · cases extra with
          | none => exact h3
          | some xs =>
            obtain ⟨e1, e2, e3⟩ := h3
            exact ⟨e1, e2, fun x hx => by rw [h1]; exact e3 (g3 e1) x.1 x.2 hx⟩
      · refine fix_kept W cfg.cls _ ?_
        rw [hR.model]
        exact hrv
    | «instance» h => exact fix_kept W cfg.cls _ h
  | .rootModel cls rv root, hs, y, hc, hin, hdir => by
    cases hc with
    | @rootModel _ _ _ x y h =>
      by_cases hrv : rv = .always
      · have hlt := hS.model cls ⟨[("root", y)], none, if W.isUndefined x then [] else ["root"]⟩ ("root", y) (.head _)
        refine fix_rootModel W cls rv _ hR (hs.1 hrv) hrv x y (build_fix root hs.2 y h ?_ ?_)
        · exact fun nm z hz => hin nm z (Nat.lt_trans hz hlt)
        · exact fun nm _ => hin nm y hlt
      · refine fix_kept W cls _ ?_
        rw [hR.model]
        exact hrv
    | rootInstance h => exact fix_kept W cls _ h
  | .before f s, hs, _, _, _, _ => hs.1.elim
  | .after f s, hs, _, _, _, _ => hs.1.elim
  | .wrap f s, hs, _, _, _, _ => hs.1.elim
  | .customError t s, hs, y, hc, hin, hdir => by
    cases hc with
    | customError h => exact fix_customError t (build_fix s hs.2 y h hin hdir)
  | .laxOrStrict _ _ _, hs, _, _, _, _ => hs.1.elim
  | .ref name, hs, y, hc, hin, hdir => hdir name (List.mem_singleton.mpr rfl) hc
theorem buildAll_fix : ∀ (ss : Schemas α), ss.All (nodeFix W defs c) → ∀ ys, ConformsAll c.strict W defs ss ys →
    ∀ k, (∀ z ∈ ys, size z < k) → RefsFix W defs size rs c opn k → All2 (fun v y => Fix c opn v y) (buildAll W p rs ss) ys
  | .nil, _, ys, hc, _, _, _ => by cases hc; exact .nil
  | .cons s rest, hs, ys, hc, k, hk, hin => by
    cases hc with
    | @cons _ _ y ys h1 h2 =>
      have hy := hk y (.head _)
      exact .cons (build_fix s hs.1 y h1 (fun nm x hx => hin nm x (Nat.lt_trans hx hy)) (fun nm _ => hin nm y hy))
        (buildAll_fix rest hs.2 ys h2 k (fun z hz => hk z (.tail _ hz)) hin)
theorem buildChoice_fix : ∀ (ss : Schemas α), ss.All (nodeFix W defs c) → ∀ (i : Nat) s, ss.at? i = some s → ∀ y,
    Conforms c.strict W defs s y → RefsFix W defs size rs c opn (size y) →
    (∀ name ∈ ss.direct, Conforms c.strict W defs (.ref name) y → Fix c opn (rs name) y) →
    ∃ v, (buildAll W p rs ss)[i]? = some v ∧ Fix c opn v y
  | .nil, _, _, _, hi, _, _, _, _ => nomatch hi
  | .cons s rest, hs, 0, x, hi, y, hc, hin, hdir => by
    cases hi
    exact ⟨_, rfl, build_fix s hs.1 y hc hin (fun nm h => hdir nm (List.mem_append_left _ h))⟩
  | .cons s rest, hs, i + 1, x, hi, y, hc, hin, hdir =>
    buildChoice_fix rest hs.2 i x hi y hc hin (fun nm h => hdir nm (List.mem_append_right _ h))
theorem buildFields_fix : ∀ (fs : FieldSchemas α), fs.All (nodeFix W defs c) → ∀ k, RefsFix W defs size rs c opn k →
    FieldsFix c opn W defs size p rs k fs
  | .nil, _, _, _ => fun n ks r d s h => h.elim
  | .cons n ks r d s rest, hs, k, hin => fun n' ks' r' d' s' h y hy hc => by
    rcases h with ⟨_, _, _, _, rfl⟩ | h
    · exact build_fix _ hs.1 y hc (fun nm x hx => hin nm x (Nat.lt_trans hx hy)) (fun nm _ => hin nm y hy)
    · exact buildFields_fix rest hs.2 k hin n' ks' r' d' s' h y hy hc
end

end

/-- How much a reference to `name` for `y` can still use: the size of `y`, then the rank of the name. -/
def need (size : α → Nat) (rank : Nat → Nat) (R : Nat) (y : α) (name : Nat) : Nat := size y * (R + 1) + rank name

/-- References give back what conforms to them, as long as there is room in the recursion guard. -/
theorem refs_fix (E : Env α) (hp : E.platform.Valid) (hc : c.platform = E.platform) (hR : Rebuilds E.world) (size : α → Nat)
    (hS : Sized E.world size) (rank : Nat → Nat) (R : Nat) (hrank : ∀ name, rank name ≤ R)
    (hdir : ∀ name, ∀ nm ∈ (E.defs name).direct, rank nm < rank name)
    (hdefs : ∀ name, (E.defs name).All (nodeFix E.world E.defs c)) :
    ∀ (n : Nat) (opn : List Guard.Key) (name : Nat) (y : α), need size rank R y name < n →
    opn.length + need size rank R y name < E.platform.limit →
    (∀ id nm, (id, nm) ∈ opn → ∀ z, E.world.identity z = some id → need size rank R y name < need size rank R z nm) →
    Conforms c.strict E.world E.defs (.ref name) y → Fix c opn (refs E n name) y
  | 0, _, _, _, hn, _, _, _ => absurd hn (Nat.not_lt_zero _)
  | n + 1, opn, name, y, hn, hroom, hclear, hconf => by
    have hinner : Conforms c.strict E.world E.defs (E.defs name) y := by
      cases hconf with
      | ref h => exact h
    -- what is needed for parts, and for names of lower rank
    have small : ∀ x nm, size x < size y → need size rank R x nm < need size rank R y name := by
      intro x nm hx
      have h1 : (size x + 1) * (R + 1) ≤ size y * (R + 1) := Nat.mul_le_mul_right _ hx
      have h2 := hrank nm
      rw [Nat.add_mul, Nat.one_mul] at h1
      unfold need
      omega
    have lower : ∀ nm, rank nm < rank name → need size rank R y nm < need size rank R y name := by
      intro nm h
      unfold need
      omega
    have inner : ∀ opn', opn'.length + need size rank R y name < E.platform.limit + 1 →
        (∀ x nm', need size rank R x nm' < need size rank R y name → ∀ id nm, (id, nm) ∈ opn' → ∀ z,
          E.world.identity z = some id → need size rank R x nm' < need size rank R z nm) →
        Fix c opn' (build E.world E.panic (refs E n) (E.defs name)) y := by
      intro opn' hroom' hclear'
      refine build_fix E.world E.defs hR size hS E.panic (refs E n) (E.defs name) (hdefs name) y hinner ?_ ?_
      · intro nm x hx hcx
        have := small x nm hx
        exact refs_fix E hp hc hR size hS rank R hrank hdir hdefs n opn' nm x (by omega) (by omega) (hclear' x nm this) hcx
      · intro nm hnm hcx
        have := lower nm (hdir name nm hnm)
        exact refs_fix E hp hc hR size hS rank R hrank hdir hdefs n opn' nm y (by omega) (by omega) (hclear' y nm this) hcx
    refine fix_definitionRef E hp hc name (by omega) ?_ ?_ ?_
    · intro id hid hm
      exact absurd (hclear id name hm y hid) (Nat.lt_irrefl _)
    · intro _
      exact inner opn (by omega) (fun x nm' hx id nm hm z hz => Nat.lt_trans hx (hclear id nm hm z hz))
    · intro id hid
      refine inner _ (by rw [List.length_cons]; omega) (fun x nm' hx id' nm hm z hz => ?_)
      rcases List.mem_cons.mp hm with h | h
      · cases h
        have : size z = size y := hS.identity z y id hz hid
        have : need size rank R z name = need size rank R y name := by unfold need; rw [this]
        omega
      · exact Nat.lt_trans hx (hclear id' nm h z hz)

end PC.Engine
