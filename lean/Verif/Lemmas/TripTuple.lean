import Verif.Lemmas.TripTakes

/-
Tuple validators that make a given output of a given input.
-/

namespace PC.Trip
open PC.Coll PC.Engine PC.Comb

variable {α : Type} {c : Mode} {opn : List Guard.Key}

theorem all2_pairs {β γ : Type} {R : β → γ → Prop} : ∀ {xs : List β} {ys : List γ}, All2 R xs ys →
    ∃ ps : List (β × γ), ps.map Prod.fst = xs ∧ ps.map Prod.snd = ys ∧ ∀ p ∈ ps, R p.1 p.2
  | _, _, .nil => ⟨[], rfl, rfl, fun _ h => by cases h⟩
  | _, _, @All2.cons _ _ _ x y _ _ h hs => by
    obtain ⟨ps, h1, h2, h3⟩ := all2_pairs hs
    refine ⟨(x, y) :: ps, by simp [h1], by simp [h2], fun p hp => ?_⟩
    rcases List.mem_cons.1 hp with rfl | hp
    · exact h
    · exact h3 p hp

/-- The item validators make the second of the first, one for one. -/
abbrev TakesEach (c : Mode) (opn : List Guard.Key) : List (TItem α) → List (α × α) → Prop :=
  All2 fun v p => Takes c opn v.validate p.1 p.2

theorem take_tupleItem (t : TupleV α) (input : α) (len : Option Nat) {v : Validator α α} (index : Nat) {x y : α}
    (out : List α) {st : VState α} (hv : Takes c opn v x y) (hm : FitsMax t.maxLength (out.length + 1))
    (hst : Ready c opn st) :
    ∃ st', tupleItem t input len v index x ⟨out, [], st⟩ = (⟨out ++ [y], [], st'⟩, none) ∧ Ready c opn st' := by
  obtain ⟨st', h1, h2⟩ := hv st hst
  refine ⟨st', ?_, h2⟩
  have hlen : t.maxLength.filter (· < (out ++ [y]).length) = none := by
    cases hmx : t.maxLength with
    | none => rfl
    | some k =>
      have := hm k hmx
      simp only [List.length_append, List.length_cons, List.length_nil]
      exact if_neg (by simp only [decide_eq_true_eq]; omega)
  simp only [tupleItem, h1, pushOutputItem, hlen]

theorem take_tupleItems (t : TupleV α) (input : α) (len : Option Nat) : ∀ (vs : List (TItem α)) (ps : List (α × α))
    (rest : List (Except PyErr α)) (i n : Nat) (out : List α) (st : VState α), TakesEach c opn vs ps →
    FitsMax t.maxLength (out.length + ps.length) → Ready c opn st →
    ∃ st', tupleItems t input len vs ⟨(ps.map Prod.fst).map .ok ++ rest, i, none, n⟩ ⟨out, [], st⟩ =
      ((⟨out ++ ps.map Prod.snd, [], st'⟩, none), ⟨rest, i + ps.length, none, n + ps.length⟩) ∧ Ready c opn st'
  | [], _, rest, i, n, out, st, .nil, _, hst => ⟨st, by simp [tupleItems], hst⟩
  | v :: vs, _, rest, i, n, out, st, @All2.cons _ _ _ _ p _ ps hv hvs, hm, hst => by
    obtain ⟨x, y⟩ := p
    obtain ⟨st1, h1, h2⟩ := take_tupleItem t input len n out hv
      (fun k hk => by have := hm k hk; simp only [List.length_cons] at this; omega) hst
    obtain ⟨st', h3, h4⟩ := take_tupleItems t input len vs ps rest (i + 1) (n + 1) (out ++ [y]) st1 hvs
      (fun k hk => by
        have := hm k hk
        simp only [List.length_cons, List.length_append, List.length_nil] at this ⊢
        omega) h2
    refine ⟨st', ?_, h4⟩
    dsimp only at h1
    simp only [tupleItems, List.map_cons, List.cons_append, TIter.next, TIter.pull, Option.isSome_none,
      Bool.false_eq_true, if_false, Option.map_some, h1, List.isEmpty_nil, Bool.not_true, Bool.and_false, h3,
      List.append_assoc, List.nil_append, List.length_cons]
    rw [show i + 1 + ps.length = i + (ps.length + 1) by omega, show n + 1 + ps.length = n + (ps.length + 1) by omega]

theorem take_variadicLoop (t : TupleV α) (input : α) (len : Option Nat) {v : Validator α α} : ∀ (ps : List (α × α))
    (it : TIter α) (out : List α) (st : VState α), it.rest = (ps.map Prod.fst).map .ok → it.err = none →
    (∀ p ∈ ps, Takes c opn v p.1 p.2) → FitsMax t.maxLength (out.length + ps.length) → Ready c opn st →
    ∃ st' it', variadicLoop t input len v ((ps.map Prod.fst).map .ok) it ⟨out, [], st⟩
        = ((⟨out ++ ps.map Prod.snd, [], st'⟩, none), false, it') ∧ it'.err = none ∧ Ready c opn st'
  | [], it, out, st, hr, he, _, _, hst => by
    refine ⟨st, it.next.2, by simp only [List.map_nil, variadicLoop, List.append_nil], ?_, hst⟩
    simp only [TIter.next, TIter.pull, he, hr, Option.isSome_none, Bool.false_eq_true, if_false, List.map_nil]
  | (x, y) :: ps, it, out, st, hr, he, hv, hm, hst => by
    obtain ⟨st1, h1, h2⟩ := take_tupleItem t input len it.count out (hv (x, y) (.head _))
      (fun k hk => by have := hm k hk; simp only [List.length_cons] at this; omega) hst
    obtain ⟨st', it', h3, h4⟩ := take_variadicLoop t input len ps
      { it with rest := (ps.map Prod.fst).map .ok, index := it.index + 1, count := it.count + 1 } (out ++ [y]) st1 rfl he
      (fun z hz => hv z (.tail _ hz))
      (fun k hk => by
        have := hm k hk
        simp only [List.length_cons, List.length_append, List.length_nil] at this ⊢
        omega) h2
    refine ⟨st', it', ?_, h4⟩
    dsimp only at h1
    simp only [List.map_cons, variadicLoop, h1, List.isEmpty_nil, Bool.not_true, Bool.and_false, Bool.false_eq_true,
      if_false, h3, List.append_assoc, List.cons_append, List.nil_append]

theorem take_bufferLoop (t : TupleV α) (input : α) (len : Option Nat) {v : Validator α α} (ts : List α) (hts : ts ≠ []) :
    ∀ (rest : List α) (ps : List (α × α)) (buffer : List α) (it : TIter α) (index : Nat) (out : List α) (st : VState α),
    buffer ++ rest = ps.map Prod.fst ++ ts → rest.length = ps.length → it.rest = rest.map .ok → it.err = none →
    (∀ p ∈ ps, Takes c opn v p.1 p.2) → FitsMax t.maxLength (out.length + ps.length) → Ready c opn st →
    ∃ st' it' i', bufferLoop t input len v (rest.map .ok) it index buffer ⟨out, [], st⟩ =
      ((⟨out ++ ps.map Prod.snd, [], st'⟩, none), some (false, i', ts, it')) ∧ it'.err = none ∧ Ready c opn st'
  | [], ps, buffer, it, index, out, st, hb, hl, hr, he, _, _, hst => by
    obtain rfl : ps = [] := List.eq_nil_of_length_eq_zero (by simpa using hl.symm)
    simp only [List.append_nil, List.nil_append, List.map_nil] at hb
    subst hb
    refine ⟨st, it.next.2, index, by simp only [List.map_nil, bufferLoop, List.append_nil], ?_, hst⟩
    simp only [TIter.next, TIter.pull, he, hr, Option.isSome_none, Bool.false_eq_true, if_false, List.map_nil]
  | a :: rest, ps, buffer, it, index, out, st, hb, hl, hr, he, hv, hm, hst => by
    cases ps with
    | nil => simp at hl
    | cons p ps =>
      obtain ⟨x, y⟩ := p
      simp only [List.length_cons, Nat.add_right_cancel_iff] at hl
      cases buffer with
      | nil =>
        exfalso
        have := congrArg List.length hb
        simp only [List.nil_append, List.length_cons, List.length_append, List.length_map] at this
        have : ts.length ≠ 0 := fun h => hts (List.eq_nil_of_length_eq_zero h)
        omega
      | cons b buffer =>
        simp only [List.cons_append, List.map_cons] at hb
        injection hb with hb1 hb2
        subst hb1
        obtain ⟨st1, h1, h2⟩ := take_tupleItem t input len it.count out (hv (b, y) (.head _))
          (fun k hk => by have := hm k hk; simp only [List.length_cons] at this; omega) hst
        obtain ⟨st', it', i', h3, h4⟩ := take_bufferLoop t input len ts hts rest ps (buffer ++ [a])
          { it with rest := rest.map .ok, index := it.index + 1, count := it.count + 1 } it.count (out ++ [y]) st1
          (by simpa using hb2) hl rfl he (fun z hz => hv z (.tail _ hz))
          (fun k hk => by
            have := hm k hk
            simp only [List.length_cons, List.length_append, List.length_nil] at this ⊢
            omega) h2
        refine ⟨st', it', i', ?_, h4⟩
        dsimp only at h1
        simp only [List.map_cons, bufferLoop, h1, List.isEmpty_nil, Bool.not_true, Bool.and_false, Bool.false_eq_true,
          if_false, h3, List.append_assoc, List.cons_append, List.nil_append]

theorem take_tuple (p : ValResult α α) (t : TupleV α) (hvar : t.variadic = none) (ps : List (α × α)) {input : α}
    (has : ∀ strict, ∃ len py ex, t.asTuple strict input = .ok (⟨(ps.map Prod.fst).map .ok, len, py⟩, ex))
    (hv : TakesEach c opn t.head ps) (hmn : FitsMin t.minLength (ps.map Prod.snd).length)
    (hmx : FitsMax t.maxLength (ps.map Prod.snd).length) :
    Takes c opn (tupleRun p t) input (t.build (ps.map Prod.snd)) := by
  intro st hst
  have hst0 : Ready c opn ({ st with allowPartial := .off } : VState α) := ⟨hst.1, hst.2, hst.3, rfl, hst.5, hst.6⟩
  obtain ⟨len, py, ex, h⟩ := has (({ st with allowPartial := .off } : VState α).strictOr t.strict)
  obtain ⟨st', h1, h2⟩ := take_tupleItems t input len t.head ps [] 0 0 []
    (({ st with allowPartial := .off } : VState α).floorExactness ex) hv (by simpa using hmx) (hst0.floor ex)
  simp only [List.append_nil, List.nil_append, Nat.zero_add] at h1
  refine ⟨st', ?_, h2⟩
  simp only [tupleRun, TupleV.validate, h, tupleVariable, hvar, h1, Option.isSome_none, List.isEmpty_nil, Bool.not_true,
    Bool.and_false, Bool.or_false, Bool.false_eq_true, if_false, TIter.next, TIter.pull, Option.map_none,
    tupleMin_ok t _ hmn, List.append_nil, if_true, Option.getD_some]

theorem take_tupleVar (p : ValResult α α) (t : TupleV α) (v : TItem α) (tail : List (TItem α))
    (hvar : t.variadic = some (v, tail)) (hs vs ts : List (α × α)) {input : α}
    (has : ∀ strict, ∃ len py ex, t.asTuple strict input =
      .ok (⟨(hs.map Prod.fst ++ (vs.map Prod.fst ++ ts.map Prod.fst)).map .ok, len, py⟩, ex))
    (hh : TakesEach c opn t.head hs) (hv : ∀ p ∈ vs, Takes c opn v.validate p.1 p.2) (ht : TakesEach c opn tail ts)
    (hmn : FitsMin t.minLength (hs.map Prod.snd ++ (vs.map Prod.snd ++ ts.map Prod.snd)).length)
    (hmx : FitsMax t.maxLength (hs.map Prod.snd ++ (vs.map Prod.snd ++ ts.map Prod.snd)).length) :
    Takes c opn (tupleRun p t) input (t.build (hs.map Prod.snd ++ (vs.map Prod.snd ++ ts.map Prod.snd))) := by
  intro st hst
  have hst0 : Ready c opn ({ st with allowPartial := .off } : VState α) := ⟨hst.1, hst.2, hst.3, rfl, hst.5, hst.6⟩
  obtain ⟨len, py, ex, h⟩ := has (({ st with allowPartial := .off } : VState α).strictOr t.strict)
  have hmx' : ∀ k, t.maxLength = some k → hs.length + (vs.length + ts.length) ≤ k := by
    intro k hk
    have := hmx k hk
    simpa using this
  obtain ⟨st1, h1, h2⟩ := take_tupleItems t input len t.head hs ((vs.map Prod.fst ++ ts.map Prod.fst).map .ok) 0 0 []
    (({ st with allowPartial := .off } : VState α).floorExactness ex) hh
    (fun k hk => by have := hmx' k hk; simp only [List.length_nil]; omega) (hst0.floor ex)
  rw [← List.map_append, List.nil_append] at h1
  by_cases htl : tail = []
  · subst htl
    obtain rfl : ts = [] := by cases ht; rfl
    simp only [List.map_nil, List.append_nil] at h h1 hmn ⊢
    obtain ⟨st', it', h3, h4, h5⟩ := take_variadicLoop t input len vs
      ⟨(vs.map Prod.fst).map .ok, 0 + hs.length, none, 0 + hs.length⟩ (hs.map Prod.snd) st1 rfl rfl hv
      (fun k hk => by have := hmx' k hk; rw [List.length_map]; omega) h2
    refine ⟨st', ?_, h5⟩
    simp only [tupleRun, TupleV.validate, h, tupleVariable, hvar, h1, Option.isSome_none, List.isEmpty_nil, Bool.not_true,
      Bool.and_false, Bool.or_false, Bool.false_eq_true, if_false, if_true, h3, h4, tupleMin_ok t _ hmn, List.append_nil,
      Option.getD_some]
  · have htn : ts ≠ [] := by
      rintro rfl
      cases ht
      exact htl rfl
    have htn' : ts.map Prod.fst ≠ [] := by simpa using htn
    have hle : tail.length = ts.length := ht.length
    generalize hin : vs.map Prod.fst ++ ts.map Prod.fst = xs at *
    have hxs : xs.length = vs.length + ts.length := by rw [← hin]; simp
    have hsplit : xs.take tail.length ++ xs.drop tail.length = xs := List.take_append_drop ..
    have htake : (xs.take tail.length).length = tail.length := by
      rw [List.length_take]; omega
    have hdrop : (xs.drop tail.length).length = vs.length := by
      rw [List.length_drop]; omega
    have htk := takeInner_map (xs.take tail.length) (xs.drop tail.length) (0 + hs.length) (0 + hs.length)
    rw [← List.map_append, hsplit, htake] at htk
    obtain ⟨st2, it2, i2, h3, h4, h5⟩ := take_bufferLoop t input len (ts.map Prod.fst) htn'
      (xs.drop tail.length) vs (xs.take tail.length)
      ⟨(xs.drop tail.length).map .ok, 0 + hs.length + tail.length, none, 0 + hs.length⟩ (0 + hs.length) (hs.map Prod.snd) st1
      (hsplit.trans hin.symm) hdrop rfl rfl hv (fun k hk => by have := hmx' k hk; rw [List.length_map]; omega) h2
    obtain ⟨st', h6, h7⟩ := take_tupleItems t input len tail ts [] 0 i2 (hs.map Prod.snd ++ vs.map Prod.snd) st2 ht
      (fun k hk => by have := hmx' k hk; rw [List.length_append, List.length_map, List.length_map]; omega) h5
    rw [List.append_nil] at h6
    have htl' : tail.isEmpty = false := by cases tail with
      | nil => exact absurd rfl htl
      | cons _ _ => rfl
    refine ⟨st', ?_, h7⟩
    simp only [tupleRun, TupleV.validate, h, tupleVariable, hvar, h1, Option.isSome_none, List.isEmpty_nil, Bool.not_true,
      Bool.and_false, Bool.or_false, Bool.false_eq_true, if_false, if_true, htl', htk, h3, h6, h4, List.append_assoc,
      tupleMin_ok t _ hmn, List.append_nil, Option.getD_some]

end PC.Trip
