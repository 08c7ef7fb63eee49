import Verif.Lemmas.Collections

/-
Lists: C16 (element-wise, order preserving), C17 (length bounds, laziness), C18 (fail_fast),
C19 (partial validation).
-/

namespace PC.Coll
variable {α : Type}

/-! ## Samples used in the examples

A value is a list of integers, an item is a one-element list. -/

/-- Rejects negative numbers, omits zero, raises on 99, adds 100 to anything else. -/
def sampleItem : Validator (List Int) (List Int) := fun a st =>
  match a with
  | [n] =>
    if n < 0 then (.error (.lineErrors [.new (.other "negative") a]), st)
    else if n = 0 then (.error .omitted, st)
    else if n = 99 then (.error (.internal ⟨"KeyError"⟩), st)
    else (.ok [n + 100], st)
  | _ => (.error (.lineErrors [.new (.other "not_a_number") a]), st)

/-- Lists of `sampleItem` of length 1 to 4. -/
def sampleList : ListV (List Int) where
  strict := false
  item := some sampleItem
  minLength := some 1
  maxLength := some 4
  failFast := false
  asList := fun _ xs => .ok (⟨xs.map (fun n => .ok [n]), some xs.length, true⟩, .exact)
  build := List.flatten

/-- Fresh validation state in the given partial mode. -/
def stateIn (mode : PartialMode) : VState (List Int) := .new {} Guard.State.init mode

theorem sampleItem_rejects : RejectsWithErrors sampleItem := by
  intro a st
  unfold sampleItem
  split <;> (repeat' split) <;> simp

/-! ## C16, C17, C18: acceptance -/

/-- **C16, C17, C18** (acceptance).  A list input is accepted with value `o` exactly when every item
could be iterated, no item failed (other than the last of a partial input), the output is the
items' outputs in order, and the lengths are within the closed bounds.  This holds with and
without `fail_fast`. -/
theorem list_accepts_iff (l : ListV α) (v : Validator α α) (hitem : l.item = some v)
    (hv : RejectsWithErrors v) (input : α) (st : VState α) (seq : Seq α) (ex : Exactness)
    (hseq : l.asList (st.strictOr l.strict) input = .ok (seq, ex)) (o : α) :
    (l.validate input st).1 = .ok o ↔
      ∃ xs : List α, seq.items = xs.map .ok ∧
        let vs := visits v st.allowPartial 0 xs (st.floorExactness ex)
        (∀ x ∈ vs, x.Plain ∧ ¬ x.Fails) ∧ o = l.build (outputs vs) ∧
        FitsMin l.minLength (outputs vs).length ∧ FitsMax l.maxLength (count vs) := by
  have hap : (st.floorExactness ex).allowPartial = st.allowPartial := by
    unfold VState.floorExactness; split <;> try rfl
    split <;> rfl
  unfold ListV.validate
  rw [hseq]
  dsimp only
  rw [hitem]
  dsimp only
  generalize st.floorExactness ex = st' at hap ⊢
  unfold validateIterToVec
  rw [hap]
  rcases all_ok_or_error seq.items with ⟨xs, hxs⟩ | herr
  · rw [hxs]
    have hacc := fun out => vecLoop_accept v hv st.allowPartial l.failFast xs 0
      (MaxLengthCheck.new l.maxLength "List" input seq.len) [] st' out
      (by intro m _; exact Nat.zero_le _)
    have huniq : ∀ ys : List α, xs.map (Except.ok (ε := PyErr)) = ys.map .ok → ys = xs := by
      intro ys h
      have := congrArg (List.map (fun x => Except.toOption x)) h
      simp only [List.map_map] at this
      have hinj : Function.Injective (fun x : α => Except.toOption (Except.ok (ε := PyErr) x)) := by
        intro a b hab; simpa [Except.toOption] using hab
      exact ((List.map_inj_right (fun a b hab => hinj hab)).1 this).symm
    generalize (vecLoop v st.allowPartial l.failFast (enumerateLastPartial st.allowPartial 0
      (xs.map .ok)) (MaxLengthCheck.new l.maxLength "List" input seq.len) [] [] st') = run at hacc ⊢
    obtain ⟨res, rst, un⟩ := run
    dsimp only at hacc ⊢
    have hzero : ∀ n, (MaxLengthCheck.new l.maxLength "List" input seq.len).current + n = n := by
      intro n; simp [MaxLengthCheck.new]
    have hmx : (MaxLengthCheck.new l.maxLength "List" input seq.len).maxLength = l.maxLength := rfl
    simp only [hzero, hmx, List.nil_append] at hacc
    cases res with
    | error e =>
      dsimp only
      constructor
      · intro h; cases h
      · rintro ⟨ys, hys, h1, h2, h3, h4⟩
        cases huniq ys hys
        have := (hacc _).2 ⟨h1, rfl, h4⟩
        cases this
    | ok out =>
      dsimp only
      obtain ⟨h1, h2, h4⟩ := (hacc out).1 rfl
      subst h2
      rcases minLengthCheck_eq input "List" l.minLength
        (outputs (visits v st.allowPartial 0 xs st')).length with ⟨hm, he⟩ | ⟨m, hm, hlt, he⟩
      · rw [he]
        dsimp only
        constructor
        · intro h; cases h
          exact ⟨xs, rfl, h1, rfl, hm, h4⟩
        · rintro ⟨ys, hys, -, h2, -, -⟩
          cases huniq ys hys
          rw [h2]
      · rw [he]
        dsimp only
        constructor
        · intro h; cases h
        · rintro ⟨ys, hys, -, -, h3, -⟩
          cases huniq ys hys
          have := h3 m hm
          omega
  · have hno := fun out => vecLoop_iteration_error v st.allowPartial l.failFast seq.items 0
      (MaxLengthCheck.new l.maxLength "List" input seq.len) [] [] st' out herr
    generalize (vecLoop v st.allowPartial l.failFast (enumerateLastPartial st.allowPartial 0
      seq.items) (MaxLengthCheck.new l.maxLength "List" input seq.len) [] [] st') = run at hno ⊢
    obtain ⟨res, rst, un⟩ := run
    dsimp only at hno ⊢
    cases res with
    | ok out => exact absurd rfl (hno out)
    | error e =>
      dsimp only
      constructor
      · intro h; cases h
      · rintro ⟨ys, hys, -⟩
        obtain ⟨e, he⟩ := herr
        rw [hys] at he
        simp at he


/-- Zero is omitted, the others are kept in order. -/
example : (sampleList.validate [5, 0, 7] (stateIn .off)).1 = .ok [105, 107] := by decide

example : RejectsWithErrors sampleItem ∧
    sampleList.asList ((stateIn .off).strictOr sampleList.strict) [5, 0, 7]
      = .ok (⟨[.ok [5], .ok [0], .ok [7]], some 3, true⟩, .exact) :=
  ⟨sampleItem_rejects, rfl⟩

/-- `mode` never reported as an item's own fault: in non-partial mode the number counted against
`max_length` is the length of the output, so the bounds of `list_accepts_iff` are bounds on the
validated length (**C17**). -/
theorem count_is_output_length (v : Validator α α) (xs : List α) (i : Nat) (st : VState α)
    (h : ∀ x ∈ visits v .off i xs st, x.Plain ∧ ¬ x.Fails) :
    count (visits v .off i xs st) = (outputs (visits v .off i xs st)).length := by
  induction xs generalizing i st with
  | nil => rfl
  | cons a rest ih =>
    rw [visits_cons] at h ⊢
    have hoff : (PartialMode.off.isActive && rest.isEmpty) = false := rfl
    rw [hoff] at h ⊢
    generalize v a (setPartial .off false st) = r at h ⊢
    obtain ⟨res, st'⟩ := r
    rw [List.forall_mem_cons] at h
    have := ih _ _ h.2
    have h1 := h.1
    match res with
    | .ok w => simp only [count, outputs, List.map_cons, List.sum_cons, List.flatMap_cons,
        List.length_append, Visit.count, Visit.outputs, List.length_cons, List.length_nil, Nat.zero_add] at this ⊢; omega
    | .error (.lineErrors ls) => exact absurd ⟨ls, rfl, rfl⟩ h1.2
    | .error .omitted => simp only [count, outputs, List.map_cons, List.sum_cons,
        List.flatMap_cons, List.length_append, Visit.count, Visit.outputs, List.length_nil, Nat.zero_add] at this ⊢; omega
    | .error (.internal e) => exact absurd h1.1 (by simp [Visit.Plain])
    | .error .useDefault => exact absurd h1.1 (by simp [Visit.Plain])

example : count (visits sampleItem .off 0 [[5], [0], [7]] (stateIn .off)) = 2 := by decide

/-- How `ListV.validate` continues after the loop. -/
theorem list_validate_eq (l : ListV α) (v : Validator α α) (hitem : l.item = some v) (input : α)
    (st : VState α) (seq : Seq α) (ex : Exactness)
    (hseq : l.asList (st.strictOr l.strict) input = .ok (seq, ex)) :
    (l.validate input st).1 =
      match (validateIterToVec v (.new l.maxLength "List" input seq.len) l.failFast seq.items
        (st.floorExactness ex)).result with
      | .error e => .error e
      | .ok out => match minLengthCheck input "List" l.minLength out.length with
        | .error e => .error e
        | .ok () => .ok (l.build out) := by
  unfold ListV.validate
  rw [hseq]
  dsimp only
  rw [hitem]
  dsimp only
  cases (validateIterToVec v (.new l.maxLength "List" input seq.len) l.failFast seq.items
        (st.floorExactness ex)).result with
  | error e => rfl
  | ok out => dsimp only; cases minLengthCheck input "List" l.minLength out.length <;> rfl

theorem floor_allowPartial (st : VState α) (ex : Exactness) :
    (st.floorExactness ex).allowPartial = st.allowPartial := by
  unfold VState.floorExactness; split <;> try rfl
  split <;> rfl

/-! ## C16, C17: rejection -/

/-- **C16** (errors).  Without `fail_fast` and when no item raises a non-validation error and the
upper bound is respected, a list some item of which fails is rejected with exactly the errors of
the failing items, in item order, each at the item's index. -/
theorem list_errors (l : ListV α) (v : Validator α α) (hitem : l.item = some v)
    (hff : l.failFast = false) (input : α) (st : VState α) (xs : List α) (len : Option Nat)
    (pl : Bool) (ex : Exactness)
    (hseq : l.asList (st.strictOr l.strict) input = .ok (⟨xs.map .ok, len, pl⟩, ex))
    (hplain : ∀ x ∈ visits v st.allowPartial 0 xs (st.floorExactness ex), x.Plain)
    (hmax : FitsMax l.maxLength (count (visits v st.allowPartial 0 xs (st.floorExactness ex))))
    (herr : errors (visits v st.allowPartial 0 xs (st.floorExactness ex)) ≠ []) :
    (l.validate input st).1
      = .error (.lineErrors (errors (visits v st.allowPartial 0 xs (st.floorExactness ex)))) := by
  rw [list_validate_eq l v hitem input st _ ex hseq, hff]
  unfold validateIterToVec
  rw [floor_allowPartial]
  rw [vecLoop_full v st.allowPartial xs 0 _ [] [] _ hplain (by simpa [MaxLengthCheck.new] using hmax)]
  simp only [List.nil_append]
  rw [if_neg (by simpa using herr)]

/-- Two failing items among four: both are reported, at their indices. -/
example : (sampleList.validate [5, -1, 7, -2] (stateIn .off)).1 = .error (.lineErrors
      [⟨.other "negative", .list [.i 1], [-1]⟩, ⟨.other "negative", .list [.i 3], [-2]⟩]) ∧
    FitsMax sampleList.maxLength (count (visits sampleItem .off 0 [[5], [-1], [7], [-2]] (stateIn .off))) := by
  refine ⟨by decide, ?_⟩
  intro m hm
  cases hm
  decide

/-- **C17** (too long).  Without `fail_fast`, a list with more items (that are not omitted) than
`max_length` is rejected with exactly one `too_long` error, about the whole list, whatever else
is wrong with its items. -/
theorem list_too_long (l : ListV α) (v : Validator α α) (hitem : l.item = some v)
    (hff : l.failFast = false) (input : α) (st : VState α) (xs : List α) (len : Option Nat)
    (pl : Bool) (ex : Exactness)
    (hseq : l.asList (st.strictOr l.strict) input = .ok (⟨xs.map .ok, len, pl⟩, ex))
    (hplain : ∀ x ∈ visits v st.allowPartial 0 xs (st.floorExactness ex), x.Plain)
    (m : Nat) (hm : l.maxLength = some m)
    (hmax : m < count (visits v st.allowPartial 0 xs (st.floorExactness ex))) :
    (l.validate input st).1 = .error (.lineErrors [⟨.tooLong "List" m len, .empty, input⟩]) := by
  rw [list_validate_eq l v hitem input st _ ex hseq, hff]
  unfold validateIterToVec
  rw [floor_allowPartial]
  obtain ⟨m', hm', he⟩ := vecLoop_too_long v st.allowPartial xs 0
    (.new l.maxLength "List" input len) [] [] (st.floorExactness ex) hplain
    (by intro m _; exact Nat.zero_le _)
    (by
      intro h
      have := h m hm
      have h0 : (MaxLengthCheck.new l.maxLength "List" input len).current = 0 := rfl
      omega)
  rw [he]
  have : m' = m := by
    have h1 : l.maxLength = some m' := hm'
    rw [hm] at h1; exact (Option.some.inj h1).symm
  subst this
  rfl

/-- Five items that are not omitted, one failing: only `too_long` is reported. -/
example : (sampleList.validate [5, -1, 0, 7, 8, 9] (stateIn .off)).1 = .error (.lineErrors
      [⟨.tooLong "List" 4 (some 6), .empty, [5, -1, 0, 7, 8, 9]⟩]) ∧
    4 < count (visits sampleItem .off 0 [[5], [-1], [0], [7], [8], [9]] (stateIn .off)) := by decide

/-- **C17** (too short).  If no item fails and the upper bound is respected but the output is shorter
than `min_length`, the list is rejected with exactly one `too_short` error, about the whole list. -/
theorem list_too_short (l : ListV α) (v : Validator α α) (hitem : l.item = some v)
    (hv : RejectsWithErrors v) (input : α) (st : VState α) (xs : List α) (len : Option Nat)
    (pl : Bool) (ex : Exactness)
    (hseq : l.asList (st.strictOr l.strict) input = .ok (⟨xs.map .ok, len, pl⟩, ex))
    (hfine : ∀ x ∈ visits v st.allowPartial 0 xs (st.floorExactness ex), x.Plain ∧ ¬ x.Fails)
    (hmax : FitsMax l.maxLength (count (visits v st.allowPartial 0 xs (st.floorExactness ex))))
    (m : Nat) (hm : l.minLength = some m)
    (hmin : (outputs (visits v st.allowPartial 0 xs (st.floorExactness ex))).length < m) :
    (l.validate input st).1 = .error (.lineErrors [⟨.tooShort "List" m
      (outputs (visits v st.allowPartial 0 xs (st.floorExactness ex))).length, .empty, input⟩]) := by
  rw [list_validate_eq l v hitem input st _ ex hseq]
  unfold validateIterToVec
  rw [floor_allowPartial]
  rw [(vecLoop_accept v hv st.allowPartial l.failFast xs 0 _ [] _ _
    (by intro m _; exact Nat.zero_le _)).2 ⟨hfine, rfl, by simpa [MaxLengthCheck.new] using hmax⟩]
  dsimp only
  rw [List.nil_append]
  rcases minLengthCheck_eq input "List" l.minLength
        (outputs (visits v st.allowPartial 0 xs (st.floorExactness ex))).length
    with ⟨h, -⟩ | ⟨m', hm', -, he⟩
  · have := h m hm; omega
  · rw [he]
    rw [hm] at hm'; cases hm'
    rfl

example : (sampleList.validate [0, 0] (stateIn .off)).1 = .error (.lineErrors
      [⟨.tooShort "List" 1 0, .empty, [0, 0]⟩]) := by decide

/-- **C16** (other exceptions).  An exception that is not a validation error, raised by the item
validator or asked for as use-default, ends the validation at once and is passed on unchanged,
as long as no earlier item ended it. -/
theorem list_other_errors (l : ListV α) (v : Validator α α) (hitem : l.item = some v)
    (hff : l.failFast = false) (input : α) (st : VState α) (pre : List α) (a : α)
    (post : List (Except PyErr α)) (hoff : st.allowPartial = .off) (len : Option Nat) (pl : Bool)
    (ex : Exactness)
    (hseq : l.asList (st.strictOr l.strict) input = .ok (⟨pre.map .ok ++ .ok a :: post, len, pl⟩, ex))
    (hplain : ∀ x ∈ visits v .off 0 pre (st.floorExactness ex), x.Plain)
    (hmax : FitsMax l.maxLength (count (visits v .off 0 pre (st.floorExactness ex))))
    (e : ValError α) (he : (∃ p, e = .internal p) ∨ e = .useDefault)
    (ha : (v a { after v pre (st.floorExactness ex) with allowPartial := .off }).1 = .error e) :
    (l.validate input st).1 = .error e := by
  rw [list_validate_eq l v hitem input st _ ex hseq, hff]
  unfold validateIterToVec
  rw [floor_allowPartial, hoff]
  obtain ⟨c', hc, heq⟩ := vecLoop_prefix v .off false (.ok a :: post) (by simp) pre 0
    (.new l.maxLength "List" input len) [] [] (st.floorExactness ex) hplain (.inl rfl)
    (by simpa [MaxLengthCheck.new] using hmax)
  rw [heq, enumerate_cons, vecLoop_ok]
  have hsp : setPartial .off (PartialMode.off.isActive && post.isEmpty) (after v pre (st.floorExactness ex))
    = { after v pre (st.floorExactness ex) with allowPartial := .off } := rfl
  rw [hsp, ha]
  rcases he with ⟨p, rfl⟩ | rfl <;> rfl

example : (sampleList.validate [5, -1, 99, 7] (stateIn .off)).1 = .error (.internal ⟨"KeyError"⟩) := by
  decide

/-- **C16** (iteration errors).  An exception raised by the iterator is one `iteration_error` at the
index that could not be read, about the whole input. -/
theorem list_iteration_error (l : ListV α) (v : Validator α α) (hitem : l.item = some v)
    (hff : l.failFast = false) (input : α) (st : VState α) (pre : List α) (e : PyErr)
    (post : List (Except PyErr α)) (len : Option Nat) (pl : Bool) (ex : Exactness)
    (hseq : l.asList (st.strictOr l.strict) input = .ok (⟨pre.map .ok ++ .error e :: post, len, pl⟩, ex))
    (hplain : ∀ x ∈ visits v .off 0 pre (st.floorExactness ex), x.Plain)
    (hmax : FitsMax l.maxLength (count (visits v .off 0 pre (st.floorExactness ex)))) :
    (l.validate input st).1 = .error (.lineErrors
      [⟨.iterationError e.name, .list [.i pre.length], input⟩]) := by
  rw [list_validate_eq l v hitem input st _ ex hseq, hff]
  unfold validateIterToVec
  rw [floor_allowPartial]
  obtain ⟨c', hc, heq⟩ := vecLoop_prefix v st.allowPartial false (.error e :: post) (by simp) pre 0
    (.new l.maxLength "List" input len) [] [] (st.floorExactness ex) hplain (.inl rfl)
    (by simpa [MaxLengthCheck.new] using hmax)
  rw [heq, enumerate_cons]
  simp only [vecLoop, anyNextError, Nat.zero_add]
  rw [hc.2.2.1]
  rfl

example : ({ sampleList with
      asList := fun _ (xs : List Int) => .ok (⟨xs.map (fun n => Except.ok [n]) ++ [Except.error (PyErr.mk "boom")], none, false⟩, .lax) }.validate
      [5, 6] (stateIn .off)).1
    = .error (.lineErrors [⟨.iterationError "boom", .list [.i 2], [5, 6]⟩]) := by decide

/-! ## C18: fail_fast -/

/-- **C18** (same verdict).  Turning `fail_fast` on or off never changes whether a list is accepted,
nor the value. -/
theorem list_fail_fast_verdict (l : ListV α) (v : Validator α α) (hitem : l.item = some v)
    (hv : RejectsWithErrors v) (input : α) (st : VState α) (b : Bool) (o : α) :
    ({ l with failFast := b }.validate input st).1 = .ok o ↔ (l.validate input st).1 = .ok o := by
  cases hseq : l.asList (st.strictOr l.strict) input with
  | error e =>
    simp only [ListV.validate, hseq]
  | ok p =>
    obtain ⟨seq, ex⟩ := p
    rw [list_accepts_iff l v hitem hv input st seq ex hseq,
      list_accepts_iff { l with failFast := b } v hitem hv input st seq ex hseq]

example : ({ sampleList with failFast := true }.validate [5, 0, 7] (stateIn .off)).1 = .ok [105, 107] := by
  decide

/-- **C18** (first failure only).  With `fail_fast`, if the items before `a` do not fail and `a` fails
and the upper bound is not exceeded, exactly `a`'s errors are reported, at `a`'s index; the items
after `a` play no role. -/
theorem list_fail_fast_errors (l : ListV α) (v : Validator α α) (hitem : l.item = some v)
    (hff : l.failFast = true) (input : α) (st : VState α) (pre : List α) (a : α)
    (post : List (Except PyErr α)) (hoff : st.allowPartial = .off) (len : Option Nat) (pl : Bool)
    (ex : Exactness)
    (hseq : l.asList (st.strictOr l.strict) input = .ok (⟨pre.map .ok ++ .ok a :: post, len, pl⟩, ex))
    (hfine : ∀ x ∈ visits v .off 0 pre (st.floorExactness ex), x.Plain ∧ ¬ x.Fails)
    (hmax : FitsMax l.maxLength (count (visits v .off 0 pre (st.floorExactness ex)) + 1))
    (ls : List (LineError α))
    (ha : (v a { after v pre (st.floorExactness ex) with allowPartial := .off }).1
      = .error (.lineErrors ls)) :
    (l.validate input st).1
      = .error (.lineErrors (ls.map (·.withOuterLocation (.i pre.length)))) := by
  rw [list_validate_eq l v hitem input st _ ex hseq, hff]
  unfold validateIterToVec
  rw [floor_allowPartial, hoff]
  obtain ⟨c', hc, heq⟩ := vecLoop_prefix v .off true (.ok a :: post) (by simp) pre 0
    (.new l.maxLength "List" input len) [] [] (st.floorExactness ex) (fun x hx => (hfine x hx).1)
    (.inr (fun x hx => (hfine x hx).2))
    (by simpa [MaxLengthCheck.new] using fitsMax_mono hmax (by omega))
  rw [heq, enumerate_cons, vecLoop_ok]
  have hsp : setPartial .off (PartialMode.off.isActive && post.isEmpty) (after v pre (st.floorExactness ex))
    = { after v pre (st.floorExactness ex) with allowPartial := .off } := rfl
  rw [hsp, ha]
  dsimp only
  have hfit : FitsMax c'.maxLength (c'.current + 1) := by
    rw [hc.fits]; simpa [MaxLengthCheck.new] using hmax
  obtain ⟨c'', hi, -⟩ := incr_of_fits hfit
  rw [hi]
  have hl : (PartialMode.off.isActive && post.isEmpty) = false := rfl
  rw [hl]
  have herrs : errors (visits v .off 0 pre (st.floorExactness ex)) = [] := by
    unfold errors
    rw [List.flatMap_eq_nil_iff]
    intro x hx
    have := (hfine x hx).2
    unfold Visit.errors
    split
    · rename_i ls' hr
      split
      · rfl
      · rename_i hlast
        exact absurd ⟨ls', hr, by simpa using hlast⟩ this
    · rfl
  rw [herrs]
  simp

/-- Only the first of two failures is reported. -/
example : ({ sampleList with failFast := true }.validate [5, -1, 7, -2] (stateIn .off)).1
    = .error (.lineErrors [⟨.other "negative", .list [.i 1], [-1]⟩]) := by decide

/-! ## C17: laziness -/

/-- **C17** (the look-ahead).  The enumerating iterator yields exactly the items with their index
and last-of-partial flag, and after `k` items it has pulled `k + 1` items from the source. -/
theorem lookahead_refines (items : List α) (mode : PartialMode) (k : Nat) (hk : k ≤ items.length) :
    ((LookAhead.new items mode).run k).1 = (enumerateLastPartial mode 0 items).take k ∧
    ((LookAhead.new items mode).run k).2.iter = items.drop (k + 1) := by
  suffices h : ∀ i, (LookAhead.run k ⟨items.tail, i, items.head?, mode⟩).1
        = (enumerateLastPartial mode i items).take k ∧
      (LookAhead.run k ⟨items.tail, i, items.head?, mode⟩).2.iter = items.drop (k + 1) from h 0
  induction k generalizing items with
  | zero => intro i; exact ⟨by simp [LookAhead.run], by simp [LookAhead.run]⟩
  | succ k ih =>
    intro i
    cases items with
    | nil => simp at hk
    | cons a rest =>
      simp only [List.tail_cons, List.head?_cons, LookAhead.run]
      rw [lookAhead_next]
      dsimp only
      obtain ⟨h1, h2⟩ := ih rest (by simpa using hk) (i + 1)
      rw [h1, h2, enumerate_cons]
      exact ⟨rfl, rfl⟩

/-- Three items are yielded by asking three times; a fourth one has been pulled by then. -/
example : ((LookAhead.new [10, 20, 30, 40, 50] .on).run 3).2.iter = [50] := by decide

/-- **C17** (laziness).  If no item is omitted, validating with `max_length = m` examines at most
`m + 1` items of the iterator, so (with the one item of look-ahead, `lookahead_refines`) it
pulls at most `m + 2`.  What is missing from the claim: one item more than announced is pulled,
see `list_pulls_one_more`, and omitted items are not counted. -/
theorem list_examines_partial (v : Validator α α) (hv : ∀ a st, (v a st).1 ≠ .error .omitted)
    (m : Nat) (ft : String) (input : α) (len : Option Nat) (ff : Bool)
    (iter : List (Except PyErr α)) (st : VState α) :
    ∃ k, k ≤ m + 1 ∧
      (validateIterToVec v (.new (some m) ft input len) ff iter st).unvisited
        = (enumerateLastPartial st.allowPartial 0 iter).drop k := by
  obtain ⟨k, hk, he⟩ := vecLoop_unvisited v hv st.allowPartial ff m
    (enumerateLastPartial st.allowPartial 0 iter) (.new (some m) ft input len) [] [] st rfl
    (Nat.zero_le _)
  exact ⟨k, by simpa [MaxLengthCheck.new] using hk, he⟩

example : ∀ a st, ((fun a st => (.ok a, st) : Validator (List Int) (List Int)) a st).1
    ≠ .error .omitted := by
  intro a st h; cases h

/-- **C17** fails by one: with `max_length = 1` two items are examined before the list is
rejected, and the look-ahead has then pulled a third one from the iterator. -/
theorem list_pulls_one_more :
    (validateIterToVec (fun a st => (.ok a, st) : Validator Nat Nat) (.new (some 1) "List" 0 none) false
      [.ok 1, .ok 2, .ok 3, .ok 4] (.new {} Guard.State.init .off)).unvisited
        = (enumerateLastPartial .off 0 [.ok 1, .ok 2, .ok 3, .ok 4]).drop 2 ∧
    ((LookAhead.new [1, 2, 3, 4] .off).run 2).2.iter = [4] := by
  exact ⟨rfl, by decide⟩

/-- **C17** (lists without an item schema).  A Python list is accepted unchanged exactly when its
length is within the closed bounds. -/
theorem untyped_list_bounds (l : ListV α) (hitem : l.item = none) (input : α) (st : VState α)
    (xs : List α) (len : Option Nat) (ex : Exactness)
    (hseq : l.asList (st.strictOr l.strict) input = .ok (⟨xs.map .ok, len, true⟩, ex)) (o : α) :
    (l.validate input st).1 = .ok o ↔
      o = l.build xs ∧ FitsMin l.minLength xs.length ∧ FitsMax l.maxLength xs.length := by
  have hcopy : (xs.map (Except.ok (ε := PyErr))).filterMap (·.toOption) = xs := by
    rw [List.filterMap_map]
    have : ((fun x : Except PyErr α => x.toOption) ∘ Except.ok) = some := rfl
    rw [this, List.filterMap_some]
  unfold ListV.validate
  rw [hseq]
  dsimp only
  rw [hitem]
  dsimp only
  rw [if_pos rfl, List.length_map, hcopy]
  rcases lengthCheck_eq input "List" l.minLength l.maxLength xs.length with
    ⟨h1, h2, he⟩ | ⟨m, h1, h2, he⟩ | ⟨-, m, h1, h2, he⟩
  · rw [he]; dsimp only
    constructor
    · intro h; cases h; exact ⟨rfl, h1, h2⟩
    · rintro ⟨rfl, -⟩; rfl
  · rw [he]; dsimp only
    constructor
    · intro h; cases h
    · rintro ⟨-, h, -⟩; have := h m h1; omega
  · rw [he]; dsimp only
    constructor
    · intro h; cases h
    · rintro ⟨-, -, h⟩; have := h m h1; omega

example : ({ sampleList with item := none }.validate [5, 0, 7] (stateIn .off)).1 = .ok [5, 0, 7] ∧
    ({ sampleList with item := none }.validate [] (stateIn .off)).1
      = .error (.lineErrors [⟨.tooShort "List" 1 0, .empty, []⟩]) := by decide

/-- The proviso "rejects with at least one error" matters: an item rejected with an empty list of
errors (a user function raising a `ValidationError` without line errors) is silently dropped from
the list instead of making it fail. -/
theorem empty_rejection_drops_item :
    ({ sampleList with item := some (fun a st =>
        if a = [-1] then (.error (.lineErrors []), st) else sampleItem a st) }.validate
      [5, -1, 7] (stateIn .off)).1 = .ok [105, 107] := by decide

/-! ## C19: partial validation -/

/-- **C19** (last element forgiven).  In partial mode a list whose elements except the last are fine
is accepted (bounds permitting), with the last element's value if it has one and without the
last element if it failed. -/
theorem list_partial_accepts (l : ListV α) (v : Validator α α) (hitem : l.item = some v)
    (hv : RejectsWithErrors v) (input : α) (st : VState α) (hmode : st.allowPartial.isActive = true)
    (init : List α) (a : α) (len : Option Nat) (pl : Bool) (ex : Exactness)
    (hseq : l.asList (st.strictOr l.strict) input = .ok (⟨(init ++ [a]).map .ok, len, pl⟩, ex))
    (hinit : ∀ x ∈ visits v .off 0 init (st.floorExactness ex), x.Plain ∧ ¬ x.Fails)
    (last : Visit α)
    (hlast : last = ⟨init.length, true, a,
      (v a { after v init (st.floorExactness ex) with allowPartial := st.allowPartial }).1⟩)
    (hplain : last.Plain)
    (hmin : FitsMin l.minLength
      (outputs (visits v .off 0 init (st.floorExactness ex)) ++ last.outputs).length)
    (hmax : FitsMax l.maxLength (count (visits v .off 0 init (st.floorExactness ex)) + last.count)) :
    (l.validate input st).1
      = .ok (l.build (outputs (visits v .off 0 init (st.floorExactness ex)) ++ last.outputs)) := by
  rw [list_accepts_iff l v hitem hv input st _ ex hseq]
  refine ⟨init ++ [a], rfl, ?_⟩
  rw [visits_snoc v st.allowPartial hmode a init 0, Nat.zero_add, ← hlast]
  dsimp only
  have ho : outputs [last] = last.outputs := by simp [outputs]
  have hc : count [last] = last.count := by simp [count]
  rw [outputs_append, count_append, ho, hc]
  refine ⟨?_, rfl, hmin, hmax⟩
  intro x hx
  rcases List.mem_append.1 hx with h | h
  · exact hinit x h
  · rw [List.mem_singleton] at h
    subst h
    refine ⟨hplain, ?_⟩
    rintro ⟨ls, -, h2⟩
    rw [hlast] at h2
    cases h2

/-- The failing last item is dropped. -/
example : (sampleList.validate [5, 7, -2] (stateIn .on)).1 = .ok [105, 107] ∧
    (stateIn .on).allowPartial.isActive = true := by decide

/-- **C19** (only the last).  In partial mode a failure of any element but the last still makes the
list be rejected. -/
theorem list_partial_rejects (l : ListV α) (v : Validator α α) (hitem : l.item = some v)
    (hv : RejectsWithErrors v) (input : α) (st : VState α) (hmode : st.allowPartial.isActive = true)
    (init : List α) (a : α) (len : Option Nat) (pl : Bool) (ex : Exactness)
    (hseq : l.asList (st.strictOr l.strict) input = .ok (⟨(init ++ [a]).map .ok, len, pl⟩, ex))
    (x : Visit α) (hx : x ∈ visits v .off 0 init (st.floorExactness ex)) (hf : x.Fails) (o : α) :
    (l.validate input st).1 ≠ .ok o := by
  intro h
  rw [list_accepts_iff l v hitem hv input st _ ex hseq] at h
  obtain ⟨ys, hys, h1, -⟩ := h
  have hy : ys = init ++ [a] := by
    have := congrArg (List.map (fun x => Except.toOption x)) hys
    simp only [List.map_map] at this
    have hinj : Function.Injective (fun x : α => Except.toOption (Except.ok (ε := PyErr) x)) := by
      intro a b hab; simpa [Except.toOption] using hab
    exact ((List.map_inj_right (fun a b hab => hinj hab)).1 this).symm
  subst hy
  rw [visits_snoc v st.allowPartial hmode a init 0] at h1
  exact (h1 x (List.mem_append_left _ hx)).2 hf

example : (sampleList.validate [5, -7, 2] (stateIn .on)).1
    = .error (.lineErrors [⟨.other "negative", .list [.i 1], [-7]⟩]) := by decide

/-- **C19** (complete data).  If the item validator treats data it accepts the same way in partial
mode, so does the list validator: complete valid data gives the same result with and without
partial mode, for lists nested to any depth. -/
theorem list_partial_complete (l : ListV α) (v : Validator α α) (hitem : l.item = some v)
    (hv : RejectsWithErrors v) (hp : PartialComplete v) : PartialComplete l.validate := by
  intro input st mode r hr hok
  cases hseq : l.asList (st.strictOr l.strict) input with
  | error e =>
    have h : ∀ m, (l.validate input { st with allowPartial := m }).1 = .error e := by
      intro m
      have : l.asList (VState.strictOr { st with allowPartial := m } l.strict) input = .error e := hseq
      simp only [ListV.validate, this]
    rw [h] at hr ⊢; exact hr
  | ok p =>
    obtain ⟨seq, ex⟩ := p
    rcases hok with ⟨o, rfl⟩ | rfl
    · rw [list_accepts_iff l v hitem hv input { st with allowPartial := .off } seq ex hseq] at hr
      obtain ⟨xs, hxs, h⟩ := hr
      rw [list_accepts_iff l v hitem hv input { st with allowPartial := mode } seq ex hseq]
      refine ⟨xs, hxs, ?_⟩
      have hfl : ∀ m, VState.floorExactness { st with allowPartial := m } ex
          = { st.floorExactness ex with allowPartial := m } := by
        intro m
        unfold VState.floorExactness
        dsimp only
        split <;> try rfl
        split <;> rfl
      have hvis : ∀ i m m' st', visits v m i xs { st' with allowPartial := m' }
          = visits v m i xs st' := by
        intro i m m' st'
        cases xs with
        | nil => rfl
        | cons a rest => rw [visits_cons, visits_cons]; rfl
      rw [hfl] at h ⊢
      rw [hvis] at h ⊢
      dsimp only at h ⊢
      generalize st.floorExactness ex = st' at h ⊢
      by_cases hmode : mode.isActive = true
      · rcases List.eq_nil_or_concat xs with rfl | ⟨init, a, rfl⟩
        · exact h
        · rw [List.concat_eq_append] at h ⊢
          rw [visits_snoc v mode hmode]
          rw [visits_snoc_off] at h
          obtain ⟨h1, h2, h3, h4⟩ := h
          have hlast := h1 _ (List.mem_append_right _ (List.mem_singleton_self _))
          have hsame : (v a { after v init st' with allowPartial := mode }).1
              = (v a { after v init st' with allowPartial := .off }).1 := by
            refine hp a (after v init st') mode _ rfl ?_
            generalize (v a { after v init st' with allowPartial := .off }).1 = res at hlast
            match res with
            | .ok w => exact .inl ⟨w, rfl⟩
            | .error .omitted => exact .inr rfl
            | .error (.lineErrors ls) => exact absurd ⟨ls, rfl, rfl⟩ hlast.2
            | .error (.internal e) => exact absurd hlast.1 (by simp [Visit.Plain])
            | .error .useDefault => exact absurd hlast.1 (by simp [Visit.Plain])
          rw [hsame]
          refine ⟨?_, ?_, ?_, ?_⟩
          · intro x hx
            rcases List.mem_append.1 hx with h | h
            · exact h1 x (List.mem_append_left _ h)
            · rw [List.mem_singleton] at h
              subst h
              exact ⟨hlast.1, by rintro ⟨ls, -, h⟩; cases h⟩
          · rw [h2, outputs_append, outputs_append]; rfl
          · rw [outputs_append] at h3 ⊢; exact h3
          · rw [count_append] at h4 ⊢; exact h4
      · have : mode = .off := by cases mode <;> simp_all [PartialMode.isActive]
        subst this
        exact h
    · exfalso
      rw [list_validate_eq l v hitem input { st with allowPartial := .off } _ ex hseq] at hr
      have := vecLoop_not_omitted v (VState.floorExactness { st with allowPartial := .off } ex).allowPartial
        l.failFast (enumerateLastPartial (VState.floorExactness { st with allowPartial := .off } ex).allowPartial
        0 seq.items) (.new l.maxLength "List" input seq.len) [] []
        (VState.floorExactness { st with allowPartial := .off } ex)
      unfold validateIterToVec at hr
      generalize (vecLoop v (VState.floorExactness { st with allowPartial := .off } ex).allowPartial
        l.failFast (enumerateLastPartial (VState.floorExactness { st with allowPartial := .off } ex).allowPartial
        0 seq.items) (.new l.maxLength "List" input seq.len) [] []
        (VState.floorExactness { st with allowPartial := .off } ex)).result = res at hr this
      cases res with
      | error e => dsimp only at hr; cases hr; exact this rfl
      | ok out =>
        dsimp only at hr
        rcases minLengthCheck_eq input "List" l.minLength out.length with ⟨-, he⟩ | ⟨m, -, -, he⟩
        · rw [he] at hr; cases hr
        · rw [he] at hr; simp [ValError.new] at hr

example : PartialComplete sampleItem := by
  intro a st mode r h hr
  have hst : ∀ st st', (sampleItem a st).1 = (sampleItem a st').1 := by
    intro st st'; unfold sampleItem; split <;> (repeat' split) <;> rfl
  rw [← h]; exact hst _ _

end PC.Coll
