import Verif.Spec.Collections

namespace PC.Coll
variable {α : Type}

/-! ## Lemmas about the loop -/

theorem enumerate_cons (mode : PartialMode) (i : Nat) {ι : Type} (a : ι) (rest : List ι) :
    enumerateLastPartial mode i (a :: rest)
      = (i, mode.isActive && rest.isEmpty, a) :: enumerateLastPartial mode (i + 1) rest := rfl

theorem incr_ok {c c' : MaxLengthCheck α} (h : c.incr = .ok c') :
    c'.maxLength = c.maxLength ∧ c'.fieldType = c.fieldType ∧ c'.input = c.input ∧
    c'.actualLength = c.actualLength ∧ FitsMax c.maxLength (c.current + 1) ∧
    (c.maxLength ≠ none → c'.current = c.current + 1) := by
  unfold MaxLengthCheck.incr at h
  split at h
  · rename_i m hm
    split at h
    · exact absurd h (by simp)
    · cases h
      refine ⟨rfl, rfl, rfl, rfl, ?_, fun _ => rfl⟩
      intro m' hm'
      rw [hm] at hm'; cases hm'; omega
  · rename_i hm
    cases h
    refine ⟨rfl, rfl, rfl, rfl, ?_, fun h => absurd hm h⟩
    intro m' hm'; rw [hm] at hm'; cases hm'

theorem incr_error {c : MaxLengthCheck α} {e} (h : c.incr = .error e) :
    ∃ m, c.maxLength = some m ∧ m < c.current + 1 ∧
      e = .new (.tooLong c.fieldType m c.actualLength) c.input := by
  unfold MaxLengthCheck.incr at h
  split at h
  · rename_i m hm
    split at h
    · cases h; exact ⟨m, hm, by omega, rfl⟩
    · exact absurd h (by simp)
  · exact absurd h (by simp)


theorem visits_cons (v : Validator α α) (mode : PartialMode) (i : Nat) (a : α) (rest : List α)
    (st : VState α) :
    visits v mode i (a :: rest) st
      = ⟨i, mode.isActive && rest.isEmpty, a,
          (v a (setPartial mode (mode.isActive && rest.isEmpty) st)).1⟩
        :: visits v mode (i + 1) rest (v a (setPartial mode (mode.isActive && rest.isEmpty) st)).2 := rfl

theorem map_isEmpty {β γ : Type} (f : β → γ) (l : List β) : (l.map f).isEmpty = l.isEmpty := by
  cases l <;> rfl

theorem fitsMax_mono {max : Option Nat} {n k : Nat} (h : FitsMax max k) (hn : n ≤ k) :
    FitsMax max n := fun m hm => Nat.le_trans hn (h m hm)

theorem errs_ext {errs : List (LineError α)} {ls : List (LineError α)} {f} (hls : ls ≠ []) :
    errs ++ ls.map f ≠ [] := by
  cases ls with
  | nil => exact absurd rfl hls
  | cons => simp

theorem vecLoop_errs (v : Validator α α) (mode : PartialMode) (ff : Bool) :
    ∀ (items : List (Nat × Bool × Except PyErr α)) mlc out errs st o, errs ≠ [] →
    (vecLoop v mode ff items mlc out errs st).result ≠ .ok o := by
  intro items
  induction items with
  | nil =>
    intro mlc out errs st o h
    cases errs with
    | nil => exact absurd rfl h
    | cons => simp [vecLoop]
  | cons x rest ih =>
    obtain ⟨i, last, r⟩ := x
    intro mlc out errs st o h
    cases r with
    | error e => simp [vecLoop]
    | ok a =>
      unfold vecLoop
      dsimp only
      split
      · split
        · simp
        · exact ih _ _ _ _ _ h
      · split
        · simp
        · split
          · exact ih _ _ _ _ _ h
          · split
            · simp
            · exact ih _ _ _ _ _ (by simp [h])
      · exact ih _ _ _ _ _ h
      · simp

theorem fits_step {c c' : MaxLengthCheck α} (h : c.incr = .ok c') (k : Nat) :
    FitsMax c'.maxLength (c'.current + k) ↔ FitsMax c.maxLength (c.current + (1 + k)) := by
  obtain ⟨h1, -, -, -, -, h6⟩ := incr_ok h
  unfold FitsMax
  rw [h1]
  constructor
  · intro hh m hm
    have := hh m hm
    rw [h6 (by rw [hm]; simp)] at this; omega
  · intro hh m hm
    have := hh m hm
    rw [h6 (by rw [hm]; simp)]; omega

theorem vecLoop_accept (v : Validator α α) (hv : RejectsWithErrors v) (mode : PartialMode) (ff : Bool) :
    ∀ (xs : List α) i mlc out st o, FitsMax mlc.maxLength mlc.current →
    ((vecLoop v mode ff (enumerateLastPartial mode i (xs.map .ok)) mlc out [] st).result = .ok o ↔
      (∀ x ∈ visits v mode i xs st, x.Plain ∧ ¬ x.Fails) ∧
      o = out ++ outputs (visits v mode i xs st) ∧
      FitsMax mlc.maxLength (mlc.current + count (visits v mode i xs st))) := by
  intro xs
  induction xs with
  | nil =>
    intro i mlc out st o hc
    simp only [List.map_nil, enumerateLastPartial, vecLoop, visits, outputs, count]
    simp only [List.isEmpty_nil, if_true, Except.ok.injEq]
    simp [hc, eq_comm]
  | cons a rest ih =>
    intro i mlc out st o hc
    rw [List.map_cons, enumerate_cons, visits_cons, map_isEmpty]
    unfold vecLoop
    dsimp only
    generalize hl : (mode.isActive && rest.isEmpty) = last
    generalize hr : v a (setPartial mode last st) = r
    obtain ⟨res, st'⟩ := r
    dsimp only
    have hne : res ≠ .error (.lineErrors []) := by
      have := hv a (setPartial mode last st); rw [hr] at this; exact this
    match res, hne with
    | .ok w, _ =>
      dsimp only
      cases hi : mlc.incr with
      | error e =>
        obtain ⟨m, hm, hlt, -⟩ := incr_error hi
        dsimp only
        constructor
        · intro h; cases h
        · rintro ⟨-, -, hf⟩
          have := hf m hm
          simp only [count, Visit.count, List.map_cons, List.sum_cons] at this
          omega
      | ok mlc' =>
        dsimp only
        have h1 := (incr_ok hi)
        rw [ih]
        · rw [fits_step hi]
          simp only [List.forall_mem_cons, outputs, count, List.flatMap_cons, List.map_cons,
            List.sum_cons, Visit.outputs, Visit.Plain, Visit.Fails, Visit.count]
          simp
        · rw [h1.1]
          have := (fits_step hi 0)
          simp only [Nat.add_zero] at this
          rw [← h1.1]; rw [this]; exact h1.2.2.2.2.1
    | .error (.lineErrors ls), hne =>
      dsimp only
      cases hi : mlc.incr with
      | error e =>
        obtain ⟨m, hm, hlt, -⟩ := incr_error hi
        dsimp only
        constructor
        · intro h; cases h
        · rintro ⟨-, -, hf⟩
          have := hf m hm
          simp only [count, Visit.count, List.map_cons, List.sum_cons] at this
          omega
      | ok mlc' =>
        dsimp only
        have h1 := (incr_ok hi)
        cases last with
        | true =>
          simp only [if_true]
          rw [ih]
          · rw [fits_step hi]
            simp only [List.forall_mem_cons, outputs, count, List.flatMap_cons, List.map_cons,
              List.sum_cons, Visit.outputs, Visit.Plain, Visit.Fails, Visit.count]
            simp
          · rw [h1.1]
            have := (fits_step hi 0)
            simp only [Nat.add_zero] at this
            rw [← h1.1]; rw [this]; exact h1.2.2.2.2.1
        | false =>
          have hls : ls ≠ [] := fun h => hne (by rw [h])
          have hbad : ¬ (∀ x ∈ (⟨i, false, a, Except.error (.lineErrors ls)⟩ : Visit α) ::
              visits v mode (i + 1) rest st', x.Plain ∧ ¬ x.Fails) := by
            intro h
            exact (h _ (List.mem_cons_self ..)).2 ⟨ls, rfl, rfl⟩
          constructor
          · intro h
            exfalso
            revert h
            cases ff with
            | true => simp
            | false =>
              simp only [Bool.false_eq_true, if_false]
              exact vecLoop_errs _ _ _ _ _ _ _ _ _ (errs_ext hls)
          · intro h; exact absurd h.1 hbad
    | .error .omitted, _ =>
      dsimp only
      rw [ih _ _ _ _ _ hc]
      simp only [List.forall_mem_cons, outputs, count, List.flatMap_cons, List.map_cons,
            List.sum_cons, Visit.outputs, Visit.Plain, Visit.Fails, Visit.count]
      simp
    | .error (.internal e), _ =>
      dsimp only
      simp [Visit.Plain]
    | .error .useDefault, _ =>
      dsimp only
      simp [Visit.Plain]


/-- Same check, same bounds, `k` more items counted. -/
def Advanced (c c' : MaxLengthCheck α) (k : Nat) : Prop :=
  c'.maxLength = c.maxLength ∧ c'.fieldType = c.fieldType ∧ c'.input = c.input ∧
  c'.actualLength = c.actualLength ∧ (c.maxLength ≠ none → c'.current = c.current + k)

theorem incr_of_fits {c : MaxLengthCheck α} (h : FitsMax c.maxLength (c.current + 1)) :
    ∃ c', c.incr = .ok c' ∧ Advanced c c' 1 := by
  cases hi : c.incr with
  | error e =>
    obtain ⟨m, hm, hlt, -⟩ := incr_error hi
    have := h m hm; omega
  | ok c' =>
    obtain ⟨h1, h2, h3, h4, -, h6⟩ := incr_ok hi
    exact ⟨c', rfl, h1, h2, h3, h4, h6⟩

theorem incr_of_not_fits {c : MaxLengthCheck α} (h : ¬ FitsMax c.maxLength (c.current + 1)) :
    ∃ m, c.maxLength = some m ∧
      c.incr = .error (.new (.tooLong c.fieldType m c.actualLength) c.input) := by
  cases hi : c.incr with
  | error e =>
    obtain ⟨m, hm, -, he⟩ := incr_error hi
    exact ⟨m, hm, by rw [he]⟩
  | ok c' => exact absurd (incr_ok hi).2.2.2.2.1 h

theorem Advanced.trans {a b c : MaxLengthCheck α} {j k : Nat} (h1 : Advanced a b j)
    (h2 : Advanced b c k) : Advanced a c (j + k) := by
  obtain ⟨a1, a2, a3, a4, a5⟩ := h1
  obtain ⟨b1, b2, b3, b4, b5⟩ := h2
  refine ⟨b1.trans a1, b2.trans a2, b3.trans a3, b4.trans a4, ?_⟩
  intro h
  rw [b5 (by rw [a1]; exact h), a5 h]; omega

theorem Advanced.fits {c c' : MaxLengthCheck α} {j k : Nat} (h : Advanced c c' j) :
    FitsMax c'.maxLength (c'.current + k) ↔ FitsMax c.maxLength (c.current + (j + k)) := by
  obtain ⟨h1, -, -, -, h6⟩ := h
  unfold FitsMax
  rw [h1]
  constructor <;> intro hh m hm <;> have := hh m hm <;> have h6 := h6 (by rw [hm]; simp) <;> omega

theorem Advanced.refl (c : MaxLengthCheck α) : Advanced c c 0 := ⟨rfl, rfl, rfl, rfl, fun _ => rfl⟩

theorem vecLoop_ok (v : Validator α α) (saved : PartialMode) (ff : Bool) (index : Nat)
    (isLast : Bool) (item : α) (rest : List (Nat × Bool × Except PyErr α)) (mlc : MaxLengthCheck α)
    (out : List α) (errs : List (LineError α)) (st : VState α) :
    vecLoop v saved ff ((index, isLast, .ok item) :: rest) mlc out errs st =
      match (v item (setPartial saved isLast st)).1 with
      | .ok o =>
        match mlc.incr with
        | .error e => ⟨.error e, (v item (setPartial saved isLast st)).2, rest⟩
        | .ok mlc => vecLoop v saved ff rest mlc (out ++ [o]) errs (v item (setPartial saved isLast st)).2
      | .error (.lineErrors ls) =>
        match mlc.incr with
        | .error e => ⟨.error e, (v item (setPartial saved isLast st)).2, rest⟩
        | .ok mlc =>
          if isLast then vecLoop v saved ff rest mlc out errs (v item (setPartial saved isLast st)).2
          else if ff then ⟨.error (.lineErrors (errs ++ ls.map (·.withOuterLocation (.i index)))),
            (v item (setPartial saved isLast st)).2, rest⟩
            else vecLoop v saved ff rest mlc out (errs ++ ls.map (·.withOuterLocation (.i index)))
              (v item (setPartial saved isLast st)).2
      | .error .omitted => vecLoop v saved ff rest mlc out errs (v item (setPartial saved isLast st)).2
      | .error e => ⟨.error e, (v item (setPartial saved isLast st)).2, rest⟩ := rfl

theorem vecLoop_prefix (v : Validator α α) (mode : PartialMode) (ff : Bool)
    (rest : List (Except PyErr α)) (hrest : rest ≠ []) :
    ∀ (pre : List α) i mlc out errs st,
    (∀ x ∈ visits v .off i pre st, x.Plain) →
    (ff = false ∨ ∀ x ∈ visits v .off i pre st, ¬ x.Fails) →
    FitsMax mlc.maxLength (mlc.current + count (visits v .off i pre st)) →
    ∃ mlc' : MaxLengthCheck α, Advanced mlc mlc' (count (visits v .off i pre st)) ∧
      vecLoop v mode ff (enumerateLastPartial mode i (pre.map .ok ++ rest)) mlc out errs st
        = vecLoop v mode ff (enumerateLastPartial mode (i + pre.length) rest) mlc'
            (out ++ outputs (visits v .off i pre st)) (errs ++ errors (visits v .off i pre st))
            (after v pre st) := by
  intro pre
  induction pre with
  | nil =>
    intro i mlc out errs st _ _ _
    exact ⟨mlc, Advanced.refl _, by simp [visits, outputs, errors, after]⟩
  | cons a pre ih =>
    intro i mlc out errs st hp hf hm
    rw [List.map_cons, List.cons_append, enumerate_cons]
    have hem : (pre.map Except.ok ++ rest).isEmpty = false := by
      cases pre with
      | nil => cases rest with
        | nil => exact absurd rfl hrest
        | cons => rfl
      | cons => rfl
    rw [hem, Bool.and_false]
    rw [visits_cons] at hp hf hm ⊢
    have hoff : (PartialMode.off.isActive && pre.isEmpty) = false := rfl
    rw [hoff] at hp hf hm ⊢
    have hsp : setPartial PartialMode.off false st = setPartial mode false st := rfl
    rw [hsp] at hp hf hm ⊢
    rw [vecLoop_ok]
    have hafter : after v (a :: pre) st = after v pre (v a (setPartial mode false st)).2 := rfl
    rw [hafter]
    generalize v a (setPartial mode false st) = r at hp hf hm ⊢
    obtain ⟨res, st'⟩ := r
    dsimp only at hp hf hm ⊢
    rw [List.forall_mem_cons] at hp
    have hf' : ff = false ∨ ∀ x ∈ visits v .off (i + 1) pre st', ¬ x.Fails :=
      hf.imp id (fun h => (List.forall_mem_cons.1 h).2)
    have hlen : i + (a :: pre).length = i + 1 + pre.length := by simp; omega
    rw [hlen]
    match res with
    | .ok w =>
      dsimp only
      have hc : ∀ i l a w, count ((⟨i, l, a, .ok w⟩ : Visit α) :: visits v .off (i + 1) pre st')
          = 1 + count (visits v .off (i + 1) pre st') := by
        intros; simp [count, Visit.count]
      rw [hc] at hm ⊢
      obtain ⟨c', hi, ha⟩ := incr_of_fits (fitsMax_mono hm (by omega))
      rw [hi]
      dsimp only
      obtain ⟨c'', hc'', heq⟩ := ih (i + 1) c' (out ++ [w]) errs st' hp.2 hf' (ha.fits.2 hm)
      refine ⟨c'', ha.trans hc'', ?_⟩
      rw [heq]
      simp [outputs, errors, Visit.outputs, Visit.errors]
    | .error (.lineErrors ls) =>
      dsimp only
      have hc : ∀ i l a, count ((⟨i, l, a, .error (.lineErrors ls)⟩ : Visit α) ::
          visits v .off (i + 1) pre st') = 1 + count (visits v .off (i + 1) pre st') := by
        intros; simp [count, Visit.count]
      rw [hc] at hm ⊢
      obtain ⟨c', hi, ha⟩ := incr_of_fits (fitsMax_mono hm (by omega))
      rw [hi]
      have hff : ff = false := by
        refine hf.resolve_right ?_
        intro h
        exact h _ (List.mem_cons_self ..) ⟨ls, rfl, rfl⟩
      subst hff
      simp only [Bool.false_eq_true, if_false]
      obtain ⟨c'', hc'', heq⟩ := ih (i + 1) c' out
        (errs ++ ls.map (·.withOuterLocation (.i i))) st' hp.2 hf' (ha.fits.2 hm)
      refine ⟨c'', ha.trans hc'', ?_⟩
      rw [heq]
      simp [outputs, errors, Visit.outputs, Visit.errors]
    | .error .omitted =>
      dsimp only
      have hc : ∀ i l a, count ((⟨i, l, a, .error .omitted⟩ : Visit α) ::
          visits v .off (i + 1) pre st') = count (visits v .off (i + 1) pre st') := by
        intros; simp [count, Visit.count]
      rw [hc] at hm ⊢
      obtain ⟨c'', hc'', heq⟩ := ih (i + 1) mlc out errs st' hp.2 hf' hm
      refine ⟨c'', hc'', ?_⟩
      rw [heq]
      simp [outputs, errors, Visit.outputs, Visit.errors]
    | .error (.internal e) => exact absurd hp.1 (by simp [Visit.Plain])
    | .error .useDefault => exact absurd hp.1 (by simp [Visit.Plain])

theorem vecLoop_full (v : Validator α α) (mode : PartialMode) :
    ∀ (xs : List α) i mlc out errs st,
    (∀ x ∈ visits v mode i xs st, x.Plain) →
    FitsMax mlc.maxLength (mlc.current + count (visits v mode i xs st)) →
    (vecLoop v mode false (enumerateLastPartial mode i (xs.map .ok)) mlc out errs st).result
      = if (errs ++ errors (visits v mode i xs st)).isEmpty
        then .ok (out ++ outputs (visits v mode i xs st))
        else .error (.lineErrors (errs ++ errors (visits v mode i xs st))) := by
  intro xs
  induction xs with
  | nil => intro i mlc out errs st _ _; simp [enumerateLastPartial, vecLoop, visits, errors, outputs]
  | cons a rest ih =>
    intro i mlc out errs st hp hm
    rw [List.map_cons, enumerate_cons, map_isEmpty]
    rw [visits_cons] at hp hm ⊢
    unfold vecLoop
    dsimp only
    generalize (mode.isActive && rest.isEmpty) = last at hp hm ⊢
    generalize v a (setPartial mode last st) = r at hp hm ⊢
    obtain ⟨res, st'⟩ := r
    dsimp only at hp hm ⊢
    rw [List.forall_mem_cons] at hp
    match res with
    | .ok w =>
      dsimp only
      have hm' : FitsMax mlc.maxLength (mlc.current + (1 + count (visits v mode (i + 1) rest st'))) := by
        simpa [count, Visit.count] using hm
      obtain ⟨c', hi, ha⟩ := incr_of_fits (fitsMax_mono hm' (by omega))
      rw [hi]
      dsimp only
      rw [ih _ _ _ _ _ hp.2 (ha.fits.2 hm')]
      simp [outputs, errors, Visit.outputs, Visit.errors]
    | .error (.lineErrors ls) =>
      dsimp only
      have hm' : FitsMax mlc.maxLength (mlc.current + (1 + count (visits v mode (i + 1) rest st'))) := by
        simpa [count, Visit.count] using hm
      obtain ⟨c', hi, ha⟩ := incr_of_fits (fitsMax_mono hm' (by omega))
      rw [hi]
      dsimp only
      cases last with
      | true =>
        simp only [if_true]
        rw [ih _ _ _ _ _ hp.2 (ha.fits.2 hm')]
        simp [outputs, errors, Visit.outputs, Visit.errors]
      | false =>
        simp only [Bool.false_eq_true, if_false]
        rw [ih _ _ _ _ _ hp.2 (ha.fits.2 hm')]
        simp [outputs, errors, Visit.outputs, Visit.errors]
    | .error .omitted =>
      dsimp only
      have hm' : FitsMax mlc.maxLength (mlc.current + (count (visits v mode (i + 1) rest st'))) := by
        simpa [count, Visit.count] using hm
      rw [ih _ _ _ _ _ hp.2 hm']
      simp [outputs, errors, Visit.outputs, Visit.errors]
    | .error (.internal e) => exact absurd hp.1 (by simp [Visit.Plain])
    | .error .useDefault => exact absurd hp.1 (by simp [Visit.Plain])

theorem vecLoop_too_long (v : Validator α α) (mode : PartialMode) :
    ∀ (xs : List α) i mlc out errs st,
    (∀ x ∈ visits v mode i xs st, x.Plain) →
    FitsMax mlc.maxLength mlc.current →
    ¬ FitsMax mlc.maxLength (mlc.current + count (visits v mode i xs st)) →
    ∃ m, mlc.maxLength = some m ∧
    (vecLoop v mode false (enumerateLastPartial mode i (xs.map .ok)) mlc out errs st).result
      = .error (.new (.tooLong mlc.fieldType m mlc.actualLength) mlc.input) := by
  intro xs
  induction xs with
  | nil =>
    intro i mlc out errs st _ hc hm
    exact absurd hc (by simpa [visits, count] using hm)
  | cons a rest ih =>
    intro i mlc out errs st hp hcur hm
    rw [List.map_cons, enumerate_cons, map_isEmpty]
    rw [visits_cons] at hp hm
    unfold vecLoop
    dsimp only
    generalize (mode.isActive && rest.isEmpty) = last at hp hm ⊢
    generalize v a (setPartial mode last st) = r at hp hm ⊢
    obtain ⟨res, st'⟩ := r
    dsimp only at hp hm ⊢
    rw [List.forall_mem_cons] at hp
    match res with
    | .ok w =>
      dsimp only
      have hm' : ¬ FitsMax mlc.maxLength (mlc.current + (1 + count (visits v mode (i + 1) rest st'))) := by
        simpa [count, Visit.count] using hm
      by_cases h1 : FitsMax mlc.maxLength (mlc.current + 1)
      · obtain ⟨c', hi, ha⟩ := incr_of_fits h1
        rw [hi]
        dsimp only
        obtain ⟨m, e1, e2⟩ := ih (i + 1) c' (out ++ [w]) errs st' hp.2
          (by simpa using (ha.fits (k := 0)).2 (by simpa using h1)) (fun h => hm' (ha.fits.1 h))
        rw [e2]
        rw [ha.1] at e1
        exact ⟨m, e1, by rw [ha.2.1, ha.2.2.1, ha.2.2.2.1]⟩
      · obtain ⟨m, e1, e2⟩ := incr_of_not_fits h1
        rw [e2]
        exact ⟨m, e1, rfl⟩
    | .error (.lineErrors ls) =>
      dsimp only
      have hm' : ¬ FitsMax mlc.maxLength (mlc.current + (1 + count (visits v mode (i + 1) rest st'))) := by
        simpa [count, Visit.count] using hm
      by_cases h1 : FitsMax mlc.maxLength (mlc.current + 1)
      · obtain ⟨c', hi, ha⟩ := incr_of_fits h1
        rw [hi]
        dsimp only
        have key : ∀ es, ∃ m, mlc.maxLength = some m ∧
            (vecLoop v mode false (enumerateLastPartial mode (i + 1) (rest.map .ok)) c' out es st').result
              = .error (.new (.tooLong mlc.fieldType m mlc.actualLength) mlc.input) := by
          intro es
          obtain ⟨m, e1, e2⟩ := ih (i + 1) c' out es st' hp.2
            (by simpa using (ha.fits (k := 0)).2 (by simpa using h1)) (fun h => hm' (ha.fits.1 h))
          rw [e2]
          rw [ha.1] at e1
          exact ⟨m, e1, by rw [ha.2.1, ha.2.2.1, ha.2.2.2.1]⟩
        cases last with
        | true => simp only [if_true]; exact key _
        | false => simp only [Bool.false_eq_true, if_false]; exact key _
      · obtain ⟨m, e1, e2⟩ := incr_of_not_fits h1
        rw [e2]
        exact ⟨m, e1, rfl⟩
    | .error .omitted =>
      dsimp only
      exact ih _ _ _ _ _ hp.2 hcur (by simpa [count, Visit.count] using hm)
    | .error (.internal e) => exact absurd hp.1 (by simp [Visit.Plain])
    | .error .useDefault => exact absurd hp.1 (by simp [Visit.Plain])

theorem vecLoop_iteration_error (v : Validator α α) (mode : PartialMode) (ff : Bool) :
    ∀ (items : List (Except PyErr α)) i mlc out errs st o, (∃ e, .error e ∈ items) →
    (vecLoop v mode ff (enumerateLastPartial mode i items) mlc out errs st).result ≠ .ok o := by
  intro items
  induction items with
  | nil => intro _ _ _ _ _ _ h; simp at h
  | cons x rest ih =>
    intro i mlc out errs st o h
    rw [enumerate_cons]
    cases x with
    | error e => simp [vecLoop]
    | ok a =>
      have h' : ∃ e, .error e ∈ rest := by simpa using h
      unfold vecLoop
      dsimp only
      split
      · split
        · simp
        · exact ih _ _ _ _ _ _ h'
      · split
        · simp
        · split
          · exact ih _ _ _ _ _ _ h'
          · split
            · simp
            · exact ih _ _ _ _ _ _ h'
      · exact ih _ _ _ _ _ _ h'
      · simp

theorem all_ok_or_error (items : List (Except PyErr α)) :
    (∃ xs : List α, items = xs.map .ok) ∨ ∃ e, .error e ∈ items := by
  induction items with
  | nil => exact .inl ⟨[], rfl⟩
  | cons x rest ih =>
    cases x with
    | error e => exact .inr ⟨e, List.mem_cons_self ..⟩
    | ok a =>
      rcases ih with ⟨xs, h⟩ | ⟨e, h⟩
      · exact .inl ⟨a :: xs, by rw [h]; rfl⟩
      · exact .inr ⟨e, List.mem_cons_of_mem _ h⟩

theorem lookAhead_next (iter : List α) (i : Nat) (mode : PartialMode) (a : α) :
    (LookAhead.mk iter i (some a) mode).next
      = (some (i, mode.isActive && iter.isEmpty, a), ⟨iter.tail, i + 1, iter.head?, mode⟩) := by
  cases iter <;> simp [LookAhead.next]

theorem vecLoop_unvisited (v : Validator α α) (hv : ∀ a st, (v a st).1 ≠ .error .omitted)
    (saved : PartialMode) (ff : Bool) (m : Nat) :
    ∀ (items : List (Nat × Bool × Except PyErr α)) (mlc : MaxLengthCheck α) out errs st,
    mlc.maxLength = some m → mlc.current ≤ m →
    ∃ k, k ≤ m + 1 - mlc.current ∧
      (vecLoop v saved ff items mlc out errs st).unvisited = items.drop k := by
  intro items
  induction items with
  | nil => intro mlc out errs st _ _; exact ⟨0, by omega, rfl⟩
  | cons x rest ih =>
    obtain ⟨i, last, r⟩ := x
    intro mlc out errs st hm hc
    cases r with
    | error e => exact ⟨1, by omega, rfl⟩
    | ok a =>
      rw [vecLoop_ok]
      have hne := hv a (setPartial saved last st)
      generalize v a (setPartial saved last st) = r at hne ⊢
      obtain ⟨res, st'⟩ := r
      dsimp only at hne ⊢
      have key : ∀ c' out' errs', mlc.incr = .ok c' → ∃ k, k ≤ m + 1 - mlc.current ∧
          (vecLoop v saved ff rest c' out' errs' st').unvisited
            = ((i, last, Except.ok a) :: rest).drop k := by
        intro c' out' errs' hi
        obtain ⟨h1, -, -, -, h5, h6⟩ := incr_ok hi
        have h6 := h6 (by rw [hm]; simp)
        have h5 := h5 m hm
        obtain ⟨k, hk, he⟩ := ih c' out' errs' st' (h1.trans hm) (by omega)
        exact ⟨k + 1, by omega, by rw [he]; rfl⟩
      have stop : ∃ k, k ≤ m + 1 - mlc.current ∧ rest = ((i, last, Except.ok a) :: rest).drop k :=
        ⟨1, by omega, rfl⟩
      match res, hne with
      | .ok w, _ =>
        dsimp only
        cases hi : mlc.incr with
        | error e => exact stop
        | ok c' => exact key _ _ _ hi
      | .error (.lineErrors ls), _ =>
        dsimp only
        cases hi : mlc.incr with
        | error e => exact stop
        | ok c' =>
          dsimp only
          cases last with
          | true => exact key _ _ _ hi
          | false =>
            cases ff with
            | true => exact stop
            | false => exact key _ _ _ hi
      | .error .omitted, h => exact absurd rfl h
      | .error (.internal e), _ => exact stop
      | .error .useDefault, _ => exact stop

theorem minLengthCheck_eq (input : α) (ft : String) (min : Option Nat) (n : Nat) :
    (FitsMin min n ∧ minLengthCheck input ft min n = .ok ()) ∨
    (∃ m, min = some m ∧ n < m ∧ minLengthCheck input ft min n = .error (.new (.tooShort ft m n) input)) := by
  unfold minLengthCheck FitsMin
  cases min with
  | none => left; exact ⟨by simp, rfl⟩
  | some m =>
    by_cases h : n < m
    · right; exact ⟨m, rfl, h, by simp [Option.filter, h]⟩
    · left; refine ⟨?_, by simp [Option.filter, h]⟩
      intro m' hm; cases hm; omega

theorem lengthCheck_eq (input : α) (ft : String) (min max : Option Nat) (n : Nat) :
    (FitsMin min n ∧ FitsMax max n ∧ lengthCheck input ft min max n = .ok ()) ∨
    (∃ m, min = some m ∧ n < m ∧
      lengthCheck input ft min max n = .error (.new (.tooShort ft m n) input)) ∨
    (FitsMin min n ∧ ∃ m, max = some m ∧ m < n ∧
      lengthCheck input ft min max n = .error (.new (.tooLong ft m (some n)) input)) := by
  have hmin : FitsMin min n ∧ min.filter (n < ·) = none ∨ ∃ m, min = some m ∧ n < m ∧ min.filter (n < ·) = some m := by
    cases min with
    | none => left; exact ⟨by simp [FitsMin], rfl⟩
    | some m =>
      by_cases h : n < m
      · right; exact ⟨m, rfl, h, by simp [Option.filter, h]⟩
      · left; refine ⟨?_, by simp [Option.filter, h]⟩
        intro m' hm; cases hm; omega
  have hmax : FitsMax max n ∧ max.filter (· < n) = none ∨ ∃ m, max = some m ∧ m < n ∧ max.filter (· < n) = some m := by
    cases max with
    | none => left; exact ⟨by simp [FitsMax], rfl⟩
    | some m =>
      by_cases h : m < n
      · right; exact ⟨m, rfl, h, by simp [Option.filter, h]⟩
      · left; refine ⟨?_, by simp [Option.filter, h]⟩
        intro m' hm; cases hm; omega
  unfold lengthCheck
  rcases hmin with ⟨h1, e1⟩ | ⟨m, h1, h2, e1⟩
  · rw [e1]
    rcases hmax with ⟨h3, e3⟩ | ⟨m, h3, h4, e3⟩
    · rw [e3]; exact .inl ⟨h1, h3, rfl⟩
    · rw [e3]; exact .inr (.inr ⟨h1, m, h3, h4, rfl⟩)
  · rw [e1]; exact .inr (.inl ⟨m, h1, h2, rfl⟩)

theorem visits_snoc (v : Validator α α) (mode : PartialMode) (hm : mode.isActive = true) (a : α) :
    ∀ (init : List α) i st, visits v mode i (init ++ [a]) st
      = visits v .off i init st ++
        [⟨i + init.length, true, a, (v a { after v init st with allowPartial := mode }).1⟩] := by
  intro init
  induction init with
  | nil => intro i st; simp [visits, after, hm]
  | cons b rest ih =>
    intro i st
    rw [List.cons_append, visits_cons, visits_cons]
    have he : (rest ++ [a]).isEmpty = false := by cases rest <;> rfl
    rw [he, Bool.and_false]
    have hoff : (PartialMode.off.isActive && rest.isEmpty) = false := rfl
    rw [hoff, ih]
    have hlen : i + 1 + rest.length = i + (b :: rest).length := by simp; omega
    rw [hlen]
    rfl

theorem visits_snoc_off (v : Validator α α) (a : α) :
    ∀ (init : List α) i st, visits v .off i (init ++ [a]) st
      = visits v .off i init st ++
        [⟨i + init.length, false, a, (v a { after v init st with allowPartial := .off }).1⟩] := by
  intro init
  induction init with
  | nil => intro i st; simp [visits, after, PartialMode.isActive]
  | cons b rest ih =>
    intro i st
    rw [List.cons_append, visits_cons, visits_cons]
    have h1 : (PartialMode.off.isActive && (rest ++ [a]).isEmpty) = false := rfl
    have hoff : (PartialMode.off.isActive && rest.isEmpty) = false := rfl
    rw [h1, hoff, ih]
    have hlen : i + 1 + rest.length = i + (b :: rest).length := by simp; omega
    rw [hlen]
    rfl

theorem vecLoop_not_omitted (v : Validator α α) (mode : PartialMode) (ff : Bool) :
    ∀ (items : List (Nat × Bool × Except PyErr α)) mlc out errs st,
    (vecLoop v mode ff items mlc out errs st).result ≠ .error .omitted := by
  intro items
  induction items with
  | nil => intro mlc out errs st; simp only [vecLoop]; split <;> simp
  | cons x rest ih =>
    obtain ⟨i, last, r⟩ := x
    intro mlc out errs st
    cases r with
    | error e => simp [vecLoop, anyNextError, ValError.newWithLoc]
    | ok a =>
      rw [vecLoop_ok]
      split
      · split
        · rename_i h; obtain ⟨m, -, -, he⟩ := incr_error h; rw [he]; simp [ValError.new]
        · exact ih _ _ _ _
      · split
        · rename_i h; obtain ⟨m, -, -, he⟩ := incr_error h; rw [he]; simp [ValError.new]
        · split
          · exact ih _ _ _ _
          · split
            · simp
            · exact ih _ _ _ _
      · exact ih _ _ _ _
      · rename_i hne _ ; simpa using hne

theorem outputs_append (a b : List (Visit α)) : outputs (a ++ b) = outputs a ++ outputs b := by
  simp [outputs]

theorem count_append (a b : List (Visit α)) : count (a ++ b) = count a + count b := by
  simp [count]

end PC.Coll
