import Verif.Lemmas.Collections

namespace PC.Coll
variable {α : Type}

theorem distinctFrom_length (h : Hashing α) (xs : List α) :
    ∀ s, s.length ≤ (distinctFrom h s xs).length := by
  induction xs with
  | nil => intro s; exact Nat.le_refl _
  | cons x xs ih =>
    intro s
    unfold distinctFrom
    refine Nat.le_trans ?_ (ih _)
    split <;> simp

theorem max_filter (max : Option Nat) (n : Nat) :
    (FitsMax max n ∧ max.filter (· < n) = none) ∨
    ∃ m, max = some m ∧ m < n ∧ max.filter (· < n) = some m := by
  cases max with
  | none => left; exact ⟨by simp [FitsMax], rfl⟩
  | some m =>
    by_cases h : m < n
    · right; exact ⟨m, rfl, h, by simp [Option.filter, h]⟩
    · left; refine ⟨?_, by simp [Option.filter, h]⟩
      intro m' hm; cases hm; omega

theorem setLoop_ok (h : Hashing α) (v : Validator α α) (input : α) (ft : String) (max : Option Nat)
    (mode : PartialMode) (ff : Bool) (i : Nat) (last : Bool) (a : α)
    (rest : List (Nat × Bool × Except PyErr α)) (set : List α) (errs : List (LineError α))
    (st : VState α) :
    setLoop h v input ft max mode ff ((i, last, .ok a) :: rest) set errs st =
      let x : Visit α := hashed h ⟨i, last, a, (v a (setPartial mode last st)).1⟩
      let st' := (v a (setPartial mode last st)).2
      match x.result with
      | .ok w =>
        let set' := if set.any (h.same · w) then set else set ++ [w]
        match max.filter (· < set'.length) with
        | some m => ⟨.error (.new (.tooLong ft m none) input), st', rest⟩
        | none =>
          if ff && !errs.isEmpty then ⟨.error (.lineErrors errs), st', rest⟩
          else setLoop h v input ft max mode ff rest set' errs st'
      | .error (.lineErrors _) =>
        if ff && !(errs ++ x.errors).isEmpty then ⟨.error (.lineErrors (errs ++ x.errors)), st', rest⟩
        else setLoop h v input ft max mode ff rest set (errs ++ x.errors) st'
      | .error .omitted =>
        if ff && !errs.isEmpty then ⟨.error (.lineErrors errs), st', rest⟩
        else setLoop h v input ft max mode ff rest set errs st'
      | .error e => ⟨.error e, st', rest⟩ := by
  conv => lhs; unfold setLoop
  dsimp only
  unfold validateAdd
  generalize v a (setPartial mode last st) = r
  obtain ⟨res, st'⟩ := r
  dsimp only
  match res with
  | .error (.lineErrors ls) =>
    simp only [hashed, Visit.errors]
    cases last <;> simp
  | .error .omitted => simp only [hashed]
  | .error (.internal e) => simp only [hashed]
  | .error .useDefault => simp only [hashed]
  | .ok w =>
    have hcases : h.hashErr w = none ∨ (∃ e, h.hashErr w = some (true, e)) ∨
        ∃ e, h.hashErr w = some (false, e) := by
      cases h.hashErr w with
      | none => exact .inl rfl
      | some p => obtain ⟨b, e⟩ := p; cases b <;> simp
    rcases hcases with hh | ⟨e, hh⟩ | ⟨e, hh⟩
    · simp only [hashed, Hashing.add, hh]
      rcases max_filter max (if set.any (h.same · w) then set else set ++ [w]).length with
        ⟨-, he⟩ | ⟨m, -, -, he⟩ <;> rw [he]
    · simp only [hashed, Hashing.add, hh, if_true, ValError.new, LineError.new, Visit.errors]
      cases last <;> simp
    · simp [hashed, Hashing.add, hh]

theorem setLoop_errs (h : Hashing α) (v : Validator α α) (input : α) (ft : String) (max : Option Nat)
    (mode : PartialMode) (ff : Bool) :
    ∀ (items : List (Nat × Bool × Except PyErr α)) set errs st o, errs ≠ [] →
    (setLoop h v input ft max mode ff items set errs st).result ≠ .ok o := by
  intro items
  induction items with
  | nil =>
    intro set errs st o hh
    cases errs with
    | nil => exact absurd rfl hh
    | cons => simp [setLoop]
  | cons x rest ih =>
    obtain ⟨i, last, r⟩ := x
    intro set errs st o hh
    cases r with
    | error e => simp [setLoop]
    | ok a =>
      rw [setLoop_ok]
      dsimp only
      split
      · split
        · simp
        · split
          · simp
          · exact ih _ _ _ _ hh
      · split
        · simp
        · exact ih _ _ _ _ (by simp [hh])
      · split
        · simp
        · exact ih _ _ _ _ hh
      · simp

theorem hashed_index (h : Hashing α) (x : Visit α) :
    (hashed h x).index = x.index ∧ (hashed h x).last = x.last ∧ (hashed h x).item = x.item := by
  unfold hashed
  split
  · exact ⟨rfl, rfl, rfl⟩
  · split <;> exact ⟨rfl, rfl, rfl⟩

theorem setLoop_accept (h : Hashing α) (v : Validator α α) (hv : RejectsWithErrors v) (input : α)
    (ft : String) (max : Option Nat) (mode : PartialMode) (ff : Bool) :
    ∀ (xs : List α) i set st o, FitsMax max set.length →
    ((setLoop h v input ft max mode ff (enumerateLastPartial mode i (xs.map .ok)) set [] st).result
        = .ok o ↔
      (∀ x ∈ (visits v mode i xs st).map (hashed h), x.Plain ∧ ¬ x.Fails) ∧
      o = distinctFrom h set (outputs ((visits v mode i xs st).map (hashed h))) ∧
      FitsMax max o.length) := by
  intro xs
  induction xs with
  | nil =>
    intro i set st o hc
    simp only [List.map_nil, enumerateLastPartial, setLoop, visits, outputs]
    simp only [List.isEmpty_nil, if_true, Except.ok.injEq, List.flatMap_nil, distinctFrom]
    constructor
    · rintro rfl; exact ⟨by simp, rfl, hc⟩
    · rintro ⟨-, rfl, -⟩; rfl
  | cons a rest ih =>
    intro i set st o hc
    rw [List.map_cons, enumerate_cons, visits_cons, map_isEmpty, setLoop_ok]
    dsimp only
    generalize (mode.isActive && rest.isEmpty) = last
    have hne := hv a (setPartial mode last st)
    generalize v a (setPartial mode last st) = r at hne ⊢
    obtain ⟨res, st'⟩ := r
    dsimp only at hne ⊢
    rw [List.map_cons, List.forall_mem_cons]
    have hidx := hashed_index h ⟨i, last, a, res⟩
    have hne' : (hashed h ⟨i, last, a, res⟩).result ≠ .error (.lineErrors []) := by
      unfold hashed
      dsimp only
      split
      · exact hne
      · split <;> simp
    have hx : outputs (hashed h ⟨i, last, a, res⟩ :: (visits v mode (i + 1) rest st').map (hashed h))
        = (hashed h ⟨i, last, a, res⟩).outputs ++ outputs ((visits v mode (i + 1) rest st').map (hashed h)) := by
      simp [outputs]
    rw [hx]
    generalize hashed h ⟨i, last, a, res⟩ = x at hidx hne' ⊢
    obtain ⟨xi, xl, xa, xr⟩ := x
    dsimp only at hidx hne' ⊢
    obtain ⟨rfl, rfl, rfl⟩ := hidx
    match xr, hne' with
    | .ok w, _ =>
      dsimp only
      simp only [Visit.Plain, Visit.Fails, Visit.outputs]
      rcases max_filter max (if set.any (h.same · w) then set else set ++ [w]).length with
        ⟨hf, he⟩ | ⟨m, hm, hlt, he⟩
      · rw [he]
        dsimp only
        simp only [List.isEmpty_nil, Bool.not_true, Bool.and_false, Bool.false_eq_true, if_false]
        rw [ih _ _ _ _ hf]
        simp only [List.cons_append, List.nil_append, distinctFrom]
        constructor
        · rintro ⟨h1, h2, h3⟩
          exact ⟨⟨⟨trivial, by rintro ⟨ls, h, -⟩; cases h⟩, h1⟩, h2, h3⟩
        · rintro ⟨⟨-, h1⟩, h2, h3⟩
          exact ⟨h1, h2, h3⟩
      · rw [he]
        dsimp only
        constructor
        · intro h; cases h
        · rintro ⟨-, h2, h3⟩
          have h4 := h3 m hm
          have := distinctFrom_length h (outputs ((visits v mode (xi + 1) rest st').map (hashed h)))
            (if set.any (h.same · w) then set else set ++ [w])
          rw [h2] at h4
          simp only [List.cons_append, List.nil_append, distinctFrom] at h4
          omega
    | .error (.lineErrors ls), hne =>
      dsimp only
      have hls : ls ≠ [] := fun e => hne (by rw [e])
      cases xl with
      | true =>
        have he : Visit.errors (⟨xi, true, xa, .error (.lineErrors ls)⟩ : Visit α) = [] := by
          simp [Visit.errors]
        rw [he]
        simp only [List.append_nil, List.isEmpty_nil, Bool.not_true, Bool.and_false,
          Bool.false_eq_true, if_false]
        rw [ih _ _ _ _ hc]
        simp [Visit.Plain, Visit.Fails, Visit.outputs]
      | false =>
        have he : Visit.errors (⟨xi, false, xa, .error (.lineErrors ls)⟩ : Visit α)
            = ls.map (·.withOuterLocation (.i xi)) := by
          simp [Visit.errors]
        rw [he]
        constructor
        · intro hh
          exfalso
          split at hh
          · cases hh
          · exact setLoop_errs _ _ _ _ _ _ _ _ _ _ _ _ (by simpa using hls) hh
        · rintro ⟨⟨⟨-, h1⟩, -⟩, -⟩
          exact absurd ⟨ls, rfl, rfl⟩ h1
    | .error .omitted, _ =>
      dsimp only
      simp only [List.isEmpty_nil, Bool.not_true, Bool.and_false, Bool.false_eq_true, if_false]
      rw [ih _ _ _ _ hc]
      simp [Visit.Plain, Visit.Fails, Visit.outputs]
    | .error (.internal e), _ => simp [Visit.Plain]
    | .error .useDefault, _ => simp [Visit.Plain]

theorem setLoop_full (h : Hashing α) (v : Validator α α) (input : α)
    (ft : String) (max : Option Nat) (mode : PartialMode) :
    ∀ (xs : List α) i set errs st,
    (∀ x ∈ (visits v mode i xs st).map (hashed h), x.Plain) →
    FitsMax max (distinctFrom h set (outputs ((visits v mode i xs st).map (hashed h)))).length →
    (setLoop h v input ft max mode false (enumerateLastPartial mode i (xs.map .ok)) set errs st).result
      = if (errs ++ errors ((visits v mode i xs st).map (hashed h))).isEmpty
        then .ok (distinctFrom h set (outputs ((visits v mode i xs st).map (hashed h))))
        else .error (.lineErrors (errs ++ errors ((visits v mode i xs st).map (hashed h)))) := by
  intro xs
  induction xs with
  | nil => intro i set errs st _ _; simp [enumerateLastPartial, setLoop, visits, errors, outputs, distinctFrom]
  | cons a rest ih =>
    intro i set errs st hp hm
    rw [List.map_cons, enumerate_cons, map_isEmpty, setLoop_ok]
    rw [visits_cons] at hp hm ⊢
    dsimp only
    generalize (mode.isActive && rest.isEmpty) = last at hp hm ⊢
    generalize v a (setPartial mode last st) = r at hp hm ⊢
    obtain ⟨res, st'⟩ := r
    dsimp only at hp hm ⊢
    rw [List.map_cons] at hp hm ⊢
    rw [List.forall_mem_cons] at hp
    have hx : ∀ x : Visit α, outputs (x :: (visits v mode (i + 1) rest st').map (hashed h))
        = x.outputs ++ outputs ((visits v mode (i + 1) rest st').map (hashed h)) := by
      intro x; simp [outputs]
    have hxe : ∀ x : Visit α, errors (x :: (visits v mode (i + 1) rest st').map (hashed h))
        = x.errors ++ errors ((visits v mode (i + 1) rest st').map (hashed h)) := by
      intro x; simp [errors]
    rw [hx] at hm ⊢
    rw [hxe]
    generalize hashed h ⟨i, last, a, res⟩ = x at hp hm ⊢
    obtain ⟨xi, xl, xa, xr⟩ := x
    dsimp only at hp hm ⊢
    match xr with
    | .ok w =>
      simp only [Visit.outputs, Visit.errors, List.nil_append, List.cons_append, distinctFrom] at hm ⊢
      have hlen := distinctFrom_length h (outputs ((visits v mode (i + 1) rest st').map (hashed h)))
            (if set.any (h.same · w) then set else set ++ [w])
      rcases max_filter max (if set.any (h.same · w) then set else set ++ [w]).length with
        ⟨hf, he⟩ | ⟨m, hm', hlt, he⟩
      · rw [he]
        simp only [Bool.false_and, Bool.false_eq_true, if_false]
        rw [ih _ _ _ _ hp.2 hm]
      · have := hm m hm'; omega
    | .error (.lineErrors ls) =>
      simp only [Visit.outputs, List.nil_append] at hm ⊢
      simp only [Bool.false_and, Bool.false_eq_true, if_false]
      rw [ih _ _ _ _ hp.2 hm, List.append_assoc]
    | .error .omitted =>
      simp only [Visit.outputs, Visit.errors, List.nil_append] at hm ⊢
      simp only [Bool.false_and, Bool.false_eq_true, if_false]
      rw [ih _ _ _ _ hp.2 hm]
      rfl
    | .error (.internal e) => exact absurd hp.1 (by simp [Visit.Plain])
    | .error .useDefault => exact absurd hp.1 (by simp [Visit.Plain])

theorem setLoop_too_long (h : Hashing α) (v : Validator α α) (input : α)
    (ft : String) (m : Nat) (mode : PartialMode) :
    ∀ (xs : List α) i set errs st,
    (∀ x ∈ (visits v mode i xs st).map (hashed h), x.Plain) → set.length ≤ m →
    m < (distinctFrom h set (outputs ((visits v mode i xs st).map (hashed h)))).length →
    (setLoop h v input ft (some m) mode false (enumerateLastPartial mode i (xs.map .ok)) set errs st).result
      = .error (.new (.tooLong ft m none) input) := by
  intro xs
  induction xs with
  | nil =>
    intro i set errs st _ h1 h2
    simp [visits, outputs, distinctFrom] at h2
    omega
  | cons a rest ih =>
    intro i set errs st hp hset hm
    rw [List.map_cons, enumerate_cons, map_isEmpty, setLoop_ok]
    rw [visits_cons] at hp hm
    dsimp only
    generalize (mode.isActive && rest.isEmpty) = last at hp hm ⊢
    generalize v a (setPartial mode last st) = r at hp hm ⊢
    obtain ⟨res, st'⟩ := r
    dsimp only at hp hm ⊢
    rw [List.map_cons] at hp hm
    rw [List.forall_mem_cons] at hp
    have hx : ∀ x : Visit α, outputs (x :: (visits v mode (i + 1) rest st').map (hashed h))
        = x.outputs ++ outputs ((visits v mode (i + 1) rest st').map (hashed h)) := by
      intro x; simp [outputs]
    rw [hx] at hm
    generalize hashed h ⟨i, last, a, res⟩ = x at hp hm ⊢
    obtain ⟨xi, xl, xa, xr⟩ := x
    dsimp only at hp hm ⊢
    match xr with
    | .ok w =>
      simp only [Visit.outputs, List.nil_append, List.cons_append, distinctFrom] at hm ⊢
      rcases max_filter (some m) (if set.any (h.same · w) then set else set ++ [w]).length with
        ⟨hf, he⟩ | ⟨m', hm', hlt, he⟩
      · rw [he]
        simp only [Bool.false_and, Bool.false_eq_true, if_false]
        exact ih _ _ _ _ hp.2 (hf m rfl) hm
      · rw [he]
        cases hm'
        rfl
    | .error (.lineErrors ls) =>
      simp only [Visit.outputs, List.nil_append] at hm ⊢
      simp only [Bool.false_and, Bool.false_eq_true, if_false]
      exact ih _ _ _ _ hp.2 hset hm
    | .error .omitted =>
      simp only [Visit.outputs, List.nil_append] at hm ⊢
      simp only [Bool.false_and, Bool.false_eq_true, if_false]
      exact ih _ _ _ _ hp.2 hset hm
    | .error (.internal e) => exact absurd hp.1 (by simp [Visit.Plain])
    | .error .useDefault => exact absurd hp.1 (by simp [Visit.Plain])

theorem setLoop_iteration_error (h : Hashing α) (v : Validator α α) (input : α) (ft : String)
    (max : Option Nat) (mode : PartialMode) (ff : Bool) :
    ∀ (items : List (Except PyErr α)) i set errs st o, (∃ e, .error e ∈ items) →
    (setLoop h v input ft max mode ff (enumerateLastPartial mode i items) set errs st).result ≠ .ok o := by
  intro items
  induction items with
  | nil => intro _ _ _ _ _ h; simp at h
  | cons x rest ih =>
    intro i set errs st o hh
    rw [enumerate_cons]
    cases x with
    | error e => simp [setLoop]
    | ok a =>
      have h' : ∃ e, .error e ∈ rest := by simpa using hh
      rw [setLoop_ok]
      dsimp only
      split
      · split
        · simp
        · split
          · simp
          · exact ih _ _ _ _ _ h'
      · split
        · simp
        · exact ih _ _ _ _ _ h'
      · split
        · simp
        · exact ih _ _ _ _ _ h'
      · simp

theorem map_ok_inj {xs ys : List α} (h : xs.map (Except.ok (ε := PyErr)) = ys.map .ok) : ys = xs := by
  have := congrArg (List.map (fun x => Except.toOption x)) h
  simp only [List.map_map] at this
  have hinj : Function.Injective (fun x : α => Except.toOption (Except.ok (ε := PyErr) x)) := by
    intro a b hab; simpa [Except.toOption] using hab
  exact ((List.map_inj_right (fun a b hab => hinj hab)).1 this).symm

/-! ### Dicts -/

theorem dictLoop_full (d : DictV α) (input : α) (mode : PartialMode) :
    ∀ (es : List (α × α)) i out errs st,
    (∀ x ∈ entryVisits d.key d.value mode es st, x.Plain d.hashing) →
    (dictLoop d input mode (enumerateLastPartial mode i (es.map .ok)) out errs st).1
      = let vs := entryVisits d.key d.value mode es st
        let out' := (vs.flatMap EntryVisit.pairs).foldl (fun o p => setItem d.hashing o p.1 p.2) out
        if (errs ++ vs.flatMap (EntryVisit.errors d.keyLoc)).isEmpty then
          match lengthCheck input "Dictionary" d.minLength d.maxLength out'.length with
          | .error e => .error e
          | .ok () => .ok (d.build out')
        else .error (.lineErrors (errs ++ vs.flatMap (EntryVisit.errors d.keyLoc))) := by
  intro es
  induction es with
  | nil =>
    intro i out errs st _
    simp only [List.map_nil, enumerateLastPartial, dictLoop, entryVisits, List.flatMap_nil,
      List.foldl_nil, List.append_nil]
    split
    · cases lengthCheck input "Dictionary" d.minLength d.maxLength out.length <;> rfl
    · rfl
  | cons e rest ih =>
    obtain ⟨k, x⟩ := e
    intro i out errs st hp
    rw [List.map_cons, enumerate_cons, map_isEmpty]
    unfold dictLoop
    unfold entryVisits at hp ⊢
    dsimp only at hp ⊢
    unfold setPartial
    generalize (mode.isActive && rest.isEmpty) = last at hp ⊢
    generalize d.key k { st with allowPartial := .off } = rk at hp ⊢
    obtain ⟨rk, stk⟩ := rk
    dsimp only at hp ⊢
    generalize d.value x { stk with allowPartial := if last then mode else .off } = rv at hp ⊢
    obtain ⟨rv, stv⟩ := rv
    dsimp only at hp ⊢
    match rk with
    | .ok ok =>
      dsimp only at hp ⊢
      rw [List.forall_mem_cons] at hp
      match rv with
      | .ok w =>
        dsimp only
        have hh : d.hashing.hashErr ok = none := by
          have := hp.1.2.2 (ok, w) (by simp [EntryVisit.pairs])
          exact this
        rw [hh]
        dsimp only
        rw [ih _ _ _ _ hp.2]
        simp [EntryVisit.pairs, EntryVisit.errors, EntryVisit.keyErrors, EntryVisit.valueErrors]
      | .error (.lineErrors ls) =>
        dsimp only
        rw [ih _ _ _ _ hp.2]
        cases last <;>
        simp [EntryVisit.pairs, EntryVisit.errors, EntryVisit.keyErrors, EntryVisit.valueErrors]
      | .error .omitted =>
        dsimp only
        rw [ih _ _ _ _ hp.2]
        simp [EntryVisit.pairs, EntryVisit.errors, EntryVisit.keyErrors, EntryVisit.valueErrors]
      | .error (.internal e) =>
        have := hp.1.2.1 _ rfl
        simp at this
      | .error .useDefault =>
        have := hp.1.2.1 _ rfl
        simp at this
    | .error (.lineErrors kls) =>
      dsimp only at hp ⊢
      rw [List.forall_mem_cons] at hp
      match rv with
      | .ok w =>
        dsimp only
        rw [ih _ _ _ _ hp.2]
        simp [EntryVisit.pairs, EntryVisit.errors, EntryVisit.keyErrors, EntryVisit.valueErrors]
      | .error (.lineErrors ls) =>
        dsimp only
        rw [ih _ _ _ _ hp.2]
        cases last <;>
        simp [EntryVisit.pairs, EntryVisit.errors, EntryVisit.keyErrors, EntryVisit.valueErrors]
      | .error .omitted =>
        dsimp only
        rw [ih _ _ _ _ hp.2]
        simp [EntryVisit.pairs, EntryVisit.errors, EntryVisit.keyErrors, EntryVisit.valueErrors]
      | .error (.internal e) =>
        have := hp.1.2.1 _ rfl
        simp at this
      | .error .useDefault =>
        have := hp.1.2.1 _ rfl
        simp at this
    | .error .omitted =>
      dsimp only at hp ⊢
      rw [List.forall_mem_cons] at hp
      rw [ih _ _ _ _ hp.2]
      simp [EntryVisit.pairs, EntryVisit.errors, EntryVisit.keyErrors, EntryVisit.valueErrors]
    | .error (.internal e) =>
      rw [List.forall_mem_cons] at hp
      have := hp.1.1 _ rfl
      simp at this
    | .error .useDefault =>
      rw [List.forall_mem_cons] at hp
      have := hp.1.1 _ rfl
      simp at this

theorem dictLoop_not_plain (d : DictV α) (input : α) (mode : PartialMode) :
    ∀ (es : List (α × α)) i out errs st o,
    (dictLoop d input mode (enumerateLastPartial mode i (es.map .ok)) out errs st).1 = .ok o →
    ∀ x ∈ entryVisits d.key d.value mode es st, x.Plain d.hashing := by
  intro es
  induction es with
  | nil => intro i out errs st o _ x hx; simp [entryVisits] at hx
  | cons e rest ih =>
    obtain ⟨k, x⟩ := e
    intro i out errs st o hok
    rw [List.map_cons, enumerate_cons, map_isEmpty] at hok
    unfold dictLoop at hok
    unfold entryVisits
    dsimp only at hok ⊢
    unfold setPartial at hok
    generalize (mode.isActive && rest.isEmpty) = last at hok ⊢
    generalize d.key k { st with allowPartial := .off } = rk at hok ⊢
    obtain ⟨rk, stk⟩ := rk
    dsimp only at hok ⊢
    generalize d.value x { stk with allowPartial := if last then mode else .off } = rv at hok ⊢
    obtain ⟨rv, stv⟩ := rv
    dsimp only at hok ⊢
    match rk with
    | .ok ok =>
      dsimp only at hok ⊢
      rw [List.forall_mem_cons]
      match rv with
      | .ok w =>
        dsimp only at hok
        cases hh : d.hashing.hashErr ok with
        | none =>
          rw [hh] at hok
          exact ⟨by simp [EntryVisit.Plain, EntryVisit.pairs, hh], ih _ _ _ _ _ hok⟩
        | some p => rw [hh] at hok; simp at hok
      | .error (.lineErrors ls) =>
        exact ⟨by simp [EntryVisit.Plain, EntryVisit.pairs], ih _ _ _ _ _ hok⟩
      | .error .omitted =>
        exact ⟨by simp [EntryVisit.Plain, EntryVisit.pairs], ih _ _ _ _ _ hok⟩
      | .error (.internal e) => simp at hok
      | .error .useDefault => simp at hok
    | .error (.lineErrors kls) =>
      dsimp only at hok ⊢
      rw [List.forall_mem_cons]
      match rv with
      | .ok w => exact ⟨by simp [EntryVisit.Plain, EntryVisit.pairs], ih _ _ _ _ _ hok⟩
      | .error (.lineErrors ls) =>
        exact ⟨by simp [EntryVisit.Plain, EntryVisit.pairs], ih _ _ _ _ _ hok⟩
      | .error .omitted =>
        exact ⟨by simp [EntryVisit.Plain, EntryVisit.pairs], ih _ _ _ _ _ hok⟩
      | .error (.internal e) => simp at hok
      | .error .useDefault => simp at hok
    | .error .omitted =>
      dsimp only at hok ⊢
      rw [List.forall_mem_cons]
      exact ⟨by simp [EntryVisit.Plain, EntryVisit.pairs], ih _ _ _ _ _ hok⟩
    | .error (.internal e) => simp at hok
    | .error .useDefault => simp at hok

theorem dictLoop_iteration_error (d : DictV α) (input : α) (mode : PartialMode) :
    ∀ (items : List (ValResult α (α × α))) i out errs st o, (∃ e, .error e ∈ items) →
    (dictLoop d input mode (enumerateLastPartial mode i items) out errs st).1 ≠ .ok o := by
  intro items
  induction items with
  | nil => intro _ _ _ _ _ h; simp at h
  | cons x rest ih =>
    intro i out errs st o hh
    rw [enumerate_cons]
    cases x with
    | error e => simp [dictLoop]
    | ok a =>
      obtain ⟨k, x⟩ := a
      have h' : ∃ e, .error e ∈ rest := by simpa using hh
      unfold dictLoop
      dsimp only
      repeat' first
        | exact ih _ _ _ _ _ h'
        | split
        | (intro hbad; cases hbad; done)

theorem all_ok_or_error' {ε : Type} (items : List (Except ε α)) :
    (∃ xs : List α, items = xs.map .ok) ∨ ∃ e, .error e ∈ items := by
  induction items with
  | nil => exact .inl ⟨[], rfl⟩
  | cons x rest ih =>
    cases x with
    | error e => exact .inr ⟨e, List.mem_cons_self ..⟩
    | ok a =>
      rcases ih with ⟨xs, h⟩ | ⟨e, h⟩
      · exact .inl ⟨a :: xs, by rw [h]; rfl⟩
      · exact .inr ⟨e, List.mem_cons_of_mem _ h⟩

theorem map_ok_inj' {ε : Type} {xs ys : List α} (h : xs.map (Except.ok (ε := ε)) = ys.map .ok) :
    ys = xs := by
  have := congrArg (List.map (fun x => Except.toOption x)) h
  simp only [List.map_map] at this
  have hinj : Function.Injective (fun x : α => Except.toOption (Except.ok (ε := ε) x)) := by
    intro a b hab; simpa [Except.toOption] using hab
  exact ((List.map_inj_right (fun a b hab => hinj hab)).1 this).symm

/-! ### Order and lookup in sets and dicts -/

theorem setItem_keys (h : Hashing α) (d : List (α × α)) (k v : α) :
    (setItem h d k v).map (·.1) = if (d.map (·.1)).any (h.same · k) then d.map (·.1) else d.map (·.1) ++ [k] := by
  induction d with
  | nil => rfl
  | cons p rest ih =>
    obtain ⟨k', v'⟩ := p
    unfold setItem
    by_cases hs : h.same k' k = true
    · simp [hs]
    · rw [if_neg hs, List.map_cons, ih]
      simp only [List.map_cons, List.any_cons]
      rw [Bool.not_eq_true] at hs
      rw [hs, Bool.false_or]
      split <;> rfl

theorem foldl_keys (h : Hashing α) (ps : List (α × α)) :
    ∀ d : List (α × α), (ps.foldl (fun o p => setItem h o p.1 p.2) d).map (·.1)
      = distinctFrom h (d.map (·.1)) (ps.map (·.1)) := by
  induction ps with
  | nil => intro d; rfl
  | cons p ps ih =>
    intro d
    rw [List.foldl_cons, ih, setItem_keys]
    rfl

end PC.Coll
