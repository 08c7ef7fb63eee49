import Verif.Spec.WarnMode

/-! C121: what the option `warnings` decides. -/

namespace PC.WarnMode
variable {V : Type}

theorem checked_none (filter : Text → Bool) (r : Except Exc V) (ws : List Text) : checked filter .none r ws = (r, []) := by
  cases r <;> rfl

mutual

theorem run_none (filter : Text → Bool) : ∀ (p : Prog V) (ws : List Text),
    run filter .none p ws = (value p, ws, [])
  | .ret r, ws => rfl
  | .register w k, ws => by
    unfold run value
    exact run_none filter k ws
  | .fallback isNone check w k, ws => by
    unfold run value
    have h1 := run_none filter (k true)
    have h2 := run_none filter (k false)
    cases isNone <;> cases check
    · exact h1 ws
    · exact h2 ws
    · exact h1 ws
    · exact h1 ws
  | .wrap body k, ws => by
    unfold run value
    dsimp only
    rw [runBody_none filter body ws]
    dsimp only
    rw [run_none filter (k (bodyValue body)) ws]
    rfl

theorem runBody_none (filter : Text → Bool) : ∀ (b : Body V) (ws : List Text),
    runBody filter .none b ws = (bodyValue b, [])
  | .ret r, ws => rfl
  | .call inner k, ws => by
    unfold runBody bodyValue
    dsimp only
    rw [run_none filter inner ws]
    dsimp only
    rw [checked_none]
    dsimp only
    rw [runBody_none filter (k (value inner)) ws]
    rfl

end

/-- With `'none'` the outcome is that without warnings, and none is issued, whatever functions are called. -/
theorem none_mode (filter : Text → Bool) (p : Prog V) : serialize filter .none p = (value p, []) := by
  unfold serialize
  dsimp only
  rw [run_none]
  dsimp only
  rw [checked_none]
  rfl

theorem run_noWrap (filter : Text → Bool) (m : Mode) (hm : m ≠ .none) : ∀ (p : Prog V) (ws : List Text), NoWrap p →
    run filter m p ws = (value p, ws ++ warns p, [])
  | .ret r, ws, _ => by
    show (r, ws, []) = (r, ws ++ [], [])
    rw [List.append_nil]
  | .register w k, ws, h => by
    unfold run value warns
    have := run_noWrap filter m hm k (push m ws w) h
    rw [this, push, if_neg hm, List.append_assoc]
    rfl
  | .fallback isNone check w k, ws, h => by
    unfold run value
    have h1 := fun ws => run_noWrap filter m hm (k true) ws (h true)
    have h2 := fun ws => run_noWrap filter m hm (k false) ws (h false)
    cases isNone <;> cases check
    · have := h1 (push m ws w)
      rw [push, if_neg hm, List.append_assoc] at this
      show run filter m (k true) (push m ws w) = _
      rw [push, if_neg hm]
      exact this
    · exact h2 ws
    · exact h1 ws
    · exact h1 ws
  | .wrap body k, ws, h => h.elim

/-- With `'error'`, and no `wrap` function: exceptions of the serialisation first, then all the warnings in one. -/
theorem error_mode (filter : Text → Bool) (p : Prog V) (h : NoWrap p) :
    serialize filter .error p =
      match value p with
      | .error e => (.error e, [])
      | .ok v => if warns p = [] then (.ok v, []) else (.error (.serError (message (warns p))), []) := by
  unfold serialize
  dsimp only
  rw [run_noWrap filter .error nofun p [] h]
  dsimp only [List.nil_append]
  cases value p with
  | error e => rfl
  | ok v => cases warns p <;> rfl

/-- With `'warn'`, and no `wrap` function: the value, and one warning with the text of all, in order; unless that text has
a NUL, or Python makes it an exception. -/
theorem warn_mode (filter : Text → Bool) (p : Prog V) (h : NoWrap p) :
    serialize filter .warn p =
      match value p with
      | .error e => (.error e, [])
      | .ok v =>
        if warns p = [] then (.ok v, [])
        else if '\x00' ∈ message (warns p) then (.error .nul, [])
        else if filter (message (warns p)) then (.error (.warned (message (warns p))), [])
        else (.ok v, [message (warns p)]) := by
  unfold serialize
  dsimp only
  rw [run_noWrap filter .warn nofun p [] h]
  dsimp only [List.nil_append]
  cases value p with
  | error e => rfl
  | ok v =>
    cases hw : warns p with
    | nil => rfl
    | cons w ws =>
      have hc : checked filter .warn (.ok v) (w :: ws) =
          if '\x00' ∈ message (w :: ws) then (.error .nul, [])
          else if filter (message (w :: ws)) then (.error (.warned (message (w :: ws))), [])
          else (.ok v, [message (w :: ws)]) := by
        unfold checked finalCheck
        dsimp only
        rw [if_neg nofun, if_neg nofun, if_pos rfl]
        by_cases h1 : '\x00' ∈ message (w :: ws)
        · rw [if_pos h1, if_pos h1]
        · rw [if_neg h1, if_neg h1]
          by_cases h2 : filter (message (w :: ws)) = true
          · rw [if_pos h2, if_pos h2]
          · rw [if_neg h2, if_neg h2]
      dsimp only
      rw [if_neg nofun, hc]

/-- The claim holds for serialisations that call no `wrap` function. -/
theorem only_warns_partial (p : Prog V) (h : NoWrap p) : OnlyWarns p := by
  intro filter m
  cases m with
  | none =>
    rw [none_mode]
    exact ⟨fun v hv => hv, fun e he => he⟩
  | warn =>
    rw [warn_mode filter p h]
    cases value p with
    | error e => exact ⟨nofun, fun e' he => he⟩
    | ok v =>
      refine ⟨fun v' => ?_, nofun⟩
      dsimp only
      repeat' split
      all_goals first | exact fun hv => hv | exact nofun
  | error =>
    rw [error_mode filter p h]
    cases value p with
    | error e => exact ⟨nofun, fun e' he => he⟩
    | ok v =>
      refine ⟨fun v' => ?_, nofun⟩
      dsimp only
      split
      · exact fun hv => hv
      · exact nofun

theorem join_clean (sep : Text) (hs : '\x00' ∉ sep) : ∀ ws : List Text, (∀ w ∈ ws, '\x00' ∉ w) → '\x00' ∉ join sep ws
  | [], _ => nofun
  | [w], h => h w (by simp)
  | w :: w' :: ws, h => by
    unfold join
    simp only [List.mem_append, not_or]
    exact ⟨⟨h w (by simp), hs⟩, join_clean sep hs (w' :: ws) fun x hx => h x (List.mem_cons_of_mem _ hx)⟩

theorem message_clean (ws : List Text) (h : ∀ w ∈ ws, '\x00' ∉ w) : '\x00' ∉ message ws := by
  unfold message
  rw [List.mem_append, not_or]
  exact ⟨by decide, join_clean _ (by decide) ws h⟩

theorem checked_warn (filter : Text → Bool) (hf : ∀ t, filter t = false) (r : Except Exc V) (ws : List Text)
    (h : ∀ w ∈ ws, '\x00' ∉ w) : (checked filter .warn r ws).1 = r := by
  cases r with
  | error e => rfl
  | ok v =>
    unfold checked finalCheck
    rw [if_neg nofun]
    by_cases he : ws.isEmpty
    · rw [if_pos he]
    · rw [if_neg he, if_pos rfl, if_neg (message_clean ws h), if_neg (by rw [hf]; exact nofun)]

theorem push_clean (ws : List Text) (w : Text) (h : ∀ x ∈ ws, '\x00' ∉ x) (hw : '\x00' ∉ w) :
    ∀ x ∈ push .warn ws w, '\x00' ∉ x := by
  intro x hx
  rw [push, if_neg nofun, List.mem_append] at hx
  cases hx with
  | inl hx => exact h x hx
  | inr hx => rw [List.mem_singleton] at hx; rw [hx]; exact hw

mutual

theorem run_warn (filter : Text → Bool) (hf : ∀ t, filter t = false) : ∀ (p : Prog V) (ws : List Text), Clean p →
    (∀ w ∈ ws, '\x00' ∉ w) → (run filter .warn p ws).1 = value p ∧ ∀ w ∈ (run filter .warn p ws).2.1, '\x00' ∉ w
  | .ret r, ws, _, hw => ⟨rfl, hw⟩
  | .register w k, ws, h, hw => by
    unfold run value
    exact run_warn filter hf k _ h.2 (push_clean ws w hw h.1)
  | .fallback isNone check w k, ws, h, hw => by
    unfold run value
    have h1 := fun ws => run_warn filter hf (k true) ws (h.2 true)
    have h2 := fun ws => run_warn filter hf (k false) ws (h.2 false)
    cases isNone <;> cases check
    · exact h1 _ (push_clean ws w hw h.1)
    · exact h2 ws hw
    · exact h1 ws hw
    · exact h1 ws hw
  | .wrap body k, ws, h, hw => by
    unfold run value
    dsimp only
    rw [runBody_warn filter hf body ws h.1 hw]
    exact run_warn filter hf (k (bodyValue body)) ws (h.2 _) hw

theorem runBody_warn (filter : Text → Bool) (hf : ∀ t, filter t = false) : ∀ (b : Body V) (ws : List Text), CleanBody b →
    (∀ w ∈ ws, '\x00' ∉ w) → (runBody filter .warn b ws).1 = bodyValue b
  | .ret r, ws, _, _ => rfl
  | .call inner k, ws, h, hw => by
    unfold runBody bodyValue
    dsimp only
    obtain ⟨h1, h2⟩ := run_warn filter hf inner ws h.1 hw
    rw [checked_warn filter hf _ _ h2, h1]
    exact runBody_warn filter hf (k (value inner)) _ (h.2 _) h2

end

/-- With `'warn'` the outcome is that without warnings, whatever functions are called, if no text has a NUL and Python makes
no warning an exception. -/
theorem warn_same (filter : Text → Bool) (hf : ∀ t, filter t = false) (p : Prog V) (h : Clean p) :
    (serialize filter .warn p).1 = value p := by
  obtain ⟨h1, h2⟩ := run_warn filter hf p [] h nofun
  unfold serialize
  dsimp only
  rw [checked_warn filter hf _ _ h2, h1]

theorem checked_report (filter : Text → Bool) (hf : ∀ t, filter t = false) (r : Except Exc V) (ws : List Text)
    (h : ∀ w ∈ ws, '\x00' ∉ w) : checked filter .warn r ws = (r, report r ws) := by
  cases r with
  | error e => rfl
  | ok v =>
    cases ws with
    | nil => rfl
    | cons w ws =>
      unfold checked finalCheck
      dsimp only
      rw [if_neg nofun, if_neg nofun, if_pos rfl, if_neg (message_clean _ h), if_neg (by rw [hf]; exact nofun)]
      rfl

mutual

theorem run_issued (filter : Text → Bool) (hf : ∀ t, filter t = false) : ∀ (p : Prog V) (ws : List Text), Clean p →
    (∀ w ∈ ws, '\x00' ∉ w) → run filter .warn p ws = (value p, ws ++ own p, issued p ws)
  | .ret r, ws, _, _ => by
    show (r, ws, []) = (r, ws ++ [], [])
    rw [List.append_nil]
  | .register w k, ws, h, hw => by
    unfold run value own issued
    rw [run_issued filter hf k _ h.2 (push_clean ws w hw h.1), push, if_neg nofun, List.append_assoc]
    rfl
  | .fallback isNone check w k, ws, h, hw => by
    unfold run value
    have h1 := fun ws => run_issued filter hf (k true) ws (h.2 true)
    have h2 := fun ws => run_issued filter hf (k false) ws (h.2 false)
    cases isNone <;> cases check
    · show run filter .warn (k true) (push .warn ws w) = _
      rw [h1 _ (push_clean ws w hw h.1), push, if_neg nofun, List.append_assoc]
      rfl
    · exact h2 ws hw
    · exact h1 ws hw
    · exact h1 ws hw
  | .wrap body k, ws, h, hw => by
    unfold run value own issued
    dsimp only
    rw [runBody_issued filter hf body ws h.1 hw]
    dsimp only
    rw [run_issued filter hf (k (bodyValue body)) ws (h.2 _) hw]

theorem runBody_issued (filter : Text → Bool) (hf : ∀ t, filter t = false) : ∀ (b : Body V) (ws : List Text),
    CleanBody b → (∀ w ∈ ws, '\x00' ∉ w) → runBody filter .warn b ws = (bodyValue b, issuedBody b ws)
  | .ret r, ws, _, _ => rfl
  | .call inner k, ws, h, hw => by
    have h2 := (run_warn filter hf inner ws h.1 hw).2
    unfold runBody bodyValue issuedBody
    dsimp only
    rw [run_issued filter hf inner ws h.1 hw] at h2 ⊢
    dsimp only at h2 ⊢
    rw [checked_report filter hf _ _ h2]
    dsimp only
    rw [runBody_issued filter hf (k (value inner)) _ (h.2 _) h2]

end

/-- The same, with the warnings that are issued: those of handlers as they are called, and at the end those of the
serialisation itself. -/
theorem warn_issued (filter : Text → Bool) (hf : ∀ t, filter t = false) (p : Prog V) (h : Clean p) :
    serialize filter .warn p = (value p, issued p [] ++ report (value p) (own p)) := by
  have h2 := (run_warn filter hf p [] h nofun).2
  unfold serialize
  dsimp only
  rw [run_issued filter hf p [] h nofun] at h2 ⊢
  dsimp only [List.nil_append] at h2 ⊢
  rw [checked_report filter hf _ _ h2]

/-- A warning before a function that calls its handler twice is issued three times, and that of the first call twice. -/
theorem issued_repeatedly (filter : Text → Bool) (hf : ∀ t, filter t = false) :
    serialize filter .warn (.register ['a'] (.wrap (.call (.register ['b'] (.ret (.ok 1))) fun _ =>
      .call (.register ['c'] (.ret (.ok 2))) .ret) .ret) : Prog Nat) =
    (.ok 2, [message [['a'], ['b']], message [['a'], ['b'], ['c']], message [['a']]]) := by
  rw [warn_issued filter hf]
  · rfl
  · exact ⟨by decide, ⟨⟨by decide, trivial⟩, fun _ => ⟨⟨by decide, trivial⟩, fun _ => trivial⟩⟩, fun _ => trivial⟩

theorem checked_ok (filter : Text → Bool) (m : Mode) (r : Except Exc V) (ws : List Text) (v : V)
    (h : (checked filter m r ws).1 = .ok v) : r = .ok v := by
  cases r with
  | error e => exact h
  | ok v' =>
    unfold checked at h
    dsimp only at h
    split at h
    · exact h
    · cases h

mutual

theorem run_passes (filter : Text → Bool) (m : Mode) : ∀ (p : Prog V) (ws : List Text) (v : V), Passes p →
    (run filter m p ws).1 = .ok v → value p = .ok v
  | .ret r, ws, v, _, h => h
  | .register w k, ws, v, hp, h => by
    unfold run at h
    unfold value
    exact run_passes filter m k _ v hp h
  | .fallback isNone check w k, ws, v, hp, h => by
    unfold run at h
    unfold value
    have h1 := fun ws => run_passes filter m (k true) ws v (hp true)
    have h2 := fun ws => run_passes filter m (k false) ws v (hp false)
    cases isNone <;> cases check
    · exact h1 _ h
    · exact h2 _ h
    · exact h1 _ h
    · exact h1 _ h
  | .wrap body k, ws, v, hp, h => by
    unfold run at h
    unfold value
    dsimp only at h
    obtain ⟨hb, hk, he⟩ := hp
    cases hr : (runBody filter m body ws).1 with
    | error e =>
      rw [hr] at h
      obtain ⟨e', hke⟩ := he e
      rw [hke] at h
      cases h
    | ok v' =>
      rw [hr] at h
      rw [runBody_passes filter m body ws v' hb hr]
      exact run_passes filter m (k (.ok v')) ws v (hk v') h

theorem runBody_passes (filter : Text → Bool) (m : Mode) : ∀ (b : Body V) (ws : List Text) (v : V), PassesBody b →
    (runBody filter m b ws).1 = .ok v → bodyValue b = .ok v
  | .ret r, ws, v, _, h => h
  | .call inner k, ws, v, hp, h => by
    unfold runBody at h
    unfold bodyValue
    dsimp only at h
    obtain ⟨hi, hk, he⟩ := hp
    cases hr : (checked filter m (run filter m inner ws).1 (run filter m inner ws).2.1).1 with
    | error e =>
      rw [hr] at h
      obtain ⟨e', hke⟩ := he e
      rw [hke] at h
      cases h
    | ok v' =>
      rw [hr] at h
      rw [run_passes filter m inner ws v' hi (checked_ok _ _ _ _ _ hr)]
      exact runBody_passes filter m (k (.ok v')) _ v (hk v') h

end

/-- If nothing catches exceptions of `wrap` functions and their handlers, a value that is returned is the same in every
mode, and a serialisation that fails without warnings fails in every mode. -/
theorem returned_same_partial (filter : Text → Bool) (m : Mode) (p : Prog V) (hp : Passes p) :
    (∀ v, (serialize filter m p).1 = .ok v → value p = .ok v) ∧
    (∀ e, value p = .error e → ∃ e', (serialize filter m p).1 = .error e') := by
  have key : ∀ v, (serialize filter m p).1 = .ok v → value p = .ok v := fun v h =>
    run_passes filter m p [] v hp (checked_ok _ _ _ _ _ h)
  refine ⟨key, fun e he => ?_⟩
  cases hs : (serialize filter m p).1 with
  | error e' => exact ⟨e', rfl⟩
  | ok v =>
    have := key v hs
    rw [he] at this
    cases this

-- a function that hands on what its handler gives or raises
example : Passes (.wrap (.call (.fallback false false ['a'] fun _ => .ret (.ok 1)) .ret) .ret : Prog Nat) :=
  ⟨⟨fun _ => trivial, fun _ => trivial, fun e => ⟨e, rfl⟩⟩, fun _ => trivial, fun e => ⟨e, rfl⟩⟩

/-- A `wrap` function that gives 2 where its handler raises, around a value that is not of its type. -/
def careful (w : Text) : Prog Nat :=
  .wrap (.call (.fallback false false w fun _ => .ret (.ok 1)) fun r =>
    match r with
    | .ok v => .ret (.ok v)
    | .error _ => .ret (.ok 2)) .ret

/-- C121 fails: with `'error'` such a function changes what is returned, and nothing is raised. -/
theorem error_mode_swallowed (filter : Text → Bool) (w : Text) :
    serialize filter .none (careful w) = (.ok 1, []) ∧ serialize filter .error (careful w) = (.ok 2, []) ∧
    ¬ OnlyWarns (careful w) := by
  have h : serialize filter .error (careful w) = (.ok 2, []) := rfl
  refine ⟨rfl, h, fun ho => ?_⟩
  have h2 := (ho filter .error).1 2 (by rw [h])
  cases h2

/-- A NUL in the text of a warning makes `to_python` raise a `ValueError` by default. -/
theorem nul_raises (filter : Text → Bool) (v : V) :
    serialize filter .warn (.fallback false false ['\x00'] fun _ => .ret (.ok v)) = (.error .nul, []) ∧
    serialize filter .none (.fallback false false ['\x00'] fun _ => .ret (.ok v)) = (.ok v, []) := by
  refine ⟨?_, none_mode _ _⟩
  have hn : NoWrap (.fallback false false ['\x00'] fun _ => .ret (.ok v) : Prog V) := fun _ => trivial
  have hm : '\x00' ∈ message [['\x00']] := by
    unfold message
    exact List.mem_append_right _ (List.mem_singleton_self _)
  rw [warn_mode _ _ hn]
  show (if [['\x00']] = [] then _ else if '\x00' ∈ message [['\x00']] then _ else _) = _
  rw [if_neg nofun, if_pos hm]

-- the hypotheses are met
example (v : V) : NoWrap (.fallback false false ['a'] fun _ => .register ['b'] (.ret (.ok v)) : Prog V) ∧
    warns (.fallback false false ['a'] fun _ => .register ['b'] (.ret (.ok v)) : Prog V) = [['a'], ['b']] :=
  ⟨fun _ => trivial, rfl⟩

example : Clean (careful ['a']) ∧ ∃ f : Text → Bool, ∀ t, f t = false := by
  refine ⟨⟨⟨⟨by decide, fun _ => trivial⟩, fun r => ?_⟩, fun _ => trivial⟩, fun _ => false, fun _ => rfl⟩
  cases r <;> trivial

-- the text lists the warnings
example : message [['a'], ['b']] = "Pydantic serializer warnings:\n  ".toList ++ (['a'] ++ "\n  ".toList ++ ['b']) := rfl

end PC.WarnMode
