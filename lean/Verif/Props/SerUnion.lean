/-
C42: union serialisation picks the first matching member.
-/
import Verif.Model.SerUnion

namespace PC.SerUnion

/-- Members that, in a union, neither look at nor add to the warnings. -/
def Quiet {ε β : Type} (ms : List (Member ε β)) : Prop :=
  ∀ m ∈ ms, ∀ c, c ≠ .none → ∀ w, (m.run c w).2 = w ∧ (m.run c w).1 = (m.run c []).1

/-- The member accepts the value under the check and gives `v`. -/
def Accepts {ε β : Type} (c : Check) (m : Member ε β) (v : β) : Prop := (m.run c []).1 = .ok v

/-- The member refuses the value under the check with the error `e`. -/
def Refuses {ε β : Type} (c : Check) (m : Member ε β) (e : ε) : Prop := (m.run c []).1 = .error e

/-- The first member to accept the value under the check gives `v`. -/
def FirstToAccept {ε β : Type} (c : Check) (ms : List (Member ε β)) (v : β) : Prop :=
  ∃ i m, ms[i]? = some m ∧ Accepts c m v ∧ ∀ (j : Nat) m', j < i → ms[j]? = some m' → ∃ e, Refuses c m' e

/-- Every member refuses, with these errors in order. -/
def AllRefuse {ε β : Type} (c : Check) (ms : List (Member ε β)) (es : List ε) : Prop :=
  es.length = ms.length ∧ ∀ (i : Nat) m e, ms[i]? = some m → es[i]? = some e → Refuses c m e

/-- One of the two happens. -/
theorem tryAll_cases {ε β : Type} (c : Check) (hc : c ≠ .none) (ms : List (Member ε β)) (w : List ε)
    (hq : Quiet ms) :
    (∃ v, tryAll c ms w = (.ok v, w) ∧ FirstToAccept c ms v) ∨
    (∃ es, tryAll c ms w = (.error es, w) ∧ AllRefuse c ms es) := by
  induction ms with
  | nil => right; exact ⟨[], rfl, rfl, fun i m e h => by simp at h⟩
  | cons m rest ih =>
    have hm := hq m (by simp) c hc w
    have hr : Quiet rest := fun m' h => hq m' (List.mem_cons_of_mem _ h)
    cases hrun : m.run c w with
    | mk r w' =>
      have hw : w' = w := by have := hm.1; rw [hrun] at this; exact this
      subst hw
      have hres : (m.run c []).1 = r := by have := hm.2; rw [hrun] at this; exact this.symm
      cases r with
      | ok v =>
        left
        refine ⟨v, by simp only [tryAll, hrun], 0, m, rfl, hres, ?_⟩
        intro j m' hj; omega
      | error e =>
        rcases ih hr with ⟨v, hv, i, mi, hi, ha, hb⟩ | ⟨es, he, hlen, hall⟩
        · left
          refine ⟨v, by simp only [tryAll, hrun, hv], i + 1, mi, by simpa using hi, ha, ?_⟩
          intro j m' hj hget
          cases j with
          | zero => simp only [List.getElem?_cons_zero, Option.some.injEq] at hget; subst hget; exact ⟨e, hres⟩
          | succ j => exact hb j m' (by omega) (by simpa using hget)
        · right
          refine ⟨e :: es, by simp only [tryAll, hrun, he], by simp [hlen], ?_⟩
          intro i m' e' hi he'
          cases i with
          | zero =>
            simp only [List.getElem?_cons_zero, Option.some.injEq] at hi he'
            subst hi; subst he'; exact hres
          | succ i => exact hall i m' e' (by simpa using hi) (by simpa using he')

theorem first_not_refuse {ε β : Type} (c : Check) (ms : List (Member ε β)) (v : β) (es : List ε)
    (h : FirstToAccept c ms v) (h' : AllRefuse c ms es) : False := by
  obtain ⟨i, m, hi, ha, _⟩ := h
  obtain ⟨hlen, hall⟩ := h'
  have hlt : i < ms.length := by
    rcases Nat.lt_or_ge i ms.length with h | h
    · exact h
    · rw [List.getElem?_eq_none h] at hi; cases hi
  have hlt' : i < es.length := by omega
  have := hall i m es[i] hi (by simp [hlt'])
  unfold Accepts at ha
  unfold Refuses at this
  rw [ha] at this; cases this

theorem first_unique {ε β : Type} (c : Check) (ms : List (Member ε β)) (v v' : β)
    (h : FirstToAccept c ms v) (h' : FirstToAccept c ms v') : v = v' := by
  obtain ⟨i, m, hi, ha, hb⟩ := h
  obtain ⟨i', m', hi', ha', hb'⟩ := h'
  rcases Nat.lt_trichotomy i i' with hlt | heq | hlt
  · obtain ⟨e, he⟩ := hb' i m hlt hi
    unfold Accepts at ha; unfold Refuses at he; rw [ha] at he; cases he
  · subst heq
    rw [hi] at hi'; cases hi'
    unfold Accepts at ha ha'; rw [ha] at ha'; cases ha'; rfl
  · obtain ⟨e, he⟩ := hb i' m' hlt hi'
    unfold Accepts at ha'; unfold Refuses at he; rw [ha'] at he; cases he

/-- C42. The first member to accept the value under strict checking serialises it, and no warning is
recorded. -/
theorem union_strict {ε β : Type} (warnOn : Bool) (join : List ε → ε)
    (infer : List ε → Except ε β × List ε) (check : Check) (ms : List (Member ε β)) (w : List ε)
    (hq : Quiet ms) (v : β) (h : FirstToAccept .strict ms v) :
    toPython warnOn join infer check ms w = (.ok v, w) := by
  rcases tryAll_cases .strict (by decide) ms w hq with ⟨v', hv, hf⟩ | ⟨es, _, hr⟩
  · have := first_unique _ _ _ _ h hf; subst this
    simp only [toPython, unionSerialize, hv]
  · exact (first_not_refuse _ _ _ _ h hr).elim

/-- C42. If none accepts under strict checking, the first to accept under lax checking serialises it, and
no warning is recorded. This holds outside strict unions (which are told to be strict) and, because of
the short cut `retry_with_lax_check`, only if some member announces that lax checking may help.

Missing for the full claim: members that accept under lax checking but do not announce it, such as floats:
see `float_subclass_not_retried`. -/
theorem union_lax_partial {ε β : Type} (warnOn : Bool) (join : List ε → ε)
    (infer : List ε → Except ε β × List ε) (check : Check) (ms : List (Member ε β)) (w : List ε)
    (hq : Quiet ms) (v : β) (es : List ε) (hs : AllRefuse .strict ms es) (hc : check ≠ .strict)
    (hretry : ∃ m ∈ ms, m.retry = true) (h : FirstToAccept .lax ms v) :
    toPython warnOn join infer check ms w = (.ok v, w) := by
  have hra : retryAny ms = true := by
    obtain ⟨m, hm, hr⟩ := hretry
    exact List.any_eq_true.2 ⟨m, hm, hr⟩
  rcases tryAll_cases .strict (by decide) ms w hq with ⟨v', _, hf⟩ | ⟨es', hes, _⟩
  · exact (first_not_refuse _ _ _ _ hf hs).elim
  · rcases tryAll_cases .lax (by decide) ms w hq with ⟨v', hv, hf⟩ | ⟨es'', _, hr⟩
    · have := first_unique _ _ _ _ h hf; subst this
      simp only [toPython, unionSerialize, hes, hra, hc, ne_eq, not_false_eq_true, and_self, if_true, hv]
    · exact (first_not_refuse _ _ _ _ h hr).elim

/-- C42. If no member accepts, at top level the value is serialised by inference, and the errors that
the members gave under strict checking are recorded as warnings, in order (unless warnings are off). -/
theorem union_infers {ε β : Type} (warnOn : Bool) (join : List ε → ε)
    (infer : List ε → Except ε β × List ε) (ms : List (Member ε β)) (w : List ε)
    (hq : Quiet ms) (es es' : List ε) (hs : AllRefuse .strict ms es) (hl : AllRefuse .lax ms es') :
    toPython warnOn join infer .none ms w = infer (if warnOn then w ++ es else w) := by
  rcases tryAll_cases .strict (by decide) ms w hq with ⟨v', _, hf⟩ | ⟨es1, hes, hr⟩
  · exact (first_not_refuse _ _ _ _ hf hs).elim
  · have heq : es1 = es := by
      apply List.ext_getElem?
      intro i
      rcases Nat.lt_or_ge i ms.length with hlt | hge
      · have h1 : i < es1.length := by rw [hr.1]; exact hlt
        have h2 : i < es.length := by rw [hs.1]; exact hlt
        have a := hr.2 i ms[i] es1[i] (by simp) (by simp)
        have b := hs.2 i ms[i] es[i] (by simp) (by simp)
        unfold Refuses at a b
        rw [a] at b
        have : es1[i] = es[i] := by injection b
        rw [List.getElem?_eq_getElem h1, List.getElem?_eq_getElem h2, this]
      · rw [List.getElem?_eq_none (by rw [hr.1]; exact hge), List.getElem?_eq_none (by rw [hs.1]; exact hge)]
    subst heq
    rcases tryAll_cases .lax (by decide) ms w hq with ⟨v', _, hf⟩ | ⟨es2, hes2, _⟩
    · exact (first_not_refuse _ _ _ _ hf hl).elim
    · by_cases hret : retryAny ms = true
      · simp only [toPython, unionSerialize, hes, hes2, hret, registerAll]
        simp
      · simp only [toPython, unionSerialize, hes, hret, registerAll]
        simp

/-- C42. In a union nested in another check, when no member accepts (under strict checking if the outer check
is strict, under lax checking otherwise), an error goes to the outer union and no warning is recorded. -/
theorem union_nested_error {ε β : Type} (warnOn : Bool) (join : List ε → ε)
    (infer : List ε → Except ε β × List ε) (check : Check) (ms : List (Member ε β)) (w : List ε)
    (hq : Quiet ms) (hne : ms ≠ []) (es es' : List ε) (hs : AllRefuse .strict ms es)
    (hl : check = .strict ∨ AllRefuse .lax ms es') (hc : check ≠ .none) :
    ∃ e, toPython warnOn join infer check ms w = (.error e, w) := by
  rcases tryAll_cases .strict (by decide) ms w hq with ⟨v', _, hf⟩ | ⟨es1, hes, hr⟩
  · exact (first_not_refuse _ _ _ _ hf hs).elim
  · have hemp : es1.isEmpty = false := by
      cases es1 with
      | nil =>
        exfalso; apply hne
        have := hr.1; simp at this; exact List.length_eq_zero_iff.1 this.symm
      | cons _ _ => rfl
    refine ⟨join es1, ?_⟩
    simp only [toPython, unionSerialize, hes]
    by_cases hx : check ≠ .strict ∧ retryAny ms = true
    · rw [if_pos hx]
      rcases tryAll_cases .lax (by decide) ms w hq with ⟨v', _, hf⟩ | ⟨es2, hes2, _⟩
      · rcases hl with hl | hl
        · exact absurd hl hx.1
        · exact (first_not_refuse _ _ _ _ hf hl).elim
      · simp [hc, hemp, hes2]
    · rw [if_neg hx]; simp [hc, hemp]

/-- An int subclass in `Union[str, int]`: refused by both strictly, accepted by the int member laxly. -/
example : let ms : List (Member Nat String) :=
      [simpleMember .no false false "" "" 0, simpleMember .subclass false true "five" "5" 1]
    Quiet ms ∧ AllRefuse .strict ms [0, 1] ∧ FirstToAccept .lax ms "5" ∧ (∃ m ∈ ms, m.retry = true) ∧
    toPython true (fun _ => 9) (fun w => (.ok "inferred", w)) .none ms [] = (.ok "5", []) := by
  refine ⟨?_, ⟨rfl, ?_⟩, ⟨1, _, rfl, rfl, ?_⟩, ⟨_, List.mem_cons_of_mem _ (List.mem_singleton.2 rfl), rfl⟩, by rfl⟩
  · intro m hm c hc w
    simp only [List.mem_cons, List.not_mem_nil, or_false] at hm
    rcases hm with rfl | rfl <;> cases c <;> first | exact absurd rfl hc | exact ⟨rfl, rfl⟩
  · intro i m e hm he
    match i with
    | 0 => cases hm; cases he; rfl
    | 1 => cases hm; cases he; rfl
    | n + 2 => simp at hm
  · intro j m' hj hm
    have : j = 0 := by omega
    subst this; cases hm; exact ⟨0, rfl⟩

/-- Nothing accepts: the hypotheses of `union_infers` and `union_nested_error`. -/
example : let ms : List (Member Nat String) :=
      [simpleMember .no false false "" "" 0, simpleMember .no false true "" "" 1]
    Quiet ms ∧ AllRefuse .strict ms [0, 1] ∧ AllRefuse .lax ms [0, 1] ∧
    toPython true (fun _ => 9) (fun w => (.ok "inferred", w)) .none ms [] = (.ok "inferred", [0, 1]) ∧
    toPython true (fun _ => 9) (fun w => (.ok "inferred", w)) .lax ms [] = (.error 9, []) := by
  refine ⟨?_, ⟨rfl, ?_⟩, ⟨rfl, ?_⟩, by rfl, by rfl⟩
  · intro m hm c hc w
    simp only [List.mem_cons, List.not_mem_nil, or_false] at hm
    rcases hm with rfl | rfl <;> cases c <;> first | exact absurd rfl hc | exact ⟨rfl, rfl⟩
  all_goals
    intro i m e hm he
    match i with
    | 0 => cases hm; cases he; rfl
    | 1 => cases hm; cases he; rfl
    | n + 2 => simp at hm

/-- The first of two members accepts strictly: the hypotheses of `union_strict`. -/
example : FirstToAccept .strict
    [(simpleMember .exact false false "5" "" 0 : Member Nat String), simpleMember .exact false true "6" "" 1] "5" :=
  ⟨0, _, rfl, rfl, fun j _ hj => by omega⟩

/-- C42 fails for a float subclass in `Union[float, str]`: the float member accepts it under lax checking,
but does not announce that, so the value is serialised by inference with two warnings. -/
theorem float_subclass_not_retried :
    let ms : List (Member Nat String) :=
      [simpleMember .subclass false false "x" "1.5" 0, simpleMember .no false false "" "" 1]
    Accepts .lax (ms.head (by decide)) "1.5" ∧
    toPython true (fun _ => 9) (fun w => (.ok "inferred", w)) .none ms [] = (.ok "inferred", [0, 1]) := by
  exact ⟨rfl, by rfl⟩

/-- "A success records no warning" fails for members that record warnings themselves (a value with its own
serialiser inside the attempted member starts afresh without check, `infer.rs` 94-113): the warnings of
an attempt that is given up stay. -/
theorem attempt_warnings_stay :
    let ms : List (Member Nat String) :=
      [{ run := fun _ w => (.error 1, w ++ [7]), retry := false }, simpleMember .exact false false "x" "" 0]
    toPython true (fun _ => 9) (fun w => (.ok "inferred", w)) .none ms [] = (.ok "x", [7]) := by rfl

/-- C42, tagged unions: the member for the tag serialises the value when it accepts it strictly, or, when
some member announces it, laxly; no warning is recorded. -/
theorem tagged_picks {ε β τ : Type} (warnOn : Bool) (join : List ε → ε) (noTag : ε) (check : Check)
    (t : τ) (lookup : τ → Option Nat) (ms : List (Member ε β)) (w : List ε) (hq : Quiet ms)
    (i : Nat) (m : Member ε β) (hl : lookup t = some i) (hm : ms[i]? = some m) (v : β)
    (h : Accepts .strict m v ∨ (∃ e, Refuses .strict m e) ∧ retryAny ms = true ∧ Accepts .lax m v) :
    taggedSerialize warnOn join noTag check (some t) lookup ms w = (.ok (some v), w) := by
  have hmem : m ∈ ms := List.mem_of_getElem? hm
  have run : ∀ c, c ≠ .none → m.run c w = ((m.run c []).1, w) := by
    intro c hc
    have := hq m hmem c hc w
    exact Prod.ext this.2 this.1
  have hb : (lookup t).bind (fun i => ms[i]?) = some m := by rw [hl]; exact hm
  rcases h with h | ⟨⟨e, he⟩, hr, ha⟩
  · unfold Accepts at h
    simp only [taggedSerialize, hb, run .strict (by decide), h]
  · unfold Accepts at ha; unfold Refuses at he
    simp only [taggedSerialize, hb, run .strict (by decide), he, hr, if_true, run .lax (by decide), ha]

/-- C42, tagged unions: without a member for the tag, or when it refuses, all members are tried in order
as in an untagged union. -/
theorem tagged_falls_back {ε β τ : Type} (warnOn : Bool) (join : List ε → ε) (noTag : ε) (check : Check)
    (t : τ) (lookup : τ → Option Nat) (ms : List (Member ε β)) (w : List ε) (hq : Quiet ms)
    (h : lookup t = Option.none ∨ ∃ i m, lookup t = some i ∧ ms[i]? = some m ∧
      (∃ e, Refuses .strict m e) ∧ ∃ e, Refuses .lax m e) :
    taggedSerialize warnOn join noTag check (some t) lookup ms w
      = unionSerialize warnOn join check (retryAny ms) ms w := by
  rcases h with h | ⟨i, m, hl, hm, ⟨e, he⟩, e', he'⟩
  · simp only [taggedSerialize, h, Option.bind_none]
  · have hmem : m ∈ ms := List.mem_of_getElem? hm
    have run : ∀ c, c ≠ .none → m.run c w = ((m.run c []).1, w) := by
      intro c hc
      have := hq m hmem c hc w
      exact Prod.ext this.2 this.1
    have hb : (lookup t).bind (fun i => ms[i]?) = some m := by rw [hl]; exact hm
    unfold Refuses at he he'
    simp only [taggedSerialize, hb, run .strict (by decide), he, run .lax (by decide), he']
    split <;> rfl

/-- C42, tagged unions: without a tag one more warning is recorded at top level, and all members are tried
in order. -/
theorem tagged_no_tag {ε β τ : Type} (warnOn : Bool) (join : List ε → ε) (noTag : ε) (check : Check)
    (lookup : τ → Option Nat) (ms : List (Member ε β)) (w : List ε) :
    taggedSerialize warnOn join noTag check Option.none lookup ms w
      = unionSerialize warnOn join check (retryAny ms) ms
          (if check = .none ∧ warnOn = true then w ++ [noTag] else w) := by
  simp only [taggedSerialize, registerAll]
  by_cases hc : check = .none <;> by_cases hw : warnOn = true <;> simp [hc, hw]

example : let ms : List (Member Nat String) :=
      [simpleMember .no false false "" "" 0, simpleMember .subclass false true "five" "5" 1]
    ms[1]? = some (simpleMember .subclass false true "five" "5" 1) ∧
    taggedSerialize true (fun _ => 9) 8 .none (some "a") (fun _ => some 1) ms [] = (.ok (some "5"), []) ∧
    taggedSerialize true (fun _ => 9) 8 .none (some "a") (fun _ => some 0) ms [] = (.ok (some "5"), []) ∧
    taggedSerialize true (fun _ => 9) 8 .none (Option.none : Option String) (fun _ => some 1) ms []
      = (.ok (some "5"), [8]) := ⟨by rfl, by rfl, by rfl, by rfl⟩

/-- A tagged union inside a strict check accepts, through its tag, a value that an untagged one refuses. -/
theorem tagged_lax_in_strict :
    let ms : List (Member Nat String) := [simpleMember .subclass false true "five" "5" 1]
    taggedSerialize true (fun _ => 9) 8 .strict (some "a") (fun _ => some 0) ms [] = (.ok (some "5"), []) ∧
    unionSerialize true (fun _ => 9) .strict (retryAny ms) ms [] = (.error 9, []) := ⟨by rfl, by rfl⟩

end PC.SerUnion
