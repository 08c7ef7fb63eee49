import Verif.Spec.ComputedCalls

/-
C111: how often the properties of computed fields are asked.
-/

namespace PC.Computed
open PC.Filter (Key FVal kset)
open PC.SerFields (Env Opts SErr fieldFilter)

variable {α β ε σ : Type}

/-- **C111**: in Python mode each property that is included is asked once, in order. -/
theorem python_asks_once (env : Env α β ε) (o : Opts) (incl excl : Option FVal) (attr : Attr α ε σ)
    (hr : o.roundTrip = false) (cs : List (CField α β ε)) (s : σ) (out res : List (Key × β))
    (h : (toPython env o incl excl attr cs s out).result = .ok res) :
    AskedOnce env incl excl cs (toPython env o incl excl attr cs s out).asked := by
  unfold toPython at h ⊢
  rw [hr] at h ⊢
  simp only [Bool.false_eq_true, if_false] at h ⊢
  unfold AskedOnce included
  induction cs generalizing s out with
  | nil => rfl
  | cons c cs ih =>
    simp only [pythonLoop] at h ⊢
    cases hf : fieldFilter env (.s c.name) incl excl with
    | error e => rw [hf] at h; cases h
    | ok r =>
      rw [hf] at h
      cases r with
      | none =>
        dsimp only at h ⊢
        rw [ih _ _ h]
        simp [hf]
      | some n =>
        obtain ⟨ni, ne⟩ := n
        dsimp only at h ⊢
        cases ha : attr c.name s with
        | mk v s' =>
          rw [ha] at h
          cases v with
          | error e => cases h
          | ok v =>
            dsimp only at h ⊢
            cases hs : c.serializer.toPython v ni ne with
            | error e => rw [hs] at h; cases h
            | ok b =>
              rw [hs] at h
              dsimp only at h ⊢
              split at h
              · rename_i hc
                rw [if_pos hc]
                have := ih _ _ h
                simp only [Run.after, this]
                simp [hf]
              · rename_i hc
                rw [if_neg hc]
                have := ih _ _ h
                simp only [Run.after, this]
                simp [hf]

/-- One run of the JSON loop succeeds exactly if the table says so. -/
theorem jsonLoop_iff (env : Env α β ε) (o : Opts) (incl excl : Option FVal) (attr : Attr α ε σ)
    (cs : List (CField α β ε)) : ∀ (s s' : σ) (out res : List (String × β)) (a : List String),
    jsonLoop env o incl excl attr cs s out = ⟨.ok res, s', a⟩ ↔
      ∃ w, res = out ++ w ∧ Writes env o incl excl attr cs s s' w a := by
  induction cs with
  | nil =>
    intro s s' out res a
    constructor
    · intro h
      simp only [jsonLoop, Run.mk.injEq, Except.ok.injEq] at h
      obtain ⟨rfl, rfl, rfl⟩ := h
      exact ⟨[], by simp, .done⟩
    · rintro ⟨w, rfl, h⟩
      cases h
      simp [jsonLoop]
  | cons c cs ih =>
    intro s s' out res a
    have aft : ∀ (ns : List String) (r : Run (List (String × β)) ε σ),
        r.after ns = ⟨.ok res, s', a⟩ ↔ ∃ a', r = ⟨.ok res, s', a'⟩ ∧ a = ns ++ a' := by
      intro ns r
      cases r
      simp only [Run.after, Run.mk.injEq]
      constructor
      · rintro ⟨rfl, rfl, rfl⟩; exact ⟨_, ⟨rfl, rfl, rfl⟩, rfl⟩
      · rintro ⟨a', ⟨rfl, rfl, rfl⟩, rfl⟩; exact ⟨rfl, rfl, rfl⟩
    simp only [jsonLoop]
    constructor
    · intro h
      cases hf : fieldFilter env (.s c.name) incl excl with
      | error e => rw [hf] at h; simp at h
      | ok r =>
        rw [hf] at h
        cases r with
        | none =>
          obtain ⟨w, hw, h'⟩ := (ih _ _ _ _ _).1 h
          exact ⟨w, hw, .excluded hf h'⟩
        | some n =>
          obtain ⟨ni, ne⟩ := n
          dsimp only at h
          cases ha : attr c.name s with
          | mk v s1 =>
            rw [ha] at h
            cases v with
            | error e => simp at h
            | ok v =>
              dsimp only at h
              by_cases hn : (o.excludeNone && env.isNone v) = true
              · rw [if_pos hn] at h
                obtain ⟨a', hh, rfl⟩ := (aft _ _).1 h
                obtain ⟨w, hw, h'⟩ := (ih _ _ _ _ _).1 hh
                rw [Bool.and_eq_true] at hn
                exact ⟨w, hw, .isNone hf ha hn.1 hn.2 h'⟩
              · rw [if_neg hn] at h
                cases ha2 : attr c.name s1 with
                | mk v' s2 =>
                  rw [ha2] at h
                  cases v' with
                  | error e => simp at h
                  | ok v' =>
                    dsimp only at h
                    cases hs : c.serializer.serde v' ni ne with
                    | error e => rw [hs] at h; simp at h
                    | ok b =>
                      rw [hs] at h
                      dsimp only at h
                      obtain ⟨a', hh, rfl⟩ := (aft _ _).1 h
                      obtain ⟨w, hw, h'⟩ := (ih _ _ _ _ _).1 hh
                      refine ⟨(c.key o, b) :: w, by rw [hw]; simp, ?_⟩
                      rw [Bool.and_eq_true] at hn
                      exact .written hf ha hn ha2 hs h'
    · rintro ⟨w, hw, h⟩
      cases h with
      | excluded hf h' => rw [hf]; exact (ih _ _ _ _ _).2 ⟨_, hw, h'⟩
      | isNone hf ha h1 h2 h' =>
        rw [hf]
        dsimp only
        rw [ha]
        dsimp only
        rw [h1, h2]
        exact (aft _ _).2 ⟨_, (ih _ _ _ _ _).2 ⟨_, hw, h'⟩, rfl⟩
      | written hf ha hn ha2 hs h' =>
        rw [hf]
        dsimp only
        rw [ha]
        dsimp only
        rw [if_neg (by rw [Bool.and_eq_true]; exact hn), ha2]
        dsimp only
        rw [hs]
        exact (aft _ _).2 ⟨_, (ih _ _ _ _ _).2 ⟨_, by rw [hw]; simp, h'⟩, rfl⟩

/-- **C111**: JSON mode succeeds, writes and asks exactly as the table says: every property that is written was asked
twice, and the second answer is written. -/
theorem json_run_iff (env : Env α β ε) (o : Opts) (incl excl : Option FVal) (attr : Attr α ε σ)
    (hr : o.roundTrip = false) (cs : List (CField α β ε)) (s s' : σ) (w : List (String × β)) (a : List String) :
    toJson env o incl excl attr cs s [] = ⟨.ok w, s', a⟩ ↔ Writes env o incl excl attr cs s s' w a := by
  unfold toJson
  rw [hr]
  simp only [Bool.false_eq_true, if_false]
  rw [jsonLoop_iff]
  constructor
  · rintro ⟨w', h, h'⟩; rw [h]; exact h'
  · intro h; exact ⟨w, by simp, h⟩

/-- **C111**: without `exclude_none`, JSON mode asks every included property exactly twice. -/
theorem json_asks_twice (env : Env α β ε) (o : Opts) (incl excl : Option FVal) (attr : Attr α ε σ)
    (hn : o.excludeNone = false) (cs : List (CField α β ε)) (s s' : σ) (w : List (String × β)) (a : List String)
    (h : Writes env o incl excl attr cs s s' w a) :
    a = (included env incl excl cs).flatMap fun c => [c.name, c.name] := by
  induction h with
  | done => rfl
  | excluded hf _ ih => rw [ih]; simp [included, hf]
  | isNone _ _ h1 => rw [hn] at h1; cases h1
  | written hf _ _ _ _ _ ih => rw [ih]; simp [included, hf]

/-- **C111**: for properties without effects the two questions make no difference: both modes give what they would
give if each property were asked once. -/
theorem pure_agrees (env : Env α β ε) (o : Opts) (incl excl : Option FVal) (attr : Attr α ε σ)
    (f : String → Except ε α) (hp : ∀ n s, attr n s = (f n, s)) (cs : List (CField α β ε)) (s : σ) :
    (∀ out, (jsonLoop env o incl excl attr cs s out).result = PC.SerFields.computedSerde env o incl excl f cs out ∧
      (jsonLoop env o incl excl attr cs s out).state = s) ∧
    (∀ out, (pythonLoop env o incl excl attr cs s out).result = PC.SerFields.computedLoop env o incl excl f cs out ∧
      (pythonLoop env o incl excl attr cs s out).state = s) := by
  induction cs with
  | nil => exact ⟨fun _ => ⟨rfl, rfl⟩, fun _ => ⟨rfl, rfl⟩⟩
  | cons c cs ih =>
    constructor
    · intro out
      simp only [jsonLoop, PC.SerFields.computedSerde, hp]
      cases fieldFilter env (.s c.name) incl excl with
      | error e => exact ⟨rfl, rfl⟩
      | ok r =>
        cases r with
        | none => exact ih.1 out
        | some n =>
          dsimp only
          cases f c.name with
          | error e => exact ⟨rfl, rfl⟩
          | ok v =>
            dsimp only
            by_cases hn : (o.excludeNone && env.isNone v) = true
            · rw [if_pos hn, if_pos hn]; exact ih.1 out
            · rw [if_neg hn, if_neg hn]
              cases c.serializer.serde v n.1 n.2 with
              | error e => exact ⟨rfl, rfl⟩
              | ok b => exact ih.1 _
    · intro out
      simp only [pythonLoop, PC.SerFields.computedLoop, hp]
      cases fieldFilter env (.s c.name) incl excl with
      | error e => exact ⟨rfl, rfl⟩
      | ok r =>
        cases r with
        | none => exact ih.2 out
        | some n =>
          dsimp only
          cases f c.name with
          | error e => exact ⟨rfl, rfl⟩
          | ok v =>
            dsimp only
            cases c.serializer.toPython v n.1 n.2 with
            | error e => exact ⟨rfl, rfl⟩
            | ok b =>
              dsimp only
              by_cases hn : (o.excludeNone && env.isNoneOut b) = true
              · rw [if_pos hn, if_pos hn]; exact ih.2 out
              · rw [if_neg hn, if_neg hn]; exact ih.2 _

/-- **C111**: with `round_trip` no property is asked in either mode. -/
theorem round_trip_asks_none (env : Env α β ε) (o : Opts) (incl excl : Option FVal) (attr : Attr α ε σ)
    (hr : o.roundTrip = true) (cs : List (CField α β ε)) (s : σ) (out : List (Key × β)) (out' : List (String × β)) :
    toPython env o incl excl attr cs s out = ⟨.ok out, s, []⟩ ∧
    toJson env o incl excl attr cs s out' = ⟨.ok out', s, []⟩ := by
  unfold toPython toJson
  rw [hr]
  exact ⟨rfl, rfl⟩

/-! ### Witnesses -/

/-- Values are optional numbers. -/
def num : PC.SerFields.FSer (Option Nat) (Option Nat) String :=
  ⟨fun v _ _ => .ok v, fun v _ _ => .ok v, .ok none⟩

def numEnv : Env (Option Nat) (Option Nat) String :=
  ⟨Option.isNone, Option.isNone, fun a b => .ok (a == b), fun v _ _ => .ok v, fun v _ _ => .ok v, fun _ => 0⟩

def noneExcluded (b : Bool) : Opts := ⟨none, false, false, b, false, .none⟩

/-- A property that counts how often it was asked, and says `None` every second time. -/
def flaky : Attr (Option Nat) String Nat := fun _ n => (.ok (if n % 2 = 0 then some n else none), n + 1)

/-- False in JSON mode: the property is asked twice, and `null` is written although `exclude_none` is set; Python mode
asks once and writes the value. -/
theorem null_despite_exclude_none :
    toJson numEnv (noneExcluded true) none none flaky [⟨"p", num, "p", none⟩] 0 [] = ⟨.ok [("p", none)], 2, ["p", "p"]⟩ ∧
    toPython numEnv (noneExcluded true) none none flaky [⟨"p", num, "p", none⟩] 0 [] =
      ⟨.ok [(.s "p", some 0)], 1, ["p"]⟩ ∧
    ¬ AskedOnce numEnv none none [⟨"p", num, "p", none⟩]
      (toJson numEnv (noneExcluded true) none none flaky [⟨"p", num, "p", none⟩] 0 []).asked := by
  refine ⟨rfl, rfl, ?_⟩
  intro h
  have : ["p", "p"] = ["p"] := h
  cases this

/-- Two fields, one excluded. -/
example : Writes numEnv (noneExcluded false) none (some (.set [.s "q"])) flaky
    [⟨"q", num, "q", none⟩, ⟨"p", num, "p", none⟩] 0 2 [("p", none)] ["p", "p"] :=
  (json_run_iff (hr := rfl) ..).1 rfl

end PC.Computed
