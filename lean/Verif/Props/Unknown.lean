import Verif.Props.SerEngine

/-
C95: objects of a type that is not known to the serialiser.
-/

namespace PC.Infer
open PC.Filter (FVal)

variable {α : Type}

/-- The text that stands for an object of unknown type: `str()` of it, or if that raises a text with the name of its class. -/
inductive UnknownText (W : World α) (a : α) : Text → Prop
  | str {s} : W.str a = .ok s → UnknownText W a s.lossy
  | named {e n} : W.str a = .error e → W.qualname a = some n →
      UnknownText W a ("<Unserializable ".toList ++ n ++ " object>".toList)
  | nameless {e} : W.str a = .error e → W.qualname a = Option.none →
      UnknownText W a "<Unserializable object>".toList

/-- C95.  Where no `fallback` is given, an object of unknown type is, with `serialize_unknown`, written as the same text in JSON,
in the Python form of JSON and as a key, and refused in all three without `serialize_unknown`; in mode `python` it is handed out
as it is. -/
theorem unknown_object (W : World α) (rec : SerFn α) (ser : α → Except SErr (Config × SerFn α)) (x : Extra α) (a : α)
    (incl excl : Option FVal) (n : Nat) (hs : W.shape a = .unknown) (hf : x.fallback = Option.none) :
    (∃ t, UnknownText W a t ∧ ∀ st,
      if x.serializeUnknown then
        jsonBody W rec ser x a incl excl st = (.ok (.str t), st) ∧
        pyJsonBody W rec ser x a incl excl st = (.ok (.str (.utf8 t)), st) ∧ inferKeyAt W x (n + 1) a = .ok t
      else
        jsonBody W rec ser x a incl excl st = (.error .unknownType, st) ∧
        pyJsonBody W rec ser x a incl excl st = (.error .unknownType, st) ∧
        inferKeyAt W x (n + 1) a = .error .unknownType) ∧
    ∀ st, pyPythonBody W rec ser x a incl excl st = (.ok (.same a), st) := by
  refine ⟨⟨serializeUnknown W a, ?_, fun st => ?_⟩, fun st => ?_⟩
  · unfold serializeUnknown
    cases hstr : W.str a with
    | ok s => exact .str hstr
    | error e =>
      cases hq : W.qualname a with
      | some n => exact .named hstr hq
      | none => exact .nameless hstr hq
  · cases hu : x.serializeUnknown <;> simp [jsonBody, pyJsonBody, inferKeyAt, hs, hf, hu]
  · simp [pyPythonBody, hs, hf]

example : (Demo.world fun _ => .unknown).shape 7 = .unknown ∧
    UnknownText (Demo.world fun _ => .unknown) 7 "obj".toList ∧
    UnknownText { Demo.world fun _ => .unknown with str := fun _ => .error .panic, qualname := fun _ => some "Foo".toList } 7
      "<Unserializable Foo object>".toList :=
  ⟨rfl, .str (s := .utf8 "obj".toList) rfl, .named (n := "Foo".toList) rfl rfl⟩

/-- C95.  A `fallback` decides about objects of unknown type whatever else is set: what it returns is serialised in place of the
object, what it raises is raised. -/
theorem unknown_fallback (W : World α) (rec : SerFn α) (ser : α → Except SErr (Config × SerFn α)) (x : Extra α) (a : α)
    (incl excl : Option FVal) (n : Nat) (hs : W.shape a = .unknown) (f : α → Except SErr α) (hf : x.fallback = some f) (st : St) :
    (∀ b, f a = .ok b →
      jsonBody W rec ser x a incl excl st = rec.json x b incl excl st ∧
      pyJsonBody W rec ser x a incl excl st = rec.py x b incl excl st ∧
      pyPythonBody W rec ser x a incl excl st = rec.py x b incl excl st ∧
      inferKeyAt W x (n + 1) a = inferKeyAt W x n b) ∧
    (∀ e, f a = .error e →
      jsonBody W rec ser x a incl excl st = (.error e, st) ∧ pyJsonBody W rec ser x a incl excl st = (.error e, st) ∧
      pyPythonBody W rec ser x a incl excl st = (.error e, st) ∧ inferKeyAt W x (n + 1) a = .error e) := by
  constructor
  · intro b hb
    refine ⟨?_, ?_, ?_, ?_⟩
    · simp [jsonBody, hs, hf, hb]
    · simp [pyJsonBody, hs, hf, hb]
    · simp [pyPythonBody, hs, hf, hb]
    · rw [inferKeyAt]; simp [hs, hf, hb]
  · intro e he
    refine ⟨?_, ?_, ?_, ?_⟩
    · simp [jsonBody, hs, hf, he]
    · simp [pyJsonBody, hs, hf, he]
    · simp [pyPythonBody, hs, hf, he]
    · rw [inferKeyAt]; simp [hs, hf, he]

example : (Demo.world fun a => if a = 7 then .unknown else .none).shape 7 = .unknown ∧
    (fun a => if a = 7 then .ok 8 else .error .panic : Nat → Except SErr Nat) 7 = .ok 8 := ⟨rfl, rfl⟩

/-- C49.  A tuple of any objects used as key gives the keys of its items with commas between them, and no key if an item gives none;
then what is raised is what the first such item raises. -/
theorem tuple_as_key (W : World α) (x : Extra α) (a : α) (n : Nat) (xs : List α) (hs : W.shape a = .tuple xs) :
    (∀ t, inferKeyAt W x (n + 1) a = .ok t ↔
      ∃ ts, xs.map (inferKeyAt W x n) = ts.map .ok ∧ t = [','].intercalate ts) ∧
    (∀ e, inferKeyAt W x (n + 1) a = .error e ↔
      ∃ pre b post, xs = pre ++ b :: post ∧ (∀ c ∈ pre, ∃ t, inferKeyAt W x n c = .ok t) ∧ inferKeyAt W x n b = .error e) := by
  have hk : inferKeyAt W x (n + 1) a = tupleKey (inferKeyAt W x n) xs .new := by
    rw [inferKeyAt]; simp [hs]
  rw [hk]
  generalize inferKeyAt W x n = key
  have tail : ∀ (xs : List α) (b : Keys.KeyBuilder) (t : Text), b.first = false →
      (tupleKey key xs b = .ok t ↔ ∃ ts : List Text, xs.map key = ts.map .ok ∧ t = b.key ++ ts.flatMap (',' :: ·)) := by
    intro xs
    induction xs with
    | nil =>
      intro b t _
      simp only [tupleKey, Except.ok.injEq, List.map_nil]
      constructor
      · rintro rfl; exact ⟨[], rfl, by simp⟩
      · rintro ⟨ts, h, rfl⟩
        cases ts with
        | nil => simp
        | cons => simp at h
    | cons y ys ih =>
      intro b t hb
      simp only [tupleKey]
      cases hy : key y with
      | error e =>
        simp only [List.map_cons, hy]
        constructor
        · intro h; cases h
        · rintro ⟨ts, h, _⟩; cases ts <;> simp at h
      | ok u =>
        have hp : b.push u = ⟨b.key ++ ',' :: u, false⟩ := by simp [Keys.KeyBuilder.push, hb]
        dsimp only
        rw [ih (b.push u) t (by rw [hp]), hp]
        simp only [List.map_cons, hy]
        constructor
        · rintro ⟨ts, h, rfl⟩; exact ⟨u :: ts, by simp [h], by simp⟩
        · rintro ⟨ts, h, rfl⟩
          cases ts with
          | nil => simp at h
          | cons v ts =>
            simp only [List.map_cons, List.cons.injEq, Except.ok.injEq] at h
            obtain ⟨rfl, h⟩ := h
            exact ⟨ts, h, by simp⟩
  have join : ∀ (u : Text) (ts : List Text), [','].intercalate (u :: ts) = u ++ ts.flatMap (',' :: ·) := by
    intro u ts
    induction ts generalizing u with
    | nil => simp [List.intercalate]
    | cons v ts ih =>
      have := ih v
      simp only [List.intercalate, List.intersperse] at this ⊢
      simp_all
  constructor
  · intro t
    cases xs with
    | nil =>
      simp only [tupleKey, Keys.KeyBuilder.new, Except.ok.injEq, List.map_nil]
      constructor
      · rintro rfl; exact ⟨[], rfl, by simp [List.intercalate]⟩
      · rintro ⟨ts, h, rfl⟩
        cases ts with
        | nil => simp [List.intercalate]
        | cons => simp at h
    | cons y ys =>
      simp only [tupleKey]
      cases hy : key y with
      | error e =>
        simp only [List.map_cons, hy]
        constructor
        · intro h; cases h
        · rintro ⟨ts, h, _⟩; cases ts <;> simp at h
      | ok u =>
        have hp : Keys.KeyBuilder.new.push u = ⟨u, false⟩ := rfl
        dsimp only
        rw [tail ys _ t (by rw [hp]), hp]
        simp only [List.map_cons, hy]
        constructor
        · rintro ⟨ts, h, rfl⟩; exact ⟨u :: ts, by simp [h], by rw [join]⟩
        · rintro ⟨ts, h, rfl⟩
          cases ts with
          | nil => simp at h
          | cons v ts =>
            simp only [List.map_cons, List.cons.injEq, Except.ok.injEq] at h
            obtain ⟨rfl, h⟩ := h
            exact ⟨ts, h, by rw [join]⟩
  · intro e
    generalize Keys.KeyBuilder.new = b
    clear hs hk
    induction xs generalizing b with
    | nil =>
      constructor
      · intro h; cases h
      · rintro ⟨pre, c, post, h, _⟩; simp at h
    | cons y ys ih =>
      simp only [tupleKey]
      cases hy : key y with
      | error e' =>
        dsimp only
        constructor
        · intro h; cases h; exact ⟨[], y, ys, rfl, (fun c hc => by cases hc), hy⟩
        · rintro ⟨pre, c, post, h, hp, hc⟩
          cases pre with
          | nil => simp only [List.nil_append, List.cons.injEq] at h; rw [← h.1, hy] at hc; exact hc
          | cons z pre =>
            simp only [List.cons_append, List.cons.injEq] at h
            obtain ⟨t, ht⟩ := hp z List.mem_cons_self
            rw [← h.1, hy] at ht; cases ht
      | ok u =>
        dsimp only
        rw [ih]
        constructor
        · rintro ⟨pre, c, post, rfl, hp, hc⟩
          refine ⟨y :: pre, c, post, rfl, ?_, hc⟩
          intro d hd
          rcases List.mem_cons.1 hd with rfl | hd
          · exact ⟨u, hy⟩
          · exact hp d hd
        · rintro ⟨pre, c, post, h, hp, hc⟩
          cases pre with
          | nil => simp only [List.nil_append, List.cons.injEq] at h; rw [← h.1, hy] at hc; cases hc
          | cons z pre =>
            simp only [List.cons_append, List.cons.injEq] at h
            exact ⟨pre, c, post, h.2, fun d hd => hp d (List.mem_cons_of_mem _ hd), hc⟩

example : (Demo.world fun a => if a = 0 then .tuple [1, 2] else .none).shape 0 = .tuple [1, 2] := rfl

/-- The text of a dict key that is `None`, a bool, a number or a string. -/
inductive ScalarKey (W : World α) (m : InfNanMode) (a : α) : Text → Prop
  | none : W.shape a = .none → ScalarKey W m a "None".toList
  | true : W.shape a = .bool true → ScalarKey W m a "true".toList
  | false : W.shape a = .bool false → ScalarKey W m a "false".toList
  | int {i j s} : W.shape a = .int i ∨ W.shape a = .intSub j → W.str a = .ok s → ScalarKey W m a s.lossy
  | float {f s} : W.shape a = .float f ∨ W.shape a = .floatSub f → m ≠ .null ∨ (∃ n k, f = .fin n k) → W.str a = .ok s →
      ScalarKey W m a s.lossy
  | nan {f} : W.shape a = .float f ∨ W.shape a = .floatSub f → m = .null → (∀ n k, f ≠ .fin n k) →
      ScalarKey W m a "None".toList
  | str {t} : W.shape a = .str (.utf8 t) ∨ W.shape a = .strSub (.utf8 t) → ScalarKey W m a t

/-- C49.  The key that `None`, a bool, a number or a string gives: its own text; `str()` of a number; and for NaN and infinities the
text of `None` if they are to be null. -/
theorem scalar_as_key (W : World α) (x : Extra α) (a : α) (n : Nat) (t : Text)
    (hs : W.shape a = .none ∨ (∃ b, W.shape a = .bool b) ∨ (∃ i, W.shape a = .int i) ∨ (∃ j, W.shape a = .intSub j) ∨
      (∃ f, W.shape a = .float f ∨ W.shape a = .floatSub f) ∨ ∃ s, W.shape a = .str s ∨ W.shape a = .strSub s) :
    inferKeyAt W x (n + 1) a = .ok t ↔ ScalarKey W x.config.infNan a t := by
  have str : toStrJsonKey W a = .ok t ↔ ∃ s, W.str a = .ok s ∧ t = s.lossy := by
    unfold toStrJsonKey
    cases W.str a <;> simp [eq_comm]
  constructor
  · intro h
    rw [inferKeyAt] at h
    rcases hs with hs | ⟨b, hs⟩ | ⟨i, hs⟩ | ⟨j, hs⟩ | ⟨f, hs | hs⟩ | ⟨s, hs | hs⟩ <;> simp only [hs] at h
    · cases h; exact .none hs
    · cases b <;> cases h
      · exact .false hs
      · exact .true hs
    · obtain ⟨s, hw, rfl⟩ := str.1 h; exact .int (j := Option.none) (.inl hs) hw
    · obtain ⟨s, hw, rfl⟩ := str.1 h; exact .int (i := 0) (.inr hs) hw
    · cases f with
      | fin m k => obtain ⟨s, hw, rfl⟩ := str.1 h; exact .float (.inl hs) (.inr ⟨_, _, rfl⟩) hw
      | _ =>
        cases hm : x.config.infNan with
        | null => rw [hm] at h; cases h; exact .nan (.inl hs) rfl nofun
        | _ => rw [hm] at h; obtain ⟨s, hw, rfl⟩ := str.1 h; exact .float (.inl hs) (.inl nofun) hw
    · cases f with
      | fin m k => obtain ⟨s, hw, rfl⟩ := str.1 h; exact .float (.inr hs) (.inr ⟨_, _, rfl⟩) hw
      | _ =>
        cases hm : x.config.infNan with
        | null => rw [hm] at h; cases h; exact .nan (.inr hs) rfl nofun
        | _ => rw [hm] at h; obtain ⟨s, hw, rfl⟩ := str.1 h; exact .float (.inr hs) (.inl nofun) hw
    · cases s with
      | utf8 u => cases h; exact .str (.inl hs)
      | lone u => cases h
    · cases s with
      | utf8 u => cases h; exact .str (.inr hs)
      | lone u => cases h
  · intro h
    rw [inferKeyAt]
    cases h with
    | none h => simp only [h]; rfl
    | true h => simp only [h]; rfl
    | false h => simp only [h]; rfl
    | int h hstr => rcases h with h | h <;> simp only [h] <;> exact str.2 ⟨_, hstr, rfl⟩
    | @float f s h hm hstr =>
      have hc : ¬ ((!f.isFinite && decide (x.config.infNan = .null)) = Bool.true) := by
        rcases hm with hm | ⟨n, k, rfl⟩ <;> simp_all [Float.F64.isFinite]
      rcases h with h | h <;> simp only [h, if_neg hc] <;> exact str.2 ⟨_, hstr, rfl⟩
    | @nan f h hm hf =>
      have hc : (!f.isFinite && decide (x.config.infNan = .null)) = Bool.true := by
        cases f with
        | fin n k => exact absurd rfl (hf n k)
        | _ => simp [hm, Float.F64.isFinite]
      rcases h with h | h <;> simp only [h, if_pos hc] <;> rfl
    | str h => rcases h with h | h <;> simp only [h]

example : ScalarKey (Demo.world fun _ => .float .nan) .null 3 "None".toList := .nan (.inl rfl) rfl nofun

end PC.Infer
