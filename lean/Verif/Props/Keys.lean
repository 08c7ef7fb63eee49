import Verif.Lemmas.Keys

/-
C49: keys of JSON objects.
-/

namespace PC.Keys

open PC.Bytes (ReadsUtf8)

/-- The text of a tuple used as key: the texts of its items with commas between. -/
theorem tuple_key_joined (c : Cfg) (ks : List Key) (t : List Char) :
    inferKey c (.tuple ks) = .ok t ↔
      ∃ ts : List (List Char), ks.map (inferKey c) = ts.map .ok ∧ t = [','].intercalate ts := by
  have tail : ∀ (ks : List Key) (r : List Char), tailText c ks = .ok r ↔
      ∃ ts : List (List Char), ks.map (inferKey c) = ts.map .ok ∧ r = ts.flatMap (',' :: ·) := by
    intro ks
    induction ks with
    | nil =>
      intro r
      constructor
      · intro h; cases h; exact ⟨[], rfl, rfl⟩
      · rintro ⟨ts, h, rfl⟩
        cases ts with
        | nil => rfl
        | cons _ _ => cases h
    | cons k ks ih =>
      intro r
      rw [tailText]
      constructor
      · intro h
        cases e : inferKey c k with
        | error _ => rw [e] at h; cases h
        | ok a =>
          rw [e] at h
          dsimp only at h
          cases e2 : tailText c ks with
          | error _ => rw [e2] at h; cases h
          | ok q =>
            rw [e2] at h
            cases h
            obtain ⟨ts, h1, rfl⟩ := (ih q).1 e2
            exact ⟨a :: ts, by rw [List.map_cons, e, h1]; rfl, rfl⟩
      · rintro ⟨ts, h, rfl⟩
        cases ts with
        | nil => cases h
        | cons a ts =>
          rw [List.map_cons, List.map_cons] at h
          injection h with h1 h2
          rw [h1, (ih _).2 ⟨ts, h2, rfl⟩]; rfl
  have join : ∀ (a : List Char) (ts : List (List Char)),
      [','].intercalate (a :: ts) = a ++ ts.flatMap (',' :: ·) := by
    intro a ts
    induction ts generalizing a with
    | nil => simp [List.intercalate]
    | cons b ts ih =>
      have := ih b
      simp only [List.intercalate, List.intersperse, List.flatten, List.flatMap_cons] at this ⊢
      rw [this]; simp
  cases ks with
  | nil =>
    rw [infer_tuple_nil]
    constructor
    · intro h; cases h; exact ⟨[], rfl, rfl⟩
    · rintro ⟨ts, h, rfl⟩
      cases ts with
      | nil => rfl
      | cons _ _ => cases h
  | cons k ks =>
    rw [infer_tuple_cons]
    constructor
    · intro h
      cases e : inferKey c k with
      | error _ => rw [e] at h; cases h
      | ok a =>
        rw [e] at h
        dsimp only at h
        cases e2 : tailText c ks with
        | error _ => rw [e2] at h; cases h
        | ok q =>
          rw [e2] at h
          cases h
          obtain ⟨ts, h1, rfl⟩ := (tail ks q).1 e2
          exact ⟨a :: ts, by rw [List.map_cons, e, h1]; rfl, (join a ts).symm⟩
    · rintro ⟨ts, h, rfl⟩
      cases ts with
      | nil => cases h
      | cons a ts =>
        rw [List.map_cons, List.map_cons] at h
        injection h with h1 h2
        rw [h1, (tail ks _).2 ⟨ts, h2, rfl⟩, join]

/-- **C49**, for keys of the same kind whose parts, in case of tuples, contain no comma: distinct keys have
distinct texts. The conditions cannot be dropped, see below. -/
theorem json_keys_distinct_partial (c : Cfg) (hu : ReadsUtf8 c.fromUtf8) (k k' : Key)
    (hk : sameKind c.infNanNull k k' = true) (hc : PartsCommaFree c k) (hc' : PartsCommaFree c k')
    (hne : k ≠ k') (t t' : List Char) (h : inferKey c k = .ok t) (h' : inferKey c k' = .ok t') : t ≠ t' := by
  intro e; subst e
  exact hne (key_inj c hu k k' t hk hc hc' h h')

/-- **C49**: a dict with keys of the same kind (and no commas in the parts of tuples) loses no entry: both
outputs have, in order, one entry for each item that the filter keeps. -/
theorem dict_entries_kept_partial {V N O : Type} (c : Cfg) (hu : ReadsUtf8 c.fromUtf8)
    (flt : Key → Except KeyErr (Option N)) (ser : V → N → Except KeyErr O) (d : List (Key × V))
    (hd : (d.map Prod.fst).Nodup) (hk : ∀ p ∈ d, ∀ q ∈ d, p.1 ≠ q.1 → sameKind c.infNanNull p.1 q.1 = true)
    (hc : ∀ p ∈ d, PartsCommaFree c p.1) (doc : List (List Char × O))
    (h : dictJson flt (inferKey c) ser d = .ok doc) :
    dictPython flt (inferKey c) ser d [] = .ok doc ∧ (doc.map Prod.fst).Nodup ∧
    doc.map some = (d.filter (fun p => (flt p.1).toOption.join.isSome)).map (fun p =>
      match flt p.1, inferKey c p.1 with
      | .ok (some n), .ok t => (ser p.2 n).toOption.map (t, ·)
      | _, _ => none) := by
  have key : ∀ (d : List (Key × V)), (d.map Prod.fst).Nodup →
      (∀ p ∈ d, ∀ q ∈ d, p.1 ≠ q.1 → sameKind c.infNanNull p.1 q.1 = true) → (∀ p ∈ d, PartsCommaFree c p.1) →
      ∀ doc, dictJson flt (inferKey c) ser d = .ok doc →
        (doc.map Prod.fst).Nodup ∧ (∀ t ∈ doc.map Prod.fst, ∃ p ∈ d, inferKey c p.1 = .ok t) ∧
        doc.map some = (d.filter (fun p => (flt p.1).toOption.join.isSome)).map (fun p =>
          match flt p.1, inferKey c p.1 with
          | .ok (some n), .ok t => (ser p.2 n).toOption.map (t, ·)
          | _, _ => none) := by
    intro d
    induction d with
    | nil => intro _ _ _ doc h; cases h; exact ⟨List.nodup_nil, by simp, rfl⟩
    | cons p d ih =>
      intro hd hk hc doc h
      obtain ⟨k, v⟩ := p
      rw [List.map_cons, List.nodup_cons] at hd
      have ih' := ih hd.2 (fun p hp q hq => hk p (.tail _ hp) q (.tail _ hq)) (fun p hp => hc p (.tail _ hp))
      rw [dictJson] at h
      cases hf : flt k with
      | error e => rw [hf] at h; cases h
      | ok o =>
        rw [hf] at h
        cases o with
        | none =>
          obtain ⟨a1, a2, a3⟩ := ih' doc h
          refine ⟨a1, fun t ht => ?_, ?_⟩
          · obtain ⟨p, hp, e⟩ := a2 t ht; exact ⟨p, .tail _ hp, e⟩
          · rw [List.filter_cons, if_neg (by simp [hf, Except.toOption])]; exact a3
        | some n =>
          dsimp only at h
          cases ht : inferKey c k with
          | error e => rw [ht] at h; cases h
          | ok t =>
            rw [ht] at h
            dsimp only at h
            cases ho : ser v n with
            | error e => rw [ho] at h; cases h
            | ok o =>
              rw [ho] at h
              dsimp only at h
              cases hr : dictJson flt (inferKey c) ser d with
              | error e => rw [hr] at h; cases h
              | ok rest =>
                rw [hr] at h
                cases h
                obtain ⟨a1, a2, a3⟩ := ih' rest hr
                refine ⟨?_, ?_, ?_⟩
                · rw [List.map_cons, List.nodup_cons]
                  refine ⟨fun hm => ?_, a1⟩
                  obtain ⟨q, hq, e⟩ := a2 t hm
                  have hne : k ≠ q.1 := fun e => hd.1 (List.mem_map.2 ⟨q, hq, e.symm⟩)
                  exact json_keys_distinct_partial c hu k q.1
                    (hk (k, v) (.head _) q (.tail _ hq) hne) (hc (k, v) (.head _)) (hc q (.tail _ hq)) hne t t ht e rfl
                · intro s hs
                  rw [List.map_cons, List.mem_cons] at hs
                  rcases hs with rfl | hs
                  · exact ⟨(k, v), .head _, ht⟩
                  · obtain ⟨p, hp, e⟩ := a2 s hs; exact ⟨p, .tail _ hp, e⟩
                · rw [List.filter_cons, if_pos (by simp [hf, Except.toOption]), List.map_cons, List.map_cons, a3]
                  simp [hf, ht, ho, Except.toOption]
  obtain ⟨a1, -, a3⟩ := key d hd hk hc doc h
  refine ⟨?_, a1, a3⟩
  rw [dictPython_writes, h]
  dsimp only
  rw [writeAll_append _ _ a1]; rfl

/-- Without any condition, for any serialiser of keys: the document has one entry per item kept, the Python
dict has the value of the last of them for each text, and no other entries. -/
theorem dict_last_wins {V N O E : Type} (flt : Key → Except E (Option N)) (jsonKey : Key → Except E (List Char))
    (ser : V → N → Except E O) (d : List (Key × V)) (doc : List (List Char × O))
    (h : dictJson flt jsonKey ser d = .ok doc) :
    ∃ out, dictPython flt jsonKey ser d [] = .ok out ∧ ∀ t, out.lookup t = doc.reverse.lookup t := by
  refine ⟨writeAll doc [], ?_, fun t => ?_⟩
  · rw [dictPython_writes, h]
  · rw [writeAll_lookup]; simp

/-- Both outputs fail alike. -/
theorem dict_fails_alike {V N O E : Type} (flt : Key → Except E (Option N)) (jsonKey : Key → Except E (List Char))
    (ser : V → N → Except E O) (d : List (Key × V)) (e : E) :
    dictJson flt jsonKey ser d = .error e ↔ dictPython flt jsonKey ser d [] = .error e := by
  rw [dictPython_writes]
  cases dictJson flt jsonKey ser d with
  | error e' => exact ⟨fun h => (by cases h; rfl), fun h => (by cases h; rfl)⟩
  | ok doc => exact ⟨fun h => (by cases h), fun h => (by cases h)⟩

/-- A configuration for the examples; bytes that are no ASCII text are not needed. -/
def plainCfg (nullFloats : Bool) : Cfg := ⟨nullFloats, .hex, fun b => b.toByteArray.utf8Decode?.map Array.toList⟩

/-- `C49` fails: tuples of the same length whose parts contain commas. -/
theorem comma_collision :
    inferKey (plainCfg false) (.tuple [.str "a,b".toList, .str "c".toList]) =
    inferKey (plainCfg false) (.tuple [.str "a".toList, .str "b,c".toList]) := by
  simp [inferKey, inferKeys, KeyBuilder.new, KeyBuilder.push]

/-- Tuples without commas in the parts, but of different shapes. -/
theorem shape_collision :
    inferKey (plainCfg false) (.tuple [.tuple [.int 1, .int 2], .int 3]) =
    inferKey (plainCfg false) (.tuple [.int 1, .tuple [.int 2, .int 3]]) := by
  decide

/-- The empty tuple and the tuple of an empty string. -/
theorem empty_collision :
    inferKey (plainCfg false) (.tuple []) = inferKey (plainCfg false) (.tuple [.str []]) := by
  decide

/-- Keys of different types. -/
theorem type_collision :
    inferKey (plainCfg false) (.int 1) = inferKey (plainCfg false) (.str "1".toList) ∧
    inferKey (plainCfg false) .none = inferKey (plainCfg false) (.str "None".toList) ∧
    inferKey (plainCfg false) (.bool true) = inferKey (plainCfg false) (.str "true".toList) := by
  decide

/-- Infinities of both signs, when written as null. -/
theorem infinity_collision :
    inferKey (plainCfg true) (.float "inf".toList) = inferKey (plainCfg true) (.float "-inf".toList) := by
  decide

/-- `C49` fails for a dict with tuple keys: of two entries only one is left in the Python output, and the
JSON document repeats the key. -/
theorem entries_merged :
    dictPython (fun _ => .ok (some ())) (inferKey (plainCfg false)) (fun (v : Nat) _ => .ok v)
      [(.tuple [.str "a,b".toList, .str "c".toList], 1), (.tuple [.str "a".toList, .str "b,c".toList], 2)] [] =
      .ok [("a,b,c".toList, 2)] ∧
    dictJson (fun _ => .ok (some ())) (inferKey (plainCfg false)) (fun (v : Nat) _ => .ok v)
      [(.tuple [.str "a,b".toList, .str "c".toList], 1), (.tuple [.str "a".toList, .str "b,c".toList], 2)] =
      .ok [("a,b,c".toList, 1), ("a,b,c".toList, 2)] := by
  constructor <;> rfl

/-- `TupleSerializer::json_key` applies the filter of the schema to the key: with an item excluded, distinct
tuples collide whatever their parts. -/
theorem excluded_item_collision (a b : List Char) :
    tupleJsonKey (⟨[(), ()], none⟩ : SerTuple.TupSer Unit) (fun i => .ok (if i = 1 then none else some ()))
      (fun _ k => inferKey (plainCfg false) k) () false [.int 1, .str a] =
    tupleJsonKey (⟨[(), ()], none⟩ : SerTuple.TupSer Unit) (fun i => .ok (if i = 1 then none else some ()))
      (fun _ k => inferKey (plainCfg false) k) () false [.int 1, .str b] := by
  rfl

/-! Cases that meet the hypotheses. -/

example : ReadsUtf8 (plainCfg false).fromUtf8 := Bytes.readsUtf8_lean

example : sameKind false (.tuple [.int 1, .tuple [.str "x".toList, .none]])
    (.tuple [.int 2, .tuple [.str "y".toList, .none]]) = true := by decide

example : PartsCommaFree (plainCfg false) (.tuple [.int 1, .str "x".toList]) := by
  refine ⟨?_, ?_, trivial⟩
  · intro t h; cases h; decide
  · intro t h; cases h; decide

example : dictJson (fun _ => .ok (some ())) (inferKey (plainCfg false)) (fun (v : Nat) _ => .ok v)
    [(.tuple [.int 1, .bool true], 1), (.tuple [.int (-12), .bool true], 2)] =
      .ok [("1,true".toList, 1), ("-12,true".toList, 2)] := by rfl

end PC.Keys
