import Verif.Spec.RoundTrip
import Verif.Lemmas.EngineFix

/-
Documents through serialisers, and back through validators.
-/

namespace PC.Trip
open PC.Infer (Json Text Opts)
open PC.Fields (Dict ExtraBehavior Instance Field FAcc XAcc TAcc ModelFields TypedDict DictView)
open PC.Lookup (LookupKey KeyCollection LookupPath)
open PC.Coll PC.Engine

variable {α : Type}

/-! ### To the document -/

theorem lookup_names : ∀ {fs : CoreFields α} {t : Text} {x}, fs.ser.lookup t = some x → ∃ n ∈ fs.names, n.toList = t
  | .cons name keys r dflt alias sba s rest, t, x, h => by
    simp only [CoreFields.ser, Infer.Fields.lookup] at h
    split at h
    · rename_i e
      exact ⟨name, .head _, e⟩
    · obtain ⟨n, h1, h2⟩ := lookup_names h
      exact ⟨n, .tail _ h1, h2⟩

theorem lookup_later {fs rest : CoreFields α} {name : String} {keys : KeyCollection} {r : Bool} {dflt : Option α}
    {alias : Option Text} {sba : Option Bool} {s : Core α} (hn : name ∉ rest.names)
    (hl : ∀ t x, (CoreFields.cons name keys r dflt alias sba s rest).ser.lookup t = some x → fs.ser.lookup t = some x) (t x)
    (ht : rest.ser.lookup t = some x) : fs.ser.lookup t = some x := by
  refine hl t x ?_
  simp only [CoreFields.ser, Infer.Fields.lookup]
  rw [if_neg ?_]
  · exact ht
  · intro e
    obtain ⟨n, h1, h2⟩ := lookup_names ht
    have : n = name := String.toList_inj.mp (h2.trans e.symm)
    exact hn (this ▸ h1)

/-- The fields that are seen by the serialiser. -/
def seenBy (o : Opts) (set : Option (List String)) (name : String) : Bool :=
  match set with
  | none => true
  | some l => !o.excludeUnset || l.contains name

/-- The part of a dict that is seen. -/
def seen (o : Opts) (set : Option (List String)) (d : Dict α) : Dict α := d.filter fun e => seenBy o set e.1

theorem seen_none {o : Opts} (ds : Dict α) : seen o none ds = ds := List.filter_eq_self.mpr (fun _ _ => rfl)

section
variable {T : Setting α} {o : Opts}

theorem extras_writes (hT : Sees T) : ∀ {fs : CoreFields α} {xs : Dict α} {es : List (Text × Json)} {n : Nat},
    DataExtras T o fs xs es n → Infer.WritesExtras T.S o (keyed T xs) es n
  | _, _, _, _, .nil => .nil
  | _, _, _, _, .cons (name := name) (d := d) (v := v) hf hv h hd hs => by
    refine .extra ?_ (hT.str name) h (extras_writes hT hs)
    by_cases hx : o.excludeNone = true
    · right
      intro hn
      refine hv hx ?_
      cases d with
      | null => rfl
      | bool b => rw [Infer.Json.isOf, hn] at h; cases h
      | int b => rw [Infer.Json.isOf, hn] at h; cases h
      | float b => rw [Infer.Json.isOf, hn] at h; cases h.1
      | str b => rw [Infer.Json.isOf, hn] at h; cases h
      | arr b => obtain ⟨_, h, _⟩ := h; rw [hn] at h; rcases h with h | h <;> cases h
      | obj b => obtain ⟨_, h, _⟩ := h; rw [hn] at h; cases h
    · left; simpa using hx
termination_by structural _ _ _ _ h => h

variable {fl : Flags}

/-- The serialisers of items. -/
def CoreItems.sers : CoreItems α → List (Infer.Schema α)
  | .nil => []
  | .cons s rest => s.ser :: rest.sers

theorem items_length : ∀ (c : CoreItems α), c.sers.length = c.length
  | .nil => rfl
  | .cons _ rest => by simp only [CoreItems.sers, CoreItems.length, List.length_cons, items_length rest]

theorem items_ser : ∀ (c : CoreItems α) (more : Infer.Items α), (c.ser more).toList = c.sers ++ more.toList
  | .nil, more => by simp only [CoreItems.ser, CoreItems.sers, List.nil_append]
  | .cons _ rest, more => by
    simp only [CoreItems.ser, CoreItems.sers, Infer.Items.toList, List.cons_append, items_ser rest more]

theorem items_nil : (Infer.Items.nil : Infer.Items α).toList = [] := rfl

theorem dataEach_length : ∀ {c : CoreItems α} {xs : List α} {ds : List Json} {n : Nat}, DataEach T o c xs ds n →
    c.length = xs.length
  | _, _, _, _, .nil => rfl
  | _, _, _, _, .cons _ hs => by simp only [CoreItems.length, List.length_cons, dataEach_length hs]
termination_by structural _ _ _ _ h => h

theorem writesEach_append {E : Infer.Env α} : ∀ {ss ss' : List (Infer.Schema α)} {xs xs' : List α} {ds ds' : List Json}
    {n n' : Nat}, Infer.WritesEach E o ss xs ds n → Infer.WritesEach E o ss' xs' ds' n' →
    Infer.WritesEach E o (ss ++ ss') (xs ++ xs') (ds ++ ds') (max n n')
  | _, _, _, _, _, _, _, n', .nil, h' => by simpa using h'
  | _, _, _, _, _, _, _, _, .cons h hs, h' => by
    rw [Nat.max_assoc]
    exact .cons h (writesEach_append hs h')
termination_by structural _ _ _ _ _ _ _ _ h => h

theorem writesEach_all {E : Infer.Env α} : ∀ {s : Infer.Schema α} {xs : List α} {ds : List Json} {n : Nat},
    Infer.WritesAll E o s xs ds n → Infer.WritesEach E o (List.replicate xs.length s) xs ds n
  | _, _, _, _, .nil => .nil
  | _, _, _, _, .cons h hs => .cons h (writesEach_all hs)
termination_by structural _ _ _ _ h => h

mutual
/-- The document of a value is what should be written. -/
theorem data_writes (hT : Sees T) (hd : T.Shared) (hok : ∀ d, (T.defs d).Ok T fl o) : ∀ {c : Core α} {a : α} {d : Json}
    {n : Nat}, c.Ok T fl o → Data T o c a d n → Infer.Writes T.S o c.ser a d n
  | _, _, _, _, _, .any h _ => .any h
  | _, _, _, _, _, .leaf _ hw => hw
  | _, _, _, _, _, .null h => .null h
  | _, _, _, _, hc, .nullable h _ hs => .nullable h (data_writes hT hd hok (by simpa only [Core.Ok] using hc) hs)
  | _, _, _, _, hc, .list h hs _ _ => .list h (dataAll_writes hT hd hok (by simpa only [Core.Ok] using hc) hs)
  | _, _, _, _, hc, .dict h hs _ _ _ =>
    .dict h (dataDict_writes hT hd hok (by simp only [Core.Ok] at hc; exact hc.2) hs)
  | .typedDict cfg fs, a, .obj es, n, hc, .typedDict h hx hs => by
    simp only [Core.Ok] at hc
    have := dataFields_writes hT hd hok fs _ _ hc.1 hc.2 (fun _ _ h => h) hs
    rw [seen_none] at this
    exact .fields h this
  | .model name cfg fs, _, .obj es, _, hc, .model h hx hi hs => by
    simp only [Core.Ok] at hc
    obtain ⟨b, h1, h2⟩ := hT.inner _ _ _ o.excludeUnset h
    simp only [hi, Option.isSome_none, Bool.false_eq_true, if_false, Option.map_none] at h1 h2
    have := dataFields_writes hT hd hok fs _ _ hc.1 hc.2 (fun _ _ h => h) hs
    simp only [Core.ser, hx, decide_false, if_false]
    exact .model (hT.allow _ _ _ h).1 h1 (.fields h2 this)
  | .model name cfg fs, _, .obj _, _, hc, .modelExtra h hx hi hs he _ => by
    simp only [Core.Ok] at hc
    obtain ⟨b, h1, h2⟩ := hT.inner _ _ _ o.excludeUnset h
    simp only [hi, Option.isSome_some, if_true, Option.map_some] at h1 h2
    have := dataFields_writes hT hd hok fs _ _ hc.1 hc.2 (fun _ _ h => h) hs
    simp only [Core.ser, hx, decide_true, if_true]
    exact .model (hT.allow _ _ _ h).1 h1 (.fieldsExtra h2 this (extras_writes hT he))
  | _, _, _, _, hc, .rootModel h hi hs =>
    .root (hT.root _ _ _ _ h hi) (data_writes hT hd hok (by simpa only [Core.Ok] using hc) hs)
  | .ref r, _, _, _, _, .ref hr h => by
    refine .ref hr ?_
    rw [hd.ser]
    exact data_writes hT hd hok (hok r) h
  | .tuple _ _ _ _ _ items, _, .arr _, _, hc, .tuple h hs _ _ => by
    simp only [Core.Ok] at hc
    refine .tuple h ?_
    rw [items_ser, ← dataEach_length hs, items_nil, List.append_nil, List.take_of_length_le (Nat.le_of_eq (items_length _))]
    exact dataEach_writes hT hd hok hc hs
  | .tupleVar _ _ _ _ _ first item last, _, .arr _, _, hc, .tupleVar (ys := ys) h h1 h2 h3 _ _ => by
    simp only [Core.Ok] at hc
    refine .variadic (k := ys.length) h (items_length first).symm (items_ser ..) ?_
    rw [items_ser, items_nil, List.append_nil]
    exact writesEach_append (dataEach_writes hT hd hok hc.1 h1)
      (writesEach_append (writesEach_all (dataAll_writes hT hd hok hc.2.1 h2)) (dataEach_writes hT hd hok hc.2.2 h3))
termination_by structural _ _ _ _ _ h => h
theorem dataEach_writes (hT : Sees T) (hd : T.Shared) (hok : ∀ d, (T.defs d).Ok T fl o) : ∀ {c : CoreItems α} {xs : List α}
    {ds : List Json} {n : Nat}, c.Ok T fl o → DataEach T o c xs ds n → Infer.WritesEach T.S o c.sers xs ds n
  | _, _, _, _, _, .nil => .nil
  | .cons _ _, _, _, _, hc, .cons h hs => by
    simp only [CoreItems.Ok] at hc
    exact .cons (data_writes hT hd hok hc.1 h) (dataEach_writes hT hd hok hc.2 hs)
termination_by structural _ _ _ _ _ h => h
theorem dataAll_writes (hT : Sees T) (hd : T.Shared) (hok : ∀ d, (T.defs d).Ok T fl o) : ∀ {c : Core α} {xs : List α}
    {ds : List Json} {n : Nat}, c.Ok T fl o → DataAll T o c xs ds n → Infer.WritesAll T.S o c.ser xs ds n
  | _, _, _, _, _, .nil => .nil
  | _, _, _, _, hc, .cons h hs => .cons (data_writes hT hd hok hc h) (dataAll_writes hT hd hok hc hs)
termination_by structural _ _ _ _ _ h => h
theorem dataDict_writes (hT : Sees T) (hd : T.Shared) (hok : ∀ d, (T.defs d).Ok T fl o) : ∀ {kv : Engine.Leaf α}
    {ks : Infer.Leaf} {c : Core α} {kvs : List (α × α)} {es : List (Text × Json)} {n : Nat}, c.Ok T fl o →
    DataDict T o kv ks c kvs es n → Infer.WritesDict T.S o (.leaf ks) c.ser kvs es n
  | _, _, _, _, _, _, _, .nil => .nil
  | _, _, _, _, _, _, hc, .cons _ ht h hs => .cons ht (data_writes hT hd hok hc h) (dataDict_writes hT hd hok hc hs)
termination_by structural _ _ _ _ _ _ _ h => h
theorem dataFields_writes (hT : Sees T) (hd : T.Shared) (hok : ∀ d, (T.defs d).Ok T fl o) (fs : CoreFields α) (ba bn : Bool) :
    ∀ {total : Bool} {set : Option (List String)} {rest : CoreFields α} {ds : Dict α} {es : List (Text × Json)} {n : Nat},
    rest.KeysOk o ba bn → rest.Ok T fl o → (∀ t x, rest.ser.lookup t = some x → fs.ser.lookup t = some x) →
    DataFields T o total set rest ds es n → Infer.WritesFields T.S o fs.ser (keyed T (seen o set ds)) es n
  | _, _, _, _, _, _, _, _, _, .nil => .nil
  | total, set, .cons name keys r dflt alias sba s rest, (_, v) :: ds, _ :: es, _, hk, hc, hl, .written hlo hd' h hs => by
      simp only [CoreFields.KeysOk, CoreFields.Ok] at hk hc
      have hin : seen o set ((name, v) :: ds) = (name, v) :: seen o set ds := by
        refine List.filter_cons_of_pos ?_
        cases set with
        | none => rfl
        | some l =>
          by_cases hu : o.excludeUnset = true
          · have : name ∈ l := Classical.byContradiction fun hn => hlo (.inl ⟨hu, l, rfl, hn⟩)
            simp [seenBy, this]
          · simp [seenBy, hu]
      rw [hin]
      refine .field (t := name.toList) ?_ (hT.str name) (hl _ _ ?_) (data_writes hT hd hok hc.1 h)
        (dataFields_writes hT hd hok fs ba bn hk.2.2 hc.2 (lookup_later hk.1 hl) hs)
      · by_cases hx : o.excludeNone = true
        · exact .inr fun hn => hlo (.inr ⟨hx, hn⟩)
        · exact .inl (by simpa using hx)
      · simp only [CoreFields.ser, Infer.Fields.lookup, info, if_true]
  | total, set, .cons name keys r dflt alias sba s rest, (_, v) :: ds, es, _, hk, hc, hl, .omitted hlo hd' hs => by
      simp only [CoreFields.KeysOk, CoreFields.Ok] at hk hc
      have ih := dataFields_writes hT hd hok fs ba bn hk.2.2 hc.2 (lookup_later hk.1 hl) hs
      by_cases hin : (seenBy o set name) = true
      · rw [show seen o set ((name, v) :: ds) = (name, v) :: seen o set ds from List.filter_cons_of_pos hin]
        rcases hlo with ⟨hu, l, rfl, hn⟩ | ⟨hx, hn⟩
        · simp [seenBy, hu, hn] at hin
        · exact .skipNone hx hn ih
      · rw [show seen o set ((name, v) :: ds) = seen o set ds from List.filter_cons_of_neg hin]
        exact ih
  | _, _, _, _, _, _, hk, hc, hl, .absent hs => by
      simp only [CoreFields.KeysOk, CoreFields.Ok] at hk hc
      exact dataFields_writes hT hd hok fs ba bn hk.2.2 hc.2 (lookup_later hk.1 hl) hs
termination_by structural _ _ _ _ _ _ _ _ _ h => h
end
end

end PC.Trip
