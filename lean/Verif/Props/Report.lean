import Verif.Lemmas.Report
import Verif.Props.JsonText
import Verif.Props.Truncate

/-
C83: the reports of a `ValidationError`.

Full statement: `errors()`, `json()` and `str()` of an error say the same about each of its line errors, `hide_input` hides the
input, and an error that is pickled and unpickled reports the same. It is false (`json_has_url_of_custom`,
`hide_input_only_in_str`, `custom_not_picklable`, `custom_becomes_known`, `big_limit_changes`, `big_limit_not_picklable`,
`title_must_be_text`); the theorems with the suffix `_partial` say where it holds.
-/

namespace PC.Report
open PC.Float (F64)
open PC.Infer (Text)
open PC.JsonText (Doc Fmt)

/-! ### Samples -/

/-- Some environment: doubles are shown as `1.0`, integers below 10^31 have a double, the rest do not. -/
def world : Env where
  str _ := "o".toList
  repr _ := "'héllo'".toList
  qualname _ := some "str".toList
  showFloat _ := "1.0".toList
  toFloat i := if i < 10 ^ 31 then some (.fin 1 0) else none
  otherInt _ := none
  otherFloat _ := none
  otherStr _ := none
  infer
    | .none => .ok .null
    | .str t => .ok (.str t)
    | .int i => .ok (.int i)
    | .float f => .ok (.float f)
    | .other _ => .error "no".toList
  inferDict _ := .ok (.map (some 1) [("gt".toList, .int 3)])
  urlPrefix := "https://e/".toList
  includeUrlEnv := true

def tooSmall : Line := ⟨.known "greater_than".toList [("gt".toList, .number (.int 3))] none, .list [.i 2, .s "a.b"], .int 1⟩
def missing : Line := ⟨.known "missing".toList [] (some [(.str "why".toList, .int 7)]), .empty, .none⟩
def custom : Line := ⟨.custom "mine".toList "at least {n}".toList (some [(.str "n".toList, .int 5)]), .empty, .str "x".toList⟩
def broken : Line := ⟨.custom "mine".toList "at least {n}".toList (some [(.int 1, .int 5)]), .empty, .str "x".toList⟩

def sampleErr : VErr := ⟨[tooSmall, missing, custom], .str "M".toList, .python, false⟩
def knownErr : VErr := ⟨[tooSmall, missing], .str "M".toList, .python, false⟩

/-! ### `errors()` -/

set_option linter.unusedSimpArgs false in
theorem asDict_reports {E : Env} {t : InputType} {u c i : Bool} {l : Line} {d : Details}
    (h : l.asDict E (urlPrefix E u) c t i = .ok d) : Reports E t u c i l d := by
  obtain ⟨e, loc, inp⟩ := l
  cases hm : e.message E t with
  | error x => simp [Line.asDict, hm] at h
  | ok m =>
    simp only [Line.asDict, hm] at h
    injection h with h
    subst h
    cases hp : e.pyDict <;> cases hc : e.isCustom <;> cases u <;> cases c <;> cases i <;>
      exact ⟨by simp [urlPrefix, hp, hc, Details.get], by simp [urlPrefix, hp, hc, Details.get],
        ⟨m, hm, by simp [urlPrefix, hp, hc, Details.get]⟩, by simp [urlPrefix, hp, hc, Details.get],
        by simp [urlPrefix, hp, hc, Details.get], by simp [urlPrefix, hp, hc, Details.get, Error.url],
        by simp [urlPrefix, hp, hc, allKeys], by simp [urlPrefix, hp, hc]⟩

/-- C83. `errors()` has the details of every line error, in order, and nothing else: each key stands for what it says, is
there exactly when asked for (the context only if there is one, the URL only of errors that are not custom), and there are
no further keys. -/
theorem errors_exact {E : Env} {u c i : Bool} {v : VErr} {ds : List Details} (h : v.errors E u c i = .ok ds) :
    List.Forall₂ (Reports E v.inputType u c i) v.lines ds :=
  (errors_go.1 h).imp fun _ _ => asDict_reports

example : ∃ ds, sampleErr.errors world true true true = .ok ds ∧ ds.length = 3 := ⟨_, rfl, rfl⟩

theorem asDict_ok {E : Env} {p : Option Text} {t : InputType} {c i : Bool} {l : Line} :
    (∃ d, l.asDict E p c t i = .ok d) ↔ ∃ m, l.error.message E t = .ok m := by
  unfold Line.asDict
  cases l.error.message E t <;> simp

/-- C83. `errors()` gives a result exactly if the keys of all contexts of custom errors are strings, whatever is asked
for. -/
theorem errors_succeed_iff {E : Env} (u c i : Bool) {v : VErr} (hv : ∀ l ∈ v.lines, l.error.Typed E) :
    (∃ ds, v.errors E u c i = .ok ds) ↔ ∀ l ∈ v.lines, l.error.StrKeys E := by
  simp only [VErr.errors, errors_go]
  have key : ∀ ls : List Line, (∀ l ∈ ls, l.error.Typed E) →
      ((∃ ds, List.Forall₂ (fun l d => l.asDict E (urlPrefix E u) c v.inputType i = .ok d) ls ds) ↔
        ∀ l ∈ ls, l.error.StrKeys E) := by
    intro ls
    induction ls with
    | nil => intro _; simp
    | cons l ls ih =>
      intro hl
      rw [List.forall_mem_cons] at hl ⊢
      rw [← ih hl.2, ← message_ok hl.1 v.inputType, ← asDict_ok (p := urlPrefix E u) (c := c) (i := i)]
      constructor
      · rintro ⟨ds, hd⟩
        obtain ⟨d, ds', h1, h2, rfl⟩ := List.forall₂_cons_left_iff.1 hd
        exact ⟨⟨d, h1⟩, ds', h2⟩
      · rintro ⟨⟨d, h1⟩, ds, h2⟩
        exact ⟨d :: ds, .cons h1 h2⟩
  exact key v.lines hv

theorem sample_typed : ∀ l ∈ sampleErr.lines, l.error.Typed world := by
  intro l hl
  simp only [sampleErr, List.mem_cons, List.not_mem_nil, or_false] at hl
  rcases hl with rfl | rfl | rfl
  · exact ⟨_, rfl, rfl, rfl, trivial⟩
  · exact ⟨_, rfl, trivial⟩
  · trivial

example : ∃ ds, sampleErr.errors world false true false = .ok ds :=
  (errors_succeed_iff _ _ _ sample_typed).2 (by
    intro l hl
    simp only [sampleErr, List.mem_cons, List.not_mem_nil, or_false] at hl
    rcases hl with rfl | rfl | rfl
    · trivial
    · trivial
    · intro p hp; simp at hp; subst hp; rfl)

/-- It fails for a custom context with a key that is not a string, though `str()` shows the error. -/
theorem errors_can_fail : (⟨[broken], .str "M".toList, .python, true⟩ : VErr).errors world true true true = .error (.typeError []) ∧
    (⟨[broken], .str "M".toList, .python, true⟩ : VErr).str world =
      .ok (Trunc.encode "1 validation error for M\n  (error rendering message: TypeError: ) [type=mine]".toList) :=
  ⟨rfl, rfl⟩

theorem asDict_flags (E : Env) (t : InputType) (u c i : Bool) (l : Line) :
    l.asDict E (urlPrefix E u) c t i = (l.asDict E (urlPrefix E true) true t true).map (List.filter (asked u c i)) := by
  obtain ⟨e, loc, inp⟩ := l
  unfold Line.asDict
  dsimp only
  cases hm : e.message E t with
  | error x => rfl
  | ok m =>
    dsimp only [Except.map]
    cases hp : e.pyDict <;> cases hc : e.isCustom <;> cases u <;> cases c <;> cases i <;>
      simp [urlPrefix, asked]

/-- C83. What is asked for only decides which keys are left out. -/
theorem flags_only_remove (E : Env) (u c i : Bool) (v : VErr) :
    v.errors E u c i = (v.errors E true true true).map (List.map (List.filter (asked u c i))) := by
  unfold VErr.errors
  induction v.lines with
  | nil => rfl
  | cons l ls ih =>
    simp only [VErr.errors.go]
    rw [asDict_flags, ih]
    cases l.asDict E (urlPrefix E true) true v.inputType true with
    | error e => rfl
    | ok d => cases VErr.errors.go E true true true v ls <;> rfl

example : (sampleErr.errors world false false false).map (List.map (List.map Prod.fst)) =
    .ok (List.replicate 3 ["type".toList, "loc".toList, "msg".toList]) := rfl

theorem getItem_fields (fields : List (Text × Val)) (k : Obj) :
    getItem (base (fields.map fun p => (p.1, p.2.toPy))) k = (fields.find? fun p => Obj.str p.1 = k).map fun p => p.2.toPy := by
  induction fields with
  | nil => rfl
  | cons p fields ih =>
    simp only [getItem, base, List.map_cons, List.find?_cons] at ih ⊢
    by_cases h : Obj.str p.1 = k
    · simp [h]
    · simp only [h, decide_false]
      exact ih

/-- C83. The context of a known error: there is one unless the error has neither fields nor a context given to it; it has
the fields under their names, and what was given, which goes before the fields. -/
theorem context_of_known {E : Env} {name : Text} {fields : List (Text × Val)} {ctx : Option Dict}
    (h : (Error.known name fields ctx).Typed E) (hc : ((ctx.getD []).map Prod.fst).Nodup) :
    ((Error.known name fields ctx).pyDict = none ↔ fields = [] ∧ ctx = none) ∧
    ∀ d, (Error.known name fields ctx).pyDict = some d → ∀ k, getItem d k =
      (getItem (ctx.getD []) k).or ((fields.find? fun p => Obj.str p.1 = k).map fun p => p.2.toPy) := by
  obtain ⟨kd, hk, hf⟩ := h
  have hn : (fields.map Prod.fst).Nodup := fit_names hf ▸ (lookup_sound hk).nodup
  rw [pyDict_known hn]
  cases ctx with
  | none =>
    dsimp only
    by_cases he : fields = []
    · simp [he]
    · rw [if_neg he]
      refine ⟨by simp [he], fun d hd k => ?_⟩
      obtain rfl := Option.some.inj hd
      rw [getItem_fields]; rfl
  | some c =>
    dsimp only
    refine ⟨by simp, fun d hd k => ?_⟩
    obtain rfl := Option.some.inj hd
    rw [getItem_update c _ hc, getItem_fields]; rfl

example : (Error.known "greater_than".toList [("gt".toList, .number (.int 3))] (some [(.str "gt".toList, .int 4), (.int 1, .none)])).Typed
    world ∧ (Error.known "greater_than".toList [("gt".toList, .number (.int 3))]
      (some [(.str "gt".toList, .int 4), (.int 1, .none)])).pyDict = some [(.str "gt".toList, .int 4), (.int 1, .none)] :=
  ⟨⟨_, rfl, rfl, rfl, trivial⟩, rfl⟩

theorem getItem_delItem (d : Dict) (k k' : Obj) : getItem (delItem d k) k' = if k' = k then none else getItem d k' := by
  induction d with
  | nil => simp [delItem, getItem]
  | cons p d ih =>
    simp only [getItem, delItem, List.filter_cons] at ih ⊢
    by_cases h : p.1 = k
    · simp only [h, ne_eq, not_true, decide_false, Bool.false_eq_true, if_false, ih, List.find?_cons]
      by_cases h' : k' = k
      · simp [h']
      · simp [h', Ne.symm h']
    · simp only [ne_eq, h, not_false_iff, decide_true, if_true, List.find?_cons]
      by_cases h' : p.1 = k'
      · have : k' ≠ k := fun e => h (h'.trans e)
        simp [h', this]
      · simp only [h', decide_false, ih]

theorem getItem_without {a b : Text} (x y : Obj) {c : Dict} (hc : (c.map Prod.fst).Nodup) (k : Obj) :
    getItem (delItem (delItem (update (base [(a, x), (b, y)]) c) (.str a)) (.str b)) k =
      if k = .str a ∨ k = .str b then none else getItem c k := by
  rw [getItem_delItem, getItem_delItem, getItem_update c _ hc]
  by_cases h1 : k = .str b
  · rw [if_pos h1, if_pos (.inr h1)]
  · rw [if_neg h1]
    by_cases h2 : k = .str a
    · rw [if_pos h2, if_pos (.inl h2)]
    · rw [if_neg h2, if_neg (not_or.2 ⟨h2, h1⟩)]
      have : getItem (base [(a, x), (b, y)]) k = none := by
        simp only [getItem, base, List.map_cons, List.map_nil, List.find?_cons, Ne.symm h1, Ne.symm h2, decide_false,
          List.find?_nil, Option.map_none]
      rw [this, Option.or_none]

/-- C83. The context of a custom error is the one given to it, if any, but for entries named `error_type` and
`message_template`. -/
theorem context_of_custom_partial (type template : Text) {ctx : Option Dict} (hc : ((ctx.getD []).map Prod.fst).Nodup) :
    ((Error.custom type template ctx).pyDict = none ↔ ctx = none) ∧
    ∀ d, (Error.custom type template ctx).pyDict = some d → ∀ k, getItem d k =
      if k = .str "error_type".toList ∨ k = .str "message_template".toList then none else getItem (ctx.getD []) k := by
  have hn : (([("error_type".toList, Obj.str type), ("message_template".toList, .str template)] : List (Text × Obj)).map
    Prod.fst).Nodup := by
    have : "error_type".toList ≠ "message_template".toList := by decide
    exact List.nodup_cons.2 ⟨fun h => this (List.mem_singleton.1 h), List.nodup_singleton _⟩
  unfold Error.pyDict
  dsimp only
  rw [contextDict_eq hn]
  cases ctx with
  | none => exact ⟨⟨fun _ => rfl, fun _ => rfl⟩, fun d hd => nomatch hd⟩
  | some c =>
    refine ⟨Iff.intro (fun h => nomatch h) (fun h => nomatch h), fun d hd k => ?_⟩
    obtain rfl := Option.some.inj hd
    exact getItem_without _ _ hc k

example : (Error.custom "mine".toList [] (some [(.str "n".toList, .int 2)])).pyDict = some [(.str "n".toList, .int 2)] := rfl

/-! ### `json()` -/

theorem doc_parts {E : Env} {u c i : Bool} {v : VErr} {d : Doc} (h : v.doc E u c i = .ok d) :
    ∃ xs, d = .seq (some v.lines.length) xs ∧
      List.Forall₂ (fun l x => l.doc E (urlPrefix E u) c v.inputType i = .ok x) v.lines xs := by
  unfold VErr.doc at h
  cases hg : VErr.doc.go E u c i v v.lines with
  | error e => rw [hg] at h; simp [Except.map] at h
  | ok xs =>
    rw [hg] at h
    injection h with h
    exact ⟨xs, h.symm, doc_go.1 hg⟩

theorem locDoc_eq (l : Location) : ∃ n, locDoc l = .seq (some n) (l.toPy.map locItemDoc) ∧ n = l.toPy.length := by
  cases l with
  | empty => exact ⟨0, rfl, rfl⟩
  | list items => exact ⟨items.length, rfl, by simp [Location.toPy]⟩

theorem line_mirrors {E : Env} {t : InputType} {u c i : Bool} {l : Line} {d : Details} {j : Doc}
    (hd : l.asDict E (urlPrefix E u) c t i = .ok d) (hj : l.doc E (urlPrefix E u) c t i = .ok j)
    (hl : u = true → l.error.isCustom = false) : Mirrors E d j := by
  obtain ⟨e, loc, inp⟩ := l
  dsimp only at hl
  unfold Line.doc at hj
  dsimp only at hj
  cases hm : e.message E t with
  | error x => simp [Line.asDict, hm] at hd
  | ok m =>
    have hd' : d = [("type".toList, .text e.typeString), ("loc".toList, .loc loc.toPy), ("msg".toList, .text m)] ++
        (if i then [("input".toList, .obj inp)] else []) ++
        ((if c then e.pyDict else none).elim [] fun x => [("ctx".toList, .dict x)]) ++
        (if u then [("url".toList, .text (e.url E.urlPrefix))] else []) := by
      simp only [Line.asDict, hm] at hd
      injection hd with hd
      subst hd
      cases hp : e.pyDict <;> cases u <;> cases c <;> cases i <;> simp [urlPrefix, hl]
    clear hd
    rw [hm] at hj
    dsimp only at hj
    split at hj
    · simp at hj
    · rename_i inp' hinp
      split at hj
      · simp at hj
      · rename_i ctx' hctx
        injection hj with hj
        subst hd' hj
        refine ⟨_, _, rfl, List.rel_append (List.rel_append (List.rel_append ?_ ?_) ?_) ?_⟩
        · obtain ⟨n, hn, _⟩ := locDoc_eq loc
          exact .cons ⟨rfl, rfl⟩ (.cons ⟨rfl, _, hn⟩ (.cons ⟨rfl, rfl⟩ .nil))
        · cases i with
          | false => injection hinp with hinp; subst hinp; exact .nil
          | true =>
            cases hx : E.infer inp with
            | error x => rw [hx] at hinp; simp [Except.map] at hinp
            | ok x => rw [hx] at hinp; injection hinp with hinp; subst hinp; exact .cons ⟨rfl, hx⟩ .nil
        · split at hctx
          · rename_i cd hcd
            rw [hcd]
            cases hx : E.inferDict cd with
            | error x => rw [hx] at hctx; simp [Except.map] at hctx
            | ok x => rw [hx] at hctx; injection hctx with hctx; subst hctx; exact .cons ⟨rfl, hx⟩ .nil
          · rename_i hcd
            rw [hcd]; injection hctx with hctx; subst hctx; exact .nil
        · cases u with
          | false => exact .nil
          | true => exact .cons ⟨rfl, rfl⟩ .nil

/-- C83. `json()` shows what `errors()` shows: for every line error an object with the same keys in the same order and the
same values.

Missing: URLs of custom errors, see `json_has_url_of_custom`. -/
theorem json_mirrors_errors_partial {E : Env} {u c i : Bool} {v : VErr} {ds : List Details} {d : Doc}
    (hd : v.errors E u c i = .ok ds) (hj : v.doc E u c i = .ok d)
    (hl : u = true → ∀ l ∈ v.lines, l.error.isCustom = false) :
    ∃ n xs, d = .seq n xs ∧ List.Forall₂ (Mirrors E) ds xs := by
  obtain ⟨xs, rfl, hx⟩ := doc_parts hj
  refine ⟨_, xs, rfl, ?_⟩
  have hg := errors_go.1 hd
  clear hj hd
  generalize v.lines = ls at hg hx hl
  induction hg generalizing xs with
  | nil => cases hx; exact .nil
  | cons h1 _ ih =>
    cases hx with
    | cons h2 h3 =>
      exact .cons (line_mirrors h1 h2 fun hu => hl hu _ (by simp)) (ih _ h3 fun hu l hm => hl hu l (List.mem_cons_of_mem _ hm))

example : (∃ ds, knownErr.errors world true true true = .ok ds) ∧ (∃ d, knownErr.doc world true true true = .ok d) ∧
    ∀ l ∈ knownErr.lines, l.error.isCustom = false :=
  ⟨⟨_, rfl⟩, ⟨_, rfl⟩, by simp [knownErr, tooSmall, missing, Error.isCustom]⟩

/-- The JSON text has a URL for a custom error, which `errors()` has not. -/
theorem json_has_url_of_custom :
    (⟨[custom], .str "M".toList, .python, false⟩ : VErr).errors world true false false =
      .ok [[("type".toList, .text "mine".toList), ("loc".toList, .loc []), ("msg".toList, .text "at least 5".toList)]] ∧
    (⟨[custom], .str "M".toList, .python, false⟩ : VErr).json world (fun _ => []) .compact true false false =
      .ok (Trunc.encode
        "[{\"type\":\"mine\",\"loc\":[],\"msg\":\"at least 5\",\"url\":\"https://e/mine\"}]".toList) := by
  constructor
  · rfl
  · rfl

theorem announced_locItems (items : List LocItem) : Doc.AnnouncedAll (items.map locItemDoc) := by
  induction items with
  | nil => trivial
  | cons a items ih => cases a <;> exact ⟨trivial, ih⟩

theorem announcedEntries_append : ∀ a b : List (Text × Doc),
    Doc.AnnouncedEntries (a ++ b) ↔ Doc.AnnouncedEntries a ∧ Doc.AnnouncedEntries b := by
  intro a b
  induction a with
  | nil => simp [Doc.AnnouncedEntries]
  | cons p a ih => obtain ⟨k, d⟩ := p; simp [Doc.AnnouncedEntries, ih, and_assoc]

theorem line_announced {E : Env} (hi : ∀ o d, E.infer o = .ok d → d.Announced) (hc : ∀ o d, E.inferDict o = .ok d → d.Announced)
    {p : Option Text} {t : InputType} {c i : Bool} {l : Line} {j : Doc} (h : l.doc E p c t i = .ok j) : j.Announced := by
  unfold Line.doc at h
  dsimp only at h
  split at h
  · simp at h
  · split at h
    · simp at h
    · rename_i inp hinp
      split at h
      · simp at h
      · rename_i ctx hctx
        injection h with h
        subst h
        refine ⟨fun h0 => by simp at h0, ?_⟩
        have h1 : Doc.AnnouncedEntries inp := by
          split at hinp
          · cases hx : E.infer l.input with
            | error x => rw [hx] at hinp; simp [Except.map] at hinp
            | ok x =>
              rw [hx] at hinp
              injection hinp with hinp
              subst hinp
              exact ⟨hi _ _ hx, trivial⟩
          · injection hinp with hinp
            subst hinp; trivial
        have h2 : Doc.AnnouncedEntries ctx := by
          split at hctx
          · rename_i cd _
            cases hx : E.inferDict cd with
            | error x => rw [hx] at hctx; simp [Except.map] at hctx
            | ok x =>
              rw [hx] at hctx
              injection hctx with hctx
              subst hctx
              exact ⟨hc _ _ hx, trivial⟩
          · injection hctx with hctx
            subst hctx; trivial
        obtain ⟨n, hn, hnl⟩ := locDoc_eq l.location
        have h3 : (locDoc l.location).Announced := by
          rw [hn]
          refine ⟨fun h0 => ?_, announced_locItems _⟩
          have := Option.some.inj h0
          rw [this] at hnl
          rw [List.length_eq_zero_iff.1 hnl.symm]; rfl
        rw [announcedEntries_append, announcedEntries_append, announcedEntries_append]
        refine ⟨⟨⟨⟨trivial, h3, trivial, trivial⟩, h1⟩, h2⟩, ?_⟩
        split
        · exact ⟨trivial, trivial⟩
        · trivial

/-- C83. If inference announces lengths as it should, then the text of `json()` is the layout of the document (C82), with any
indentation; the number of keys announced for a line error, though it may be too high, does no harm. -/
theorem json_text {E : Env} (hi : ∀ o d, E.infer o = .ok d → d.Announced) (hc : ∀ o d, E.inferDict o = .ok d → d.Announced)
    (ryu : F64 → Text) (f : Fmt) {u c i : Bool} {v : VErr} {d : Doc} (h : v.doc E u c i = .ok d) :
    v.json E ryu f u c i = .ok (Trunc.encode (JsonText.layout (JsonText.floatText ryu) f 0 d.value)) := by
  have hd : d.Announced := by
    obtain ⟨xs, rfl, hx⟩ := doc_parts h
    refine ⟨fun h0 => ?_, ?_⟩
    · have h0 := List.length_eq_zero_iff.1 (Option.some.inj h0)
      rw [h0] at hx
      cases hx; rfl
    · clear h
      generalize v.lines = ls at hx
      induction hx with
      | nil => trivial
      | cons h1 _ ih => exact ⟨line_announced hi hc h1, ih⟩
  simp only [VErr.json, h, JsonText.text_exact ryu f hd]

example : (∀ o d, world.infer o = .ok d → d.Announced) ∧ (∀ o d, world.inferDict o = .ok d → d.Announced) ∧
    ∃ d, sampleErr.doc world true true true = .ok d := by
  refine ⟨?_, ?_, _, rfl⟩
  · intro o d h
    cases o <;> first | (injection h with h; subst h; trivial) | exact nomatch h
  · intro o d h
    injection h with h
    subst h
    exact ⟨by simp, trivial, trivial⟩

/-! ### `str()` -/

/-- C83. Where the error is, in `str()`: the items of `loc`, in its order, joined by dots, those that contain a dot in
backquotes, on a line of its own; nothing if `loc` is empty. -/
theorem location_shown {l : Location} (h : l ≠ .list []) :
    locText l = if l.toPy = [] then [] else
      List.intercalate ".".toList (l.toPy.map fun
        | .s t => if '.' ∈ t.toList then "`".toList ++ t.toList ++ "`".toList else t.toList
        | .i n => (toString n).toList) ++ "\n".toList := by
  cases l with
  | empty => rfl
  | list items =>
    have hne : items.reverse ≠ [] := by
      intro e; exact h (by rw [List.reverse_eq_nil_iff.1 e])
    simp only [locText, Location.toPy, hne, if_false]
    have : locItemText = fun
        | .s t => if '.' ∈ t.toList then "`".toList ++ t.toList ++ "`".toList else t.toList
        | .i n => (toString n).toList := by
      funext a
      cases a with
      | i n => rfl
      | s t =>
        simp only [locItemText, List.contains_iff_mem]
        rfl
    rw [this]; rfl

example : locText (.list [.i (-2), .s "a.b", .s "x"]) = "x.`a.b`.-2\n".toList := rfl

theorem pretty_block (E : Env) (v : VErr) (l : Line) :
    ∃ b, l.pretty E v.inputType (urlPrefix E E.includeUrlEnv) v.hideInput = some b ∧ Block E v l b := by
  obtain ⟨out, ho, hlen⟩ := Trunc.error_input_at_most_52_bytes (E.repr l.input)
  have hmsg : ∀ msg, msg = (match l.error.message E v.inputType with
      | .ok m => m
      | .error e => "(error rendering message: ".toList ++ e.text ++ [')']) →
      (l.error.message E v.inputType = .ok msg ∨
        ∃ e, l.error.message E v.inputType = .error e ∧ msg = "(error rendering message: ".toList ++ e.text ++ ")".toList) := by
    rintro msg rfl
    cases l.error.message E v.inputType with
    | ok m => exact .inl rfl
    | error e => exact .inr ⟨e, rfl, rfl⟩
  unfold Line.pretty
  dsimp only
  have htail : (match urlPrefix E E.includeUrlEnv with
      | some p => if l.error.isCustom then [']'] else "]\n    For further information visit ".toList ++ l.error.url p
      | none => [']']) = (if E.includeUrlEnv && !l.error.isCustom
        then "]\n    For further information visit ".toList ++ E.urlPrefix ++ l.error.typeString else "]".toList) := by
    cases E.includeUrlEnv <;> cases l.error.isCustom <;> simp [urlPrefix, Error.url]
  cases hh : v.hideInput with
  | true =>
    refine ⟨_, rfl, _, [], hmsg _ rfl, by simp [hh], ?_⟩
    rw [← htail]; rfl
  | false =>
    simp only [ho, Bool.false_eq_true, if_false]
    refine ⟨_, rfl, _, Trunc.encode ", input_value=".toList ++ out ++
      Trunc.encode ((E.qualname l.input).elim [] fun n => ", input_type=".toList ++ n), hmsg _ rfl, ?_, ?_⟩
    · simp only [hh, Bool.false_eq_true, if_false]
      exact ⟨out, ho, hlen, rfl⟩
    · rw [← htail]
      cases E.qualname l.input <;> rfl

/-- C83. `str()` is a heading with the number of line errors and the title, and after it the block of every line error, in
order, joined by newlines. It never fails if the title is a string, even if messages cannot be made. -/
theorem str_exact {E : Env} {v : VErr} {title : Text} (ht : asText E v.title = some title) :
    ∃ blocks, List.Forall₂ (Block E v) v.lines blocks ∧
      v.str E = .ok (Trunc.encode ((toString v.errorCount).toList ++ " validation error".toList ++
        (if v.errorCount = 1 then "" else "s").toList ++ " for ".toList ++ title ++ "\n".toList) ++
        List.intercalate (Trunc.encode "\n".toList) blocks) := by
  have key : ∀ ls : List Line, ∃ blocks, List.Forall₂ (Block E v) ls blocks ∧
      prettyLines E v.inputType (urlPrefix E E.includeUrlEnv) v.hideInput ls = some blocks := by
    intro ls
    induction ls with
    | nil => exact ⟨[], .nil, rfl⟩
    | cons l ls ih =>
      obtain ⟨bs, h1, h2⟩ := ih
      obtain ⟨b, h3, h4⟩ := pretty_block E v l
      refine ⟨b :: bs, .cons h4 h1, ?_⟩
      simp only [prettyLines] at h2 ⊢
      simp [List.mapM_cons, h3, h2]
  obtain ⟨blocks, h1, h2⟩ := key v.lines
  refine ⟨blocks, h1, ?_⟩
  simp only [VErr.str, h2, ht, VErr.errorCount]
  by_cases h : v.lines.length = 1 <;> simp only [h, if_true, if_false] <;> rfl

set_option maxRecDepth 20000 in
example : asText world sampleErr.title = some "M".toList ∧ (⟨[tooSmall], .str "M".toList, .python, false⟩ : VErr).str
    { world with includeUrlEnv := false } =
    .ok (Trunc.encode "1 validation error for M\n`a.b`.2\n  Input should be greater than 3 [type=greater_than, input_value='héllo', input_type=str]".toList) :=
  ⟨rfl, rfl⟩

/-- No errors at all, which users can make: the plural. -/
example : (⟨[], .str "M".toList, .python, false⟩ : VErr).str world = .ok (Trunc.encode "0 validation errors for M\n".toList) := rfl

/-- A title that is not a string makes `str()` panic. -/
theorem title_must_be_text : (⟨[tooSmall], .int 3, .python, false⟩ : VErr).str world = .error .panic := rfl

/-- C83. The numbers agree: `error_count()`, the length of `errors()`, the length of the list of `json()`. The heading of
`str()` has the same (`str_exact`). -/
theorem counts_agree {E : Env} {u c i : Bool} {v : VErr} :
    (∀ ds, v.errors E u c i = .ok ds → ds.length = v.errorCount) ∧
    (∀ d, v.doc E u c i = .ok d → ∃ xs, d = .seq (some v.errorCount) xs ∧ xs.length = v.errorCount) := by
  refine ⟨fun ds h => (errors_go.1 h).length_eq.symm, fun d h => ?_⟩
  obtain ⟨xs, rfl, hx⟩ := doc_parts h
  exact ⟨xs, rfl, hx.length_eq.symm⟩

example : (∃ ds, sampleErr.errors world true true true = .ok ds) ∧ ∃ d, sampleErr.doc world true true true = .ok d :=
  ⟨⟨_, rfl⟩, ⟨_, rfl⟩⟩

/-- C83. With `hide_input`, `str()` does not depend on the inputs. -/
theorem hidden_input_does_not_show (E : Env) (ls : List Line) (f : Line → Obj) (title : Obj) (t : InputType) :
    (⟨ls.map fun l => ⟨l.error, l.location, f l⟩, title, t, true⟩ : VErr).str E = (⟨ls, title, t, true⟩ : VErr).str E := by
  have key : prettyLines E t (urlPrefix E E.includeUrlEnv) true (ls.map fun l => ⟨l.error, l.location, f l⟩) =
      prettyLines E t (urlPrefix E E.includeUrlEnv) true ls := by
    induction ls with
    | nil => rfl
    | cons l ls ih =>
      simp only [prettyLines] at ih ⊢
      simp only [List.map_cons, List.mapM_cons, ih]
      rfl
  simp only [VErr.str, key, List.length_map]

/-- `errors()` and `json()` show the input all the same. -/
theorem hide_input_only_in_str :
    (⟨[⟨.known "missing".toList [] none, .empty, .str "secret".toList⟩], .str "M".toList, .python, true⟩ : VErr).errors world
      false true true = .ok [[("type".toList, .text "missing".toList), ("loc".toList, .loc []),
        ("msg".toList, .text "Field required".toList), ("input".toList, .obj (.str "secret".toList))]] ∧
    (⟨[⟨.known "missing".toList [] none, .empty, .str "secret".toList⟩], .str "M".toList, .python, true⟩ : VErr).json world
      (fun _ => []) .compact false true true = .ok (Trunc.encode
        "[{\"type\":\"missing\",\"loc\":[],\"msg\":\"Field required\",\"input\":\"secret\"}]".toList) :=
  ⟨rfl, rfl⟩

/-! ### Pickling -/

/-- Errors that report the same: only the context, as it is stored, may differ. -/
structure SameLine (E : Env) (l l' : Line) : Prop where
  type : l'.error.typeString = l.error.typeString
  custom : l'.error.isCustom = l.error.isCustom
  message : ∀ t, l'.error.message E t = l.error.message E t
  pyDict : l'.error.pyDict = l.error.pyDict
  loc : l'.location = l.location
  input : l'.input = l.input

theorem asDict_same {E : Env} {l l' : Line} (h : SameLine E l l') (p : Option Text) (c : Bool) (t : InputType) (i : Bool) :
    l'.asDict E p c t i = l.asDict E p c t i := by
  obtain ⟨e, loc, inp⟩ := l
  obtain ⟨e', loc', inp'⟩ := l'
  obtain ⟨h1, h2, h3, h4, h5, h6⟩ := h
  dsimp only at h1 h2 h3 h4 h5 h6
  subst h5 h6
  unfold Line.asDict
  dsimp only
  rw [h3 t, h4]
  cases e.message E t with
  | error x => rfl
  | ok m =>
    dsimp only
    rw [h1, h2]
    cases p with
    | none => rfl
    | some p => dsimp only [Error.url]; rw [h1]

theorem doc_same {E : Env} {l l' : Line} (h : SameLine E l l') (p : Option Text) (c : Bool) (t : InputType) (i : Bool) :
    l'.doc E p c t i = l.doc E p c t i := by
  obtain ⟨e, loc, inp⟩ := l
  obtain ⟨e', loc', inp'⟩ := l'
  obtain ⟨h1, h2, h3, h4, h5, h6⟩ := h
  dsimp only at h1 h2 h3 h4 h5 h6
  subst h5 h6
  unfold Line.doc
  dsimp only [Error.url]
  rw [h3 t, h4, h1]

theorem pretty_same {E : Env} {l l' : Line} (h : SameLine E l l') (t : InputType) (p : Option Text) (b : Bool) :
    l'.pretty E t p b = l.pretty E t p b := by
  obtain ⟨e, loc, inp⟩ := l
  obtain ⟨e', loc', inp'⟩ := l'
  obtain ⟨h1, h2, h3, h4, h5, h6⟩ := h
  dsimp only at h1 h2 h3 h4 h5 h6
  subst h5 h6
  unfold Line.pretty
  dsimp only [Error.url]
  rw [h3 t, h2, h1]

theorem errors_same {E : Env} {u c i : Bool} {v v' : VErr} (ht : v'.inputType = v.inputType) {ls ls' : List Line}
    (h : List.Forall₂ (SameLine E) ls ls') : VErr.errors.go E u c i v' ls' = VErr.errors.go E u c i v ls := by
  induction h with
  | nil => rfl
  | cons hs _ ih =>
    simp only [VErr.errors.go]
    rw [ht, asDict_same hs, ih]

theorem docs_same {E : Env} {u c i : Bool} {v v' : VErr} (ht : v'.inputType = v.inputType) {ls ls' : List Line}
    (h : List.Forall₂ (SameLine E) ls ls') : VErr.doc.go E u c i v' ls' = VErr.doc.go E u c i v ls := by
  induction h with
  | nil => rfl
  | cons hs _ ih =>
    simp only [VErr.doc.go]
    rw [ht, doc_same hs, ih]

theorem line_again {E : Env} {u : Bool} {t : InputType} {l : Line} (hm : Made E l.error) (hl : l.location ≠ .list []) :
    ∃ d l', l.asDict E (urlPrefix E u) true t true = .ok d ∧ Line.ofDetails E d = .ok l' ∧ SameLine E l l' := by
  obtain ⟨name, fields, ctx, k, he, hk, hf, hn, hp⟩ := made_again hm
  obtain ⟨m, hmsg⟩ := message_known hk hf ctx t
  obtain ⟨d, hd⟩ := (asDict_ok (p := urlPrefix E u) (c := true) (i := true)).2 ⟨m, he ▸ hmsg⟩
  have hr := asDict_reports hd
  refine ⟨d, ⟨.known name fields l.error.pyDict, l.location, l.input⟩, hd, ?_, ?_⟩
  · have hty : d.get "type".toList = some (.text name) := by rw [hr.type, he]; rfl
    have hctx : d.get "ctx".toList = l.error.pyDict.map .dict := hr.ctx
    have hin : d.get "input".toList = some (.obj l.input) := hr.input
    have hloc : Location.ofPy l.location.toPy = l.location := by
      cases hll : l.location with
      | empty => rfl
      | list items =>
        cases items with
        | nil => exact absurd hll hl
        | cons a b => simp [Location.ofPy, Location.toPy]
    unfold Line.ofDetails
    simp only [hty, hctx, hr.loc, hin, hloc]
    cases hpd : l.error.pyDict with
    | none => rw [hpd] at hn; simp [hn]
    | some c => rw [hpd] at hn; simp [hn]
  · exact ⟨by rw [he]; rfl, by rw [he]; rfl, fun t => by rw [he]; rfl, hp, rfl, rfl⟩

/-- C83. An error pickled and unpickled is an error with the same title, input type and `hide_input` that reports the same:
`errors()` and `json()` whatever is asked for, `str()`, and the number of errors. This holds for known errors, made by
validators or by name.

Missing: custom errors (`custom_not_picklable`, `custom_becomes_known`) and limits beyond 64 bits (`big_limit_changes`,
`big_limit_not_picklable`). -/
theorem pickling_keeps_reports_partial {E : Env} {v : VErr} (hm : ∀ l ∈ v.lines, Made E l.error)
    (hl : ∀ l ∈ v.lines, l.location ≠ .list []) :
    ∃ v', repickle E v = .ok v' ∧ v'.title = v.title ∧ v'.inputType = v.inputType ∧ v'.hideInput = v.hideInput ∧
      v'.errorCount = v.errorCount ∧ v'.str E = v.str E ∧
      (∀ u c i, v'.errors E u c i = v.errors E u c i) ∧
      ∀ ryu f u c i, v'.json E ryu f u c i = v.json E ryu f u c i := by
  have key : ∀ ls : List Line, (∀ l ∈ ls, Made E l.error) → (∀ l ∈ ls, l.location ≠ .list []) →
      ∃ ds ls', VErr.errors.go E E.includeUrlEnv true true v ls = .ok ds ∧ fromExceptionData.go E ds = .ok ls' ∧
        List.Forall₂ (SameLine E) ls ls' := by
    intro ls
    induction ls with
    | nil => intro _ _; exact ⟨[], [], rfl, rfl, .nil⟩
    | cons l ls ih =>
      intro h1 h2
      rw [List.forall_mem_cons] at h1 h2
      obtain ⟨ds, ls', i1, i2, i3⟩ := ih h1.2 h2.2
      obtain ⟨d, l', j1, j2, j3⟩ := line_again (u := E.includeUrlEnv) (t := v.inputType) h1.1 h2.1
      refine ⟨d :: ds, l' :: ls', ?_, ?_, .cons j3 i3⟩
      · simp only [VErr.errors.go, j1, i1]
      · simp only [fromExceptionData.go, j2, i2]
  obtain ⟨ds, ls', h1, h2, h3⟩ := key v.lines hm hl
  refine ⟨⟨ls', v.title, v.inputType, v.hideInput⟩, ?_, rfl, rfl, rfl, h3.length_eq.symm, ?_, ?_, ?_⟩
  · simp only [repickle, VErr.errors, h1, fromExceptionData, h2]; rfl
  · have hp : prettyLines E v.inputType (urlPrefix E E.includeUrlEnv) v.hideInput ls' =
        prettyLines E v.inputType (urlPrefix E E.includeUrlEnv) v.hideInput v.lines := by
      clear h1 h2 hm hl
      generalize v.lines = ls at h3
      induction h3 with
      | nil => rfl
      | cons hs _ ih =>
        simp only [prettyLines] at ih ⊢
        simp only [List.mapM_cons, ih, pretty_same hs]
    simp only [VErr.str, hp, h3.length_eq]
  · intro u c i
    exact errors_same (v := v) (v' := ⟨ls', v.title, v.inputType, v.hideInput⟩) rfl h3
  · intro ryu f u c i
    have hp : VErr.doc E u c i ⟨ls', v.title, v.inputType, v.hideInput⟩ = VErr.doc E u c i v := by
      unfold VErr.doc
      dsimp only
      rw [docs_same (v := v) (v' := ⟨ls', v.title, v.inputType, v.hideInput⟩) rfl h3, h3.length_eq]
    simp only [VErr.json, hp]

theorem known_made : ∀ l ∈ knownErr.lines, Made world l.error := by
  intro l hl
  simp only [knownErr, List.mem_cons, List.not_mem_nil, or_false] at hl
  rcases hl with rfl | rfl
  · refine .validator (k := ?_) ?_ ?_ ?_
    rotate_left
    · rfl
    · exact ⟨rfl, rfl, trivial⟩
    · intro p hp; simp at hp; subst hp; trivial
  · exact .byName (name := "missing".toList) (ctx := some [(.str "why".toList, .int 7)]) rfl (by simp)

example : ∃ v', repickle world knownErr = .ok v' ∧ v'.errors world true true true = knownErr.errors world true true true := by
  obtain ⟨v', h, _, _, _, _, _, h2, _⟩ := pickling_keeps_reports_partial known_made
    (by simp [knownErr, tooSmall, missing])
  exact ⟨v', h, h2 _ _ _⟩

/-- A custom error cannot be unpickled. -/
theorem custom_not_picklable : repickle world sampleErr = .error (.keyError "mine".toList) := rfl

/-- A custom error with the name of a known one becomes the known one, with another message. -/
theorem custom_becomes_known :
    ∃ v : VErr, v.lines.map (·.error.message world .python) = [.ok "Give it!".toList] ∧
      (repickle world v).map (fun v' => v'.lines.map (·.error.message world .python)) = .ok [.ok "Field required".toList] :=
  ⟨⟨[⟨.custom "missing".toList "Give it!".toList none, .empty, .none⟩], .str "M".toList, .python, false⟩, rfl, rfl⟩

/-- A limit beyond 64 bits comes back as a double, and the message changes. -/
theorem big_limit_changes :
    ∃ v : VErr, v.lines.map (·.error.message world .python) =
        [.ok "Input should be greater than 1000000000000000000000000000000".toList] ∧
      (repickle world v).map (fun v' => v'.lines.map (·.error.message world .python)) =
        .ok [.ok "Input should be greater than 1.0".toList] :=
  ⟨⟨[⟨.known "greater_than".toList [("gt".toList, .number (.bigInt (10 ^ 30)))] none, .empty, .none⟩], .str "M".toList,
    .python, false⟩, rfl, rfl⟩

/-- A limit too large for a double cannot be unpickled. -/
theorem big_limit_not_picklable :
    ∃ v : VErr, repickle world v = .error (.typeError "gt".toList) :=
  ⟨⟨[⟨.known "greater_than".toList [("gt".toList, .number (.bigInt (10 ^ 100)))] none, .empty, .none⟩], .str "M".toList,
    .python, false⟩, rfl⟩

/-- Entries of a custom context named like the fields of the Rust type are not shown. -/
theorem custom_context_entries_lost :
    (Error.custom "mine".toList "{error_type}".toList (some [(.str "error_type".toList, .int 1), (.str "n".toList, .int 2)])).pyDict =
      some [(.str "n".toList, .int 2)] := rfl

end PC.Report
