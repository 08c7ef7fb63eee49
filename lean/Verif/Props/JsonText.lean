import Verif.Lemmas.JsonText
import Verif.Props.RoundTrip

/-
C82: JSON text. What `to_json` writes is JSON text, as RFC 8259 defines it, that stands for the document that was
serialised and for no other, however it is indented; without indentation it is a single line.

Full statement: `AllReadBack`. It is false (`nan_is_not_json`, `wrong_length_breaks_text`); the theorems with the suffix
`_partial` say where it holds.
-/

namespace PC.JsonText
open PC.Float (F64)
open PC.Infer (Text Json)
open PC.Trunc (encode encode_append encode_cons)

variable {ryu : F64 → Text} {read : Text → F64}

/-- C82, full statement: every document is written as JSON text standing for it. -/
def AllReadBack (ryu : F64 → Text) (read : Text → F64) : Prop :=
  ∀ f (d : Doc), ∃ s, toJsonBytes ryu f d = some (encode s) ∧ Denotes False read s d.value

/-- The bytes are the UTF-8 of the layout; the writer does not panic. -/
theorem text_exact (ryu : F64 → Text) (f : Fmt) {d : Doc} (hd : d.Announced) :
    toJsonBytes ryu f d = some (encode (layout (floatText ryu) f 0 d.value)) := by
  have ha : At f 0 ⟨0, false, []⟩ := by cases f <;> trivial
  obtain ⟨w, h1, h2, _⟩ := serialize_eq ryu f d hd 0 ⟨0, false, []⟩ ha
  simp only [toJsonBytes, h1, Option.map_some, h2, List.nil_append]

/-- A document with strings to escape, nested and empty collections, and lengths announced or not. -/
def sample : Doc :=
  .map none [("a\"\n".toList, .seq (some 3) [.int (-12), .bool true, .null]), ("é".toList, .seq none []),
    ("b".toList, .map (some 0) []), ("\x01\x7f".toList, .str "\\/".toList)]

theorem sample_announced : sample.Announced := by
  simp [sample, Doc.Announced, Doc.AnnouncedAll, Doc.AnnouncedEntries]

example : toJsonBytes ryu .compact sample =
    some (encode "{\"a\\\"\\n\":[-12,true,null],\"é\":[],\"b\":{},\"\\u0001\x7f\":\"\\\\/\"}".toList) := by
  rw [text_exact _ _ sample_announced]; rfl

example : toJsonBytes ryu (.pretty 2) sample = some (encode
    ("{\n  \"a\\\"\\n\": [\n    -12,\n    true,\n    null\n  ],\n  \"é\": [],\n  \"b\": {},\n  \"\\u0001\x7f\": \"\\\\/\"\n}".toList)) := by
  rw [text_exact _ _ sample_announced]; rfl

/-- The text of a document without NaN and infinities is JSON, stands for the document, and for no other. -/
theorem reads_back_partial (hr : Shortest ryu read) (f : Fmt) {d : Doc} (hd : d.Announced)
    (hf : Doubles (fun x => Lowest x ∧ x.isFinite = true) d.value) :
    ∃ s, toJsonBytes ryu f d = some (encode s) ∧ Denotes False read s d.value ∧
      ∀ (ext : Prop) v, Denotes ext read s v → v = d.value := by
  have h : Denotes False read (layout (floatText ryu) f 0 d.value) d.value := by
    refine ⟨[], _, [], by simp, ws_nil, layout_value hr f d.value ?_ 0, ws_nil⟩
    have e : (fun x => Lowest x ∧ x.isFinite = true) = Good False := by
      funext x; simp [Good]
    rw [← e]; exact hf
  exact ⟨_, text_exact ryu f hd, h, fun ext v hv => denotes_unique hv h⟩

/-- With NaN and infinities the text stands for the document in JSON extended by their names, and for no other. -/
theorem reads_back_extended (hr : Shortest ryu read) (f : Fmt) {d : Doc} (hd : d.Announced)
    (hf : Doubles Lowest d.value) :
    ∃ s, toJsonBytes ryu f d = some (encode s) ∧ Denotes True read s d.value ∧
      ∀ (ext : Prop) v, Denotes ext read s v → v = d.value := by
  have h : Denotes True read (layout (floatText ryu) f 0 d.value) d.value := by
    refine ⟨[], _, [], by simp, ws_nil, layout_value hr f d.value ?_ 0, ws_nil⟩
    have e : Lowest = Good True := by
      funext x; simp [Good]
    rw [← e]; exact hf
  exact ⟨_, text_exact ryu f hd, h, fun ext v hv => denotes_unique hv h⟩

theorem encode_injective {a b : Text} (h : encode a = encode b) : a = b := by
  have h : a.utf8Encode = b.utf8Encode := by
    simp only [List.utf8Encode]; exact congrArg _ h
  have h2 := congrArg ByteArray.utf8Decode? h
  rw [List.utf8Decode?_utf8Encode, List.utf8Decode?_utf8Encode] at h2
  exact congrArg Array.toList (Option.some.inj h2)

/-- Different documents have different texts, whatever the indentation of each. -/
theorem same_text_same_document (hr : Shortest ryu read) {f f' : Fmt} {d d' : Doc} (hd : d.Announced) (hd' : d'.Announced)
    (hf : Doubles Lowest d.value) (hf' : Doubles Lowest d'.value) (h : toJsonBytes ryu f d = toJsonBytes ryu f' d') :
    d.value = d'.value := by
  obtain ⟨s, h1, h2, _⟩ := reads_back_extended hr f hd hf
  obtain ⟨s', h1', _, h3⟩ := reads_back_extended hr f' hd' hf'
  rw [h1, h1'] at h
  rw [← encode_injective (Option.some.inj h)] at h3
  exact h3 True _ h2

/-- Indentation changes the text but not what it stands for, for any reader. -/
theorem indentation_keeps_document (hr : Shortest ryu read) (f f' : Fmt) {d : Doc} (hd : d.Announced)
    (hf : Doubles Lowest d.value) :
    ∃ s s', toJsonBytes ryu f d = some (encode s) ∧ toJsonBytes ryu f' d = some (encode s') ∧
      ∀ v, Denotes True read s v ↔ Denotes True read s' v := by
  obtain ⟨s, h1, h2, h3⟩ := reads_back_extended hr f hd hf
  obtain ⟨s', h1', h2', h3'⟩ := reads_back_extended hr f' hd hf
  exact ⟨s, s', h1, h1', fun v => ⟨fun h => h3 _ v h ▸ h2', fun h => h3' _ v h ▸ h2⟩⟩

/-- Announced lengths that are not wrongly zero do not show. -/
theorem announcement_does_not_show (ryu : F64 → Text) (f : Fmt) {d d' : Doc} (hd : d.Announced) (hd' : d'.Announced)
    (h : d.value = d'.value) : toJsonBytes ryu f d = toJsonBytes ryu f d' := by
  rw [text_exact _ _ hd, text_exact _ _ hd', h]

example : toJsonBytes ryu .compact (.seq (some 5) [.null]) = toJsonBytes ryu .compact (.seq none [.null]) :=
  announcement_does_not_show ryu _ (by simp [Doc.Announced, Doc.AnnouncedAll]) (by simp [Doc.Announced, Doc.AnnouncedAll]) rfl

/-- Without indentation no byte is a control character: the text is a single line. -/
theorem compact_is_one_line (hr : ∀ f, f.isFinite = true → FloatText (ryu f)) {d : Doc} (hd : d.Announced) :
    ∃ bs, toJsonBytes ryu .compact d = some bs ∧ ∀ b ∈ bs, 0x20 ≤ b.toNat := by
  refine ⟨_, text_exact ryu .compact hd, fun b hb => ?_⟩
  obtain ⟨c, hc, hb⟩ := List.mem_flatMap.1 hb
  have nanText : ∀ c ∈ "NaN".toList, 0x20 ≤ c.toNat := by decide
  have infText : ∀ c ∈ "Infinity".toList, 0x20 ≤ c.toNat := by decide
  have negInfText : ∀ c ∈ "-Infinity".toList, 0x20 ≤ c.toNat := by decide
  have h : ∀ f, ∀ c ∈ floatText ryu f, 0x20 ≤ c.toNat := by
    intro f
    cases f with
    | nan => exact nanText
    | posInf => exact infText
    | negInf => exact negInfText
    | fin n k => exact fun c hc => isNum_visible ((float_facts (hr _ rfl)).1 c hc)
  have := layout_visible h d.value 0 c hc
  by_cases hlt : c.toNat < 128
  · rw [encode_ascii hlt, List.mem_singleton] at hb
    rw [hb, UInt8.toNat_ofNat']; omega
  · have := encode_high (by omega) b hb
    omega

/-! ### The assumption on doubles can be met -/

/-- A decimal form of `n / 2 ^ k`: `n * 5 ^ k` times `10 ^ -k`. -/
def exactText : F64 → Text
  | .fin n k => (toString (n * 5 ^ k)).toList ++ ('.' :: '0' :: 'e' :: '-' :: Nat.toDigits 10 k)
  | _ => []

theorem exactText_float (n : Int) (k : Nat) : FloatText (exactText (.fin n k)) := by
  have hd : ∀ c ∈ Nat.toDigits 10 k, Digit c := (natural_toDigits k).2.1
  have hf : Frac ['.', '0'] := ⟨['0'], rfl, by simp, by simp [Digit]⟩
  have he : Exp ('e' :: '-' :: Nat.toDigits 10 k) :=
    ⟨'e', ['-'], _, rfl, .inl rfl, .inr (.inr rfl), (natural_toDigits k).1, hd⟩
  rcases intText_toString (n * 5 ^ k) with ⟨h, _⟩ | ⟨u, h, hu, _⟩
  · exact ⟨[], _, _, _, by simp [exactText], .inl rfl, h, .inr hf, .inr he, .inl hf⟩
  · exact ⟨['-'], u, _, _, by rw [exactText, h]; simp, .inr rfl, hu, .inr hf, .inr he, .inl hf⟩

theorem exactText_injective {n m : Int} {k l : Nat} (h : exactText (.fin n k) = exactText (.fin m l)) :
    F64.fin n k = F64.fin m l := by
  have nd : ∀ i : Int, ∀ c ∈ (toString i).toList, isFloat c = false := by
    intro i c hc
    have := (int_facts (intText_toString i)).2.1
    rw [List.any_eq_false] at this
    exact Bool.eq_false_iff.2 (this c hc)
  have tw : ∀ (i : Int) (u : Text), ((toString i).toList ++ '.' :: u).takeWhile (fun c => !isFloat c) = (toString i).toList ∧
      ((toString i).toList ++ '.' :: u).dropWhile (fun c => !isFloat c) = '.' :: u := by
    intro i u
    constructor
    · rw [List.takeWhile_append_of_pos fun c hc => by simp [nd i c hc]]; simp [isFloat]
    · rw [List.dropWhile_append_of_pos fun c hc => by simp [nd i c hc]]; simp [isFloat]
  simp only [exactText] at h
  have h1 := congrArg (List.takeWhile fun c => !isFloat c) h
  have h2 := congrArg (List.dropWhile fun c => !isFloat c) h
  rw [(tw _ _).1, (tw _ _).1] at h1
  rw [(tw _ _).2, (tw _ _).2] at h2
  simp only [List.cons.injEq, true_and] at h2
  have hk : k = l := by
    have := congrArg decimal h2
    rwa [decimal_toDigits, decimal_toDigits] at this
  subst hk
  have hi : n * 5 ^ k = m * 5 ^ k := by
    have a := (int_facts (intText_toString (n * 5 ^ k))).2.2.1
    have b := (int_facts (intText_toString (m * 5 ^ k))).2.2.1
    rw [← a, ← b, h1]
  have : n = m := Int.eq_of_mul_eq_mul_right (by positivity) hi
  rw [this]

open Classical in
/-- A reader of these forms. -/
noncomputable def exactRead (s : Text) : F64 :=
  if h : ∃ p : Int × Nat, exactText (.fin p.1 p.2) = s then .fin h.choose.1 h.choose.2 else .nan

theorem exact_shortest : Shortest exactText exactRead := by
  intro f hf _
  cases f with
  | fin n k =>
    refine ⟨exactText_float n k, ?_⟩
    have h : ∃ p : Int × Nat, exactText (.fin p.1 p.2) = exactText (.fin n k) := ⟨(n, k), rfl⟩
    rw [exactRead, dif_pos h]
    exact exactText_injective h.choose_spec
  | nan => simp [Float.F64.isFinite] at hf
  | posInf => simp [Float.F64.isFinite] at hf
  | negInf => simp [Float.F64.isFinite] at hf

/-- A document with doubles. -/
def doubles : Doc := .seq none [.float (.fin 3 1), .float (.fin 0 0), .map (some 1) [("k".toList, .float (.fin (-1) 3))]]

theorem doubles_ok : doubles.Announced ∧ Doubles (fun x => Lowest x ∧ x.isFinite = true) doubles.value := by
  simp [doubles, Doc.Announced, Doc.AnnouncedAll, Doc.AnnouncedEntries, Doc.value, Doc.values, Doc.entryValues, Doubles,
    DoublesAll, DoublesEntries, Lowest, Float.F64.isFinite]

example (f : Fmt) : ∃ s, toJsonBytes exactText f doubles = some (encode s) ∧ Denotes False exactRead s doubles.value :=
  let ⟨s, h1, h2, _⟩ := reads_back_partial exact_shortest f doubles_ok.1 doubles_ok.2
  ⟨s, h1, h2⟩

example (f : Fmt) : ∃ s, toJsonBytes exactText f (.seq none [.float .nan, .float .negInf]) = some (encode s) ∧
    Denotes True exactRead s (.arr [.float .nan, .float .negInf]) :=
  let ⟨s, h1, h2, _⟩ := reads_back_extended (d := .seq none [.float .nan, .float .negInf]) exact_shortest f
    (by simp [Doc.Announced, Doc.AnnouncedAll]) (by simp [Doc.value, Doc.values, Doubles, DoublesAll, Lowest])
  ⟨s, h1, h2⟩

example : toJsonBytes exactText .compact doubles ≠ toJsonBytes exactText (.pretty 4) (.seq none []) := fun h => by
  have := same_text_same_document exact_shortest doubles_ok.1
    (by simp [Doc.Announced, Doc.AnnouncedAll]) (by simp [doubles, Doc.value, Doc.values, Doc.entryValues, Doubles, DoublesAll,
      DoublesEntries, Lowest]) (by simp [Doc.value, Doc.values, Doubles, DoublesAll]) h
  simp [doubles, Doc.value, Doc.values] at this

example : ∃ s s', toJsonBytes exactText .compact doubles = some (encode s) ∧
    toJsonBytes exactText (.pretty 4) doubles = some (encode s') ∧
    ∀ v, Denotes True exactRead s v ↔ Denotes True exactRead s' v :=
  indentation_keeps_document exact_shortest _ _ doubles_ok.1 (by
    simp [doubles, Doc.value, Doc.values, Doc.entryValues, Doubles, DoublesAll, DoublesEntries, Lowest])

example : ∃ bs, toJsonBytes exactText .compact sample = some bs ∧ ∀ b ∈ bs, 0x20 ≤ b.toNat :=
  compact_is_one_line (fun f h => by
    cases f with
    | fin n k => exact exactText_float n k
    | nan => simp [Float.F64.isFinite] at h
    | posInf => simp [Float.F64.isFinite] at h
    | negInf => simp [Float.F64.isFinite] at h) sample_announced

/-! ### Where it fails -/

/-- What denotes is read by the reader of `Lemmas/JsonParse.lean`. -/
theorem denotes_read {ext : Prop} {s : Text} {v : Json} (h : Denotes ext read s v) :
    ∃ n b, (∀ m, n ≤ m → pValue read m (skipWs s) = some (v, b)) ∧ Ws b := by
  obtain ⟨a, t, b, rfl, ha, hv, hb⟩ := h
  obtain ⟨n, hn⟩ := pValue_eq hv
  refine ⟨n, b, fun m hm => ?_, hb⟩
  rw [List.append_assoc, skip_ws ha, skip_value hv]
  refine hn m hm b ?_
  have := numEnd_ws hb (r := []) (by rintro _ ⟨⟩)
  rwa [List.append_nil] at this

/-- NaN is written as `NaN`, which no JSON text is; so are the infinities. -/
theorem nan_is_not_json (ryu : F64 → Text) (read : Text → F64) (f : Fmt) :
    toJsonBytes ryu f (.float .nan) = some (encode "NaN".toList) ∧ ∀ v, ¬ Denotes False read "NaN".toList v := by
  refine ⟨rfl, fun v h => ?_⟩
  obtain ⟨a, t, b, he, ha, hv, hb⟩ := h
  obtain ⟨c, u, rfl, hc, _⟩ := value_head hv
  have h1 : skipWs "NaN".toList = c :: u ++ b := by
    rw [he, List.append_assoc, skip_ws ha, List.cons_append, skip_of_head hc]
  have h2 : skipWs "NaN".toList = "NaN".toList := skip_of_head (by decide)
  rw [h2] at h1
  obtain ⟨rfl, -⟩ : 'N' = c ∧ _ := List.cons.inj h1
  generalize hx : 'N' :: u = x at hv
  cases hv with
  | int h =>
    obtain ⟨_, _, _, d, w, rfl, hn, _⟩ := int_facts h
    cases hx
    exact (numStart_ne hn).2.2.2.1 rfl
  | float h =>
    obtain ⟨_, _, d, w, rfl, hn, _⟩ := float_facts h
    cases hx
    exact (numStart_ne hn).2.2.2.1 rfl
  | str h => obtain ⟨w, rfl, _⟩ := h; cases hx
  | nan h => exact h
  | _ => cases hx

/-- A sequence that is announced as empty and is not (an iterator whose `__len__` is 0: `serialize_seq` of the generator
serialiser is called with it, `src/serializers/type_serializers/generator.rs:117-118`) breaks the text around it. -/
theorem wrong_length_breaks_text (ryu : F64 → Text) (read : Text → F64) :
    toJsonBytes ryu .compact (.seq (some 0) [.int 1, .int 2]) = some (encode "[],1,2]".toList) ∧
      ∀ (ext : Prop) v, ¬ Denotes ext read "[],1,2]".toList v := by
  refine ⟨rfl, fun ext v h => ?_⟩
  obtain ⟨n, b, h, hb⟩ := denotes_read h
  have h := h (n + 1) (by omega)
  have h2 : pValue read (n + 1) (skipWs "[],1,2]".toList) = some (.arr [], ",1,2]".toList) := by
    have e : skipWs "[],1,2]".toList = '[' :: "],1,2]".toList := skip_of_head (by decide)
    have e2 : skipWs "],1,2]".toList = ']' :: ",1,2]".toList := skip_of_head (by decide)
    rw [e]
    simp only [pValue, e2]
    simp
  rw [h2] at h
  obtain rfl : ",1,2]".toList = b := congrArg Prod.snd (Option.some.inj h)
  have := hb ',' (by simp)
  revert this
  decide

/-- C82 as stated is false. -/
theorem not_all_read_back (ryu : F64 → Text) (read : Text → F64) : ¬ AllReadBack ryu read := by
  intro h
  obtain ⟨s, h1, h2⟩ := h .compact (.float .nan)
  rw [(nan_is_not_json ryu read .compact).1] at h1
  rw [← encode_injective (Option.some.inj h1)] at h2
  exact (nan_is_not_json ryu read .compact).2 _ h2

/-! ### The round trip through text -/

open PC.Trip PC.Coll PC.Engine PC.Comb in
/-- C80 through text: a value of one of its schemas is written as text, and any reader of JSON text, given that text, returns
a document that validation turns into an equal value. -/
theorem value_comes_back_through_text_partial {α : Type} {T : Setting α} (hR : Reads T) (hT : Sees T) (hd : T.Shared)
    (hp : T.S.platform.Valid) (hid : ∀ a b, T.S.world.identity a = T.S.world.identity b → a = b) (hst : 0 < T.S.world.stack)
    {o : Infer.Opts} {x : Infer.Extra α} (hx : x.Fits o) {st : VState α} (hoff : st.allowPartial = .off)
    (hg : st.guard = Guard.State.init) {same : α → α → Prop}
    (hdefs : ∀ d, (T.defs d).Ok T (flags st) o ∧ (T.defs d).Exact T same o) {s : Core α}
    (hs : s.Ok T (flags st) o ∧ s.Exact T same o) {a : α} {d : Json} {h : Nat} (ha : Data T o s a d h)
    (hh : h ≤ T.S.platform.limit) (bottom : Infer.Recs α) (n : Nat) (hn : T.S.platform.limit < n)
    (m : Nat) (hm : h ≤ m) (g : Nat → Validator α α) (p : ValResult α α)
    (hr : Shortest ryu read) (f : Fmt) {calls : Doc} (hc : calls.Announced) (hv : calls.value = d) (hf : Doubles Lowest d) :
    ∃ w text, Infer.toJson T.S bottom n s.ser x a none none Infer.freshSt = (.ok d, w) ∧
      toJsonBytes ryu f calls = some (encode text) ∧
      ∀ reader : Text → Option Json, (∀ t v, Denotes True read t v → reader t = some v) →
        ∃ back v st', reader text = some back ∧
          run { T.V with outOfFuel := g, panic := p } m s.val (T.json back) st = (.ok v, st') ∧ Equal T same s a v := by
  obtain ⟨w, v, st', h1, h2, h3⟩ := value_comes_back_partial hR hT hd hp hid hst hx hoff hg hdefs hs ha hh bottom n hn m hm g p
  subst hv
  obtain ⟨text, h4, h5, _⟩ := reads_back_extended hr f hc hf
  exact ⟨w, text, h1, h4, fun reader hread => ⟨_, v, st', hread _ _ h5, h2, h3⟩⟩

mutual
/-- The calls for a document, with the lengths announced. -/
def calls : Json → Doc
  | .null => .null
  | .bool b => .bool b
  | .int i => .int i
  | .float x => .float x
  | .str t => .str t
  | .arr xs => .seq (some xs.length) (callsAll xs)
  | .obj es => .map (some es.length) (callsEntries es)

def callsAll : List Json → List Doc
  | [] => []
  | v :: vs => calls v :: callsAll vs

def callsEntries : List (Text × Json) → List (Text × Doc)
  | [] => []
  | (k, v) :: es => (k, calls v) :: callsEntries es
end

mutual
/-- Every document is described by some calls, with the lengths announced truthfully. -/
theorem calls_ok : (v : Json) → (calls v).Announced ∧ (calls v).value = v
  | .null => ⟨trivial, rfl⟩
  | .bool b => ⟨trivial, rfl⟩
  | .int i => ⟨trivial, rfl⟩
  | .float x => ⟨trivial, rfl⟩
  | .str t => ⟨trivial, rfl⟩
  | .arr xs => by
      obtain ⟨h1, h2⟩ := callsAll_ok xs
      refine ⟨⟨fun h => ?_, h1⟩, by rw [calls, Doc.value, h2]⟩
      have : xs = [] := List.eq_nil_of_length_eq_zero (Option.some.inj h)
      subst this; rfl
  | .obj es => by
      obtain ⟨h1, h2⟩ := callsEntries_ok es
      refine ⟨⟨fun h => ?_, h1⟩, by rw [calls, Doc.value, h2]⟩
      have : es = [] := List.eq_nil_of_length_eq_zero (Option.some.inj h)
      subst this; rfl

theorem callsAll_ok : (vs : List Json) → Doc.AnnouncedAll (callsAll vs) ∧ Doc.values (callsAll vs) = vs
  | [] => ⟨trivial, rfl⟩
  | v :: vs => ⟨⟨(calls_ok v).1, (callsAll_ok vs).1⟩, by rw [callsAll, Doc.values, (calls_ok v).2, (callsAll_ok vs).2]⟩

theorem callsEntries_ok : (es : List (Text × Json)) → Doc.AnnouncedEntries (callsEntries es) ∧
    Doc.entryValues (callsEntries es) = es
  | [] => ⟨trivial, rfl⟩
  | (k, v) :: es => ⟨⟨(calls_ok v).1, (callsEntries_ok es).1⟩, by
      rw [callsEntries, Doc.entryValues, (calls_ok v).2, (callsEntries_ok es).2]⟩
end

open PC.Trip PC.Coll PC.Engine PC.Comb PC.Trip.Sample in
/-- The parent with its child of C80 comes back through indented text. -/
example (strict : Option Bool) : ∃ text, toJsonBytes exactText (.pretty 2) (calls parentDoc) = some (Trunc.encode text) ∧
    ∀ reader : Text → Option Json, (∀ t v, Denotes True exactRead t v → reader t = some v) →
      ∃ back v st', reader text = some back ∧ run T.V 256 node.val (T.json back) (Sample.start strict) = (.ok v, st') ∧
        Equal T Eq node parent v := by
  obtain ⟨_, text, _, h1, h2⟩ := value_comes_back_through_text_partial (T := T) (reads _) (sees _) (shared _)
    (.inl ⟨rfl, rfl⟩) (injective _) (by decide)
    (extra_fits opts) (st := Sample.start strict) rfl rfl (fun _ => ⟨node_ok _ _ (.inl rfl) (.inl rfl) _ rfl, node_exact _ _⟩)
    ⟨node_ok _ _ (.inl rfl) (.inl rfl) _ rfl, node_exact _ _⟩ parent_data (by decide) Infer.deadEnd 256 (by decide) 256 (by decide)
    T.V.outOfFuel T.V.panic exact_shortest (.pretty 2) (calls_ok parentDoc).1 (calls_ok parentDoc).2
    (by simp [parentDoc, kidDoc, Doubles, DoublesAll, DoublesEntries, Lowest])
  exact ⟨text, h1, h2⟩

end PC.JsonText
