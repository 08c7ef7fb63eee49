import Verif.Spec.SerEngine
import Verif.Lemmas.SerEnds
import Verif.Lemmas.SerAgree

namespace PC.Infer
open PC.Float (F64)
open PC.Filter (FVal Filt indexFilter keyFilter)
open PC.Guard (Good enter_good leave_good enter_weak leave_weak good_weak)

variable {α : Type}

/-! ### An object stands for one document -/

mutual
theorem isOf_unique (W : World α) : ∀ (d d' : Json) (a : α), d.isOf W a → d'.isOf W a → d = d'
  | .null, d', a, h, h' => by
    simp only [Json.isOf] at h
    cases d' <;> simp [Json.isOf, h] at h' ⊢
  | .bool b, d', a, h, h' => by
    simp only [Json.isOf] at h
    cases d' <;> simp [Json.isOf, h] at h' ⊢
    exact h'
  | .int b, d', a, h, h' => by
    simp only [Json.isOf] at h
    cases d' <;> simp [Json.isOf, h] at h' ⊢
    exact h'
  | .float b, d', a, h, h' => by
    simp only [Json.isOf] at h
    cases d' <;> simp [Json.isOf, h.1] at h' ⊢
    exact h'.1
  | .str b, d', a, h, h' => by
    simp only [Json.isOf] at h
    cases d' <;> simp [Json.isOf, h] at h' ⊢
    exact h'
  | .arr ds, d', a, h, h' => by
    simp only [Json.isOf] at h
    obtain ⟨xs, h, hi⟩ := h
    cases d' with
    | arr ds' =>
      simp only [Json.isOf] at h'
      obtain ⟨xs', h', hi'⟩ := h'
      have : xs = xs' := by rcases h with h | h <;> rcases h' with h' | h' <;> rw [h] at h' <;> simp at h' <;> exact h'
      subst this
      rw [items_unique W ds ds' xs hi hi']
    | _ => rcases h with h | h <;> simp [Json.isOf, h] at h'
  | .obj es, d', a, h, h' => by
    simp only [Json.isOf] at h
    obtain ⟨xs, h, hi⟩ := h
    cases d' with
    | obj es' =>
      simp only [Json.isOf] at h'
      obtain ⟨xs', h', hi'⟩ := h'
      have : xs = xs' := by rw [h] at h'; simp at h'; exact h'
      subst this
      rw [entries_unique W es es' xs hi hi']
    | _ => simp [Json.isOf, h] at h'
theorem items_unique (W : World α) : ∀ (ds ds' : List Json) (xs : List α), areItems W ds xs → areItems W ds' xs →
    ds = ds'
  | [], [], _, _, _ => rfl
  | [], _ :: _, [], _, h' => by simp [areItems] at h'
  | [], _ :: _, _ :: _, h, _ => by simp [areItems] at h
  | _ :: _, _, [], h, _ => by simp [areItems] at h
  | _ :: _, [], _ :: _, _, h' => by simp [areItems] at h'
  | d :: ds, d' :: ds', x :: xs, h, h' => by
    simp only [areItems] at h h'
    rw [isOf_unique W d d' x h.1 h'.1, items_unique W ds ds' xs h.2 h'.2]
theorem entries_unique (W : World α) : ∀ (es es' : List (Text × Json)) (xs : List (α × α)), areEntries W es xs →
    areEntries W es' xs → es = es'
  | [], [], _, _, _ => rfl
  | [], _ :: _, [], _, h' => by simp [areEntries] at h'
  | [], _ :: _, _ :: _, h, _ => by simp [areEntries] at h
  | _ :: _, _, [], h, _ => by simp [areEntries] at h
  | _ :: _, [], _ :: _, _, h' => by simp [areEntries] at h'
  | (t, d) :: es, (t', d') :: es', (k, v) :: xs, h, h' => by
    simp only [areEntries] at h h'
    have ht : t = t' := by have := h.1.symm.trans h'.1; simpa using this
    rw [ht, isOf_unique W d d' v h.2.1 h'.2.1, entries_unique W es es' xs h.2.2 h'.2.2]
end

/-! ### The guard on plain data -/

/-- The result for data of height `h` below the open keys: as wanted if there is room, otherwise (if `strict`) the error
for too much depth. -/
def Out (p : Guard.Platform) (strict : Prop) (opn : List Guard.Key) (h : Nat) {O : Type} (P : O → Prop) (w : List Text)
    (r : Except SErr O × St) : Prop :=
  (h + opn.length ≤ p.limit → ∃ o st, r = (.ok o, st) ∧ P o ∧ Good p opn st.guard ∧ st.warnings = w)
    ∧ (p.limit < h + opn.length → strict → r.1 = .error .depth ∧ Guard.Weak opn r.2.guard)

/-- The open keys of inference are those of objects of higher documents. -/
def Above (W : World α) (opn : List Guard.Key) (h : Nat) : Prop :=
  ∀ k ∈ opn, k.2 = inferDefRefId → ∃ (b : α) (d : Json), k.1 = W.identity b ∧ d.isOf W b ∧ h < d.height

theorem Above.mono {W : World α} {opn : List Guard.Key} {h h' : Nat} (ha : Above W opn h) (hle : h' ≤ h) :
    Above W opn h' := by
  intro k hk hi
  obtain ⟨b, d, h1, h2, h3⟩ := ha k hk hi
  exact ⟨b, d, h1, h2, by omega⟩

theorem Above.fresh {W : World α} (hid : ∀ a b, W.identity a = W.identity b → a = b) {opn : List Guard.Key} {d : Json}
    {a : α} (hd : d.isOf W a) (ha : Above W opn d.height) : (W.identity a, inferDefRefId) ∉ opn := by
  intro hk
  obtain ⟨b, d', h1, h2, h3⟩ := ha _ hk rfl
  have hab : a = b := hid a b h1
  subst hab
  rw [isOf_unique W d d' a hd h2] at h3
  omega

theorem Above.cons {W : World α} {opn : List Guard.Key} {d : Json} {a : α} (hd : d.isOf W a)
    (ha : Above W opn d.height) {h : Nat} (hh : h < d.height) : Above W ((W.identity a, inferDefRefId) :: opn) h := by
  intro k hk hi
  rcases List.mem_cons.1 hk with rfl | hk
  · exact ⟨a, d, rfl, hd, hh⟩
  · obtain ⟨b, d', h1, h2, h3⟩ := ha k hk hi
    exact ⟨b, d', h1, h2, by omega⟩

theorem guarded_out {p : Guard.Platform} (hp : p.Valid) {strict : Prop} {opn : List Guard.Key} {h : Nat} {O : Type}
    {P : O → Prop} {k : Guard.Key} (hk : k ∉ opn) {refused : SErr → Except SErr O}
    (href : strict → refused .depth = .error .depth) {body : M O}
    (hb : ∀ st : St, Good p (k :: opn) st.guard → Out p strict (k :: opn) h P st.warnings (body st)) (st : St)
    (hg : Good p opn st.guard) : Out p strict opn (h + 1) P st.warnings (guarded p k refused body st) := by
  obtain ⟨_, he1, he2⟩ := enter_good hp k hg
  unfold guarded
  by_cases hl : opn.length < p.limit
  · obtain ⟨g, he, hg1⟩ := he1 hk hl
    rw [he]
    dsimp only
    obtain ⟨hb1, hb2⟩ := hb { st with guard := g } hg1
    refine ⟨fun hle => ?_, fun hlt hs => ?_⟩
    · obtain ⟨o, st1, hr, ho, hg2, hw⟩ := hb1 (by simp only [List.length_cons]; omega)
      obtain ⟨g2, hlv, hg3⟩ := leave_good hg2
      rw [hr]
      dsimp only
      rw [hlv]
      exact ⟨o, _, rfl, ho, hg3, hw⟩
    · have hr := hb2 (by simp only [List.length_cons]; omega) hs
      cases hbs : body { st with guard := g } with
      | mk r st1 =>
        rw [hbs] at hr
        dsimp only at hr ⊢
        obtain ⟨rfl, hw⟩ := hr
        obtain ⟨g2, hlv, hw2⟩ := leave_weak hw
        rw [hlv]
        exact ⟨rfl, hw2⟩
  · obtain ⟨g, he⟩ := he2 hk (by omega)
    rw [he]
    dsimp only
    have hw := enter_weak hp (k := k) (good_weak hg)
    rw [he] at hw
    exact ⟨fun hle => by omega, fun _ hs => ⟨href hs, hw⟩⟩

theorem Out.mapM {p : Guard.Platform} {strict : Prop} {opn : List Guard.Key} {h : Nat} {O O' : Type} {P : O → Prop}
    {Q : O' → Prop} {w : List Text} {r : Except SErr O × St} (hr : Out p strict opn h P w r) {f : O → O'}
    (hf : ∀ o, P o → Q (f o)) : Out p strict opn h Q w (mapM f r) := by
  obtain ⟨h1, h2⟩ := hr
  refine ⟨fun hle => ?_, fun hlt hs => ?_⟩
  · obtain ⟨o, st, rfl, ho, hg, hw⟩ := h1 hle
    exact ⟨f o, st, rfl, hf o ho, hg, hw⟩
  · obtain ⟨h3, h4⟩ := h2 hlt hs
    obtain ⟨r, st⟩ := r
    dsimp only at h3 h4
    subst h3
    exact ⟨rfl, h4⟩

theorem Out.pure {p : Guard.Platform} {strict : Prop} {opn : List Guard.Key} {O : Type} {P : O → Prop} {o : O} {st : St}
    (hg : Good p opn st.guard) (ho : P o) : Out p strict opn 0 P st.warnings (.ok o, st) :=
  ⟨fun _ => ⟨o, st, rfl, ho, hg, rfl⟩, fun hlt _ => absurd hg.le (by omega)⟩

/-- One step, then the rest: how the loops go on. -/
theorem Out.seq {p : Guard.Platform} {strict : Prop} {opn : List Guard.Key} {h h' : Nat} {A B C : Type} {P : A → Prop}
    {Q : B → Prop} {S : C → Prop} {w : List Text} {m : Except SErr A × St} {r : Except SErr C × St}
    {next : St → Except SErr B × St} {f : A → B → C} (hm : Out p strict opn h P w m)
    (hn : ∀ st : St, Good p opn st.guard → Out p strict opn h' Q st.warnings (next st))
    (he : ∀ e st1, m = (.error e, st1) → r = (.error e, st1))
    (ho : ∀ a st1 e st2, m = (.ok a, st1) → next st1 = (.error e, st2) → r = (.error e, st2))
    (hoo : ∀ a st1 b st2, m = (.ok a, st1) → next st1 = (.ok b, st2) → r = (.ok (f a b), st2))
    (hf : ∀ a b, P a → Q b → S (f a b)) : Out p strict opn (max h h') S w r := by
  obtain ⟨m1, m2⟩ := hm
  refine ⟨fun hle => ?_, fun hlt hs => ?_⟩
  · obtain ⟨a, st, hma, ha, hg, hw⟩ := m1 (by omega)
    obtain ⟨b, st2, hb, hb2, hg2, hw2⟩ := (hn st hg).1 (by omega)
    rw [hoo a st b st2 hma hb]
    exact ⟨_, _, rfl, hf a b ha hb2, hg2, hw2.trans hw⟩
  · by_cases h1 : p.limit < h + opn.length
    · obtain ⟨h3, h4⟩ := m2 h1 hs
      obtain ⟨rm, st⟩ := m
      dsimp only at h3 h4
      subst h3
      rw [he _ _ rfl]
      exact ⟨rfl, h4⟩
    · obtain ⟨a, st, hma, ha, hg, hw⟩ := m1 (by omega)
      obtain ⟨h3, h4⟩ := (hn st hg).2 (by omega) hs
      cases hb : next st with
      | mk rm st2 =>
        rw [hb] at h3 h4
        dsimp only at h3 h4
        subst h3
        rw [ho a st _ st2 hma hb]
        exact ⟨rfl, h4⟩

/-! ### Filters let everything pass -/

theorem index_pass (i : Nat) (len : Option Nat) :
    indexFilter .any i Option.none Option.none len = .ok (some (Option.none, Option.none)) := rfl

theorem key_pass (hash : Filter.Key → Int) (k : Filter.Key) :
    keyFilter hash .any k Option.none Option.none = .ok (some (Option.none, Option.none)) := by
  cases k <;> rfl

/-! ### Plain data -/

set_option linter.unusedSectionVars false

section plain
variable {E : Env α} (hp : E.platform.Valid) (hid : ∀ a b, E.world.identity a = E.world.identity b → a = b)
  {x : Extra α} {bottom : Recs α}

theorem key_plain (hst : 0 < E.world.stack) {k : α} {t : Text} (h : E.world.shape k = .str (.utf8 t)) :
    inferKey E.world x k = .ok t := by
  obtain ⟨n, hn⟩ : ∃ n, E.world.stack = n + 1 := ⟨E.world.stack - 1, by omega⟩
  simp only [inferKey, hn, inferKeyAt, h]

include hp hid

mutual
theorem plain_json (hst : 0 < E.world.stack) (hu : x.serializeUnknown = false) : ∀ (d : Json) (a : α) (n : Nat) (opn : List Guard.Key) (st : St),
    d.isOf E.world a → Above E.world opn d.height → Good E.platform opn st.guard → E.platform.limit < n + opn.length →
      Out E.platform True opn d.height (fun o => o = d) st.warnings
        ((recs E bottom n).infer.json x a Option.none Option.none st)
  | d, a, 0, opn, st, _, _, hg, hl => absurd hg.le (by omega)
  | .null, a, n + 1, opn, st, h, ha, hg, hl => by
    have hfr := ha.fresh hid h
    simp only [Json.isOf] at h
    simp only [recs, inferJson, hu]
    refine guarded_out (h := 0) hp hfr (fun _ => rfl) (fun st hg => ?_) st hg
    simp only [jsonBody, h]
    exact .pure hg rfl
  | .bool b, a, n + 1, opn, st, h, ha, hg, hl => by
    have hfr := ha.fresh hid h
    simp only [Json.isOf] at h
    simp only [recs, inferJson, hu]
    refine guarded_out (h := 0) hp hfr (fun _ => rfl) (fun st hg => ?_) st hg
    simp only [jsonBody, h]
    exact .pure hg rfl
  | .int i, a, n + 1, opn, st, h, ha, hg, hl => by
    have hfr := ha.fresh hid h
    simp only [Json.isOf] at h
    simp only [recs, inferJson, hu]
    refine guarded_out (h := 0) hp hfr (fun _ => rfl) (fun st hg => ?_) st hg
    simp only [jsonBody, h]
    exact .pure hg rfl
  | .float f, a, n + 1, opn, st, h, ha, hg, hl => by
    have hfr := ha.fresh hid h
    simp only [Json.isOf] at h
    simp only [recs, inferJson, hu]
    refine guarded_out (h := 0) hp hfr (fun _ => rfl) (fun st hg => ?_) st hg
    simp only [jsonBody, h.1, serializeF64, h.2, if_true]
    exact .pure hg rfl
  | .str t, a, n + 1, opn, st, h, ha, hg, hl => by
    have hfr := ha.fresh hid h
    simp only [Json.isOf] at h
    simp only [recs, inferJson, hu]
    refine guarded_out (h := 0) hp hfr (fun _ => rfl) (fun st hg => ?_) st hg
    simp only [jsonBody, h, strJson]
    exact .pure hg rfl
  | .arr ds, a, n + 1, opn, st, h, ha, hg, hl => by
    have hfr := ha.fresh hid h
    have hc := ha.cons h (h := heightItems ds) (by simp [Json.height])
    simp only [Json.isOf] at h
    obtain ⟨xs, h, hi⟩ := h
    simp only [recs, inferJson, hu]
    refine guarded_out (h := heightItems ds) hp hfr (fun _ => rfl) (fun st hg => ?_) st hg
    have hit := plain_items_json hst hu ds xs n 0 xs.length _ st hi hc hg (by simp only [List.length_cons]; omega)
    rcases h with h | h
    · simp only [jsonBody, h]
      exact hit.mapM (fun o ho => by rw [ho])
    · simp only [jsonBody, h]
      exact hit.mapM (fun o ho => by rw [ho])
  | .obj es, a, n + 1, opn, st, h, ha, hg, hl => by
    have hfr := ha.fresh hid h
    have hc := ha.cons h (h := heightEntries es) (by simp [Json.height])
    simp only [Json.isOf] at h
    obtain ⟨kvs, h, hi⟩ := h
    simp only [recs, inferJson, hu]
    refine guarded_out (h := heightEntries es) hp hfr (fun _ => rfl) (fun st hg => ?_) st hg
    have hit := plain_entries_json hst hu es kvs n _ st hi hc hg (by simp only [List.length_cons]; omega)
    simp only [jsonBody, h]
    exact hit.mapM (fun o ho => by rw [ho])
theorem plain_items_json (hst : 0 < E.world.stack) (hu : x.serializeUnknown = false) : ∀ (ds : List Json) (xs : List α) (n i len : Nat) (opn : List Guard.Key) (st : St),
    areItems E.world ds xs → Above E.world opn (heightItems ds) → Good E.platform opn st.guard →
      E.platform.limit < n + opn.length →
      Out E.platform True opn (heightItems ds) (fun o => o = ds) st.warnings
        (jsonSeqFilter (recs E bottom n).infer x (some len) Option.none Option.none i (xs.map .ok) st)
  | [], [], n, i, len, opn, st, _, _, hg, _ => .pure hg rfl
  | [], _ :: _, n, i, len, opn, st, h, _, _, _ => by simp [areItems] at h
  | _ :: _, [], n, i, len, opn, st, h, _, _, _ => by simp [areItems] at h
  | d :: ds, v :: xs, n, i, len, opn, st, h, ha, hg, hl => by
    simp only [areItems] at h
    simp only [heightItems] at ha ⊢
    simp only [List.map_cons, jsonSeqFilter, index_pass]
    exact Out.seq (S := fun o => o = d :: ds) (f := List.cons) (plain_json hst hu d v n opn st h.1 (ha.mono (by omega)) hg hl)
      (fun st hg => plain_items_json hst hu ds xs n (i + 1) len opn st h.2 (ha.mono (by omega)) hg hl)
      (fun e st1 h1 => by simp only [h1]) (fun a st1 e st2 h1 h2 => by simp only [h1, h2])
      (fun a st1 b st2 h1 h2 => by simp only [h1, h2]) (fun a b h1 h2 => by rw [h1, h2])
theorem plain_entries_json (hst : 0 < E.world.stack) (hu : x.serializeUnknown = false) : ∀ (es : List (Text × Json)) (kvs : List (α × α)) (n : Nat) (opn : List Guard.Key)
    (st : St), areEntries E.world es kvs → Above E.world opn (heightEntries es) → Good E.platform opn st.guard →
      E.platform.limit < n + opn.length →
      Out E.platform True opn (heightEntries es) (fun o => o = es) st.warnings
        (jsonPairs E.world (recs E bottom n).infer x Option.none Option.none (kvs.map .ok) st)
  | [], [], n, opn, st, _, _, hg, _ => .pure hg rfl
  | [], _ :: _, n, opn, st, h, _, _, _ => by simp [areEntries] at h
  | _ :: _, [], n, opn, st, h, _, _, _ => by simp [areEntries] at h
  | (t, d) :: es, (k, v) :: kvs, n, opn, st, h, ha, hg, hl => by
    simp only [areEntries] at h
    simp only [heightEntries] at ha ⊢
    simp only [List.map_cons, jsonPairs, key_pass, key_plain (x := x) hst h.1]
    exact Out.seq (S := fun o => o = (t, d) :: es) (f := fun o os => (t, o) :: os) (plain_json hst hu d v n opn st h.2.1 (ha.mono (by omega)) hg hl)
      (fun st hg => plain_entries_json hst hu es kvs n opn st h.2.2 (ha.mono (by omega)) hg hl)
      (fun e st1 h1 => by simp only [h1]) (fun a st1 e st2 h1 h2 => by simp only [h1, h2])
      (fun a st1 b st2 h1 h2 => by simp only [h1, h2]) (fun a b h1 h2 => by rw [h1, h2])
end

mutual
theorem plain_py (hm : x.mode = .python) : ∀ (d : Json) (a : α) (n : Nat) (opn : List Guard.Key) (st : St),
    d.isOf E.world a → Above E.world opn d.height → Good E.platform opn st.guard → E.platform.limit < n + opn.length →
      Out E.platform False opn d.height (fun o => Json.copied E.world d a o) st.warnings
        ((recs E bottom n).infer.py x a Option.none Option.none st)
  | d, a, 0, opn, st, _, _, hg, hl => absurd hg.le (by omega)
  | .null, a, n + 1, opn, st, h, ha, hg, hl => by
    have hfr := ha.fresh hid h
    simp only [Json.isOf] at h
    simp only [recs, inferPy, hm]
    refine guarded_out (h := 0) hp hfr (fun hs => hs.elim) (fun st hg => ?_) st hg
    simp only [pyPythonBody, h]
    exact .pure hg (by simp [Json.copied])
  | .bool b, a, n + 1, opn, st, h, ha, hg, hl => by
    have hfr := ha.fresh hid h
    simp only [Json.isOf] at h
    simp only [recs, inferPy, hm]
    refine guarded_out (h := 0) hp hfr (fun hs => hs.elim) (fun st hg => ?_) st hg
    simp only [pyPythonBody, h]
    exact .pure hg (by simp [Json.copied])
  | .int i, a, n + 1, opn, st, h, ha, hg, hl => by
    have hfr := ha.fresh hid h
    simp only [Json.isOf] at h
    simp only [recs, inferPy, hm]
    refine guarded_out (h := 0) hp hfr (fun hs => hs.elim) (fun st hg => ?_) st hg
    simp only [pyPythonBody, h]
    exact .pure hg (by simp [Json.copied])
  | .float f, a, n + 1, opn, st, h, ha, hg, hl => by
    have hfr := ha.fresh hid h
    simp only [Json.isOf] at h
    simp only [recs, inferPy, hm]
    refine guarded_out (h := 0) hp hfr (fun hs => hs.elim) (fun st hg => ?_) st hg
    simp only [pyPythonBody, h.1]
    exact .pure hg (by simp [Json.copied])
  | .str t, a, n + 1, opn, st, h, ha, hg, hl => by
    have hfr := ha.fresh hid h
    simp only [Json.isOf] at h
    simp only [recs, inferPy, hm]
    refine guarded_out (h := 0) hp hfr (fun hs => hs.elim) (fun st hg => ?_) st hg
    simp only [pyPythonBody, h]
    exact .pure hg (by simp [Json.copied])
  | .arr ds, a, n + 1, opn, st, h, ha, hg, hl => by
    have hfr := ha.fresh hid h
    have hc := ha.cons h (h := heightItems ds) (by simp [Json.height])
    simp only [Json.isOf] at h
    obtain ⟨xs, h, hi⟩ := h
    simp only [recs, inferPy, hm]
    refine guarded_out (h := heightItems ds) hp hfr (fun hs => hs.elim) (fun st hg => ?_) st hg
    have hit := plain_items_py hm ds xs n 0 xs.length _ st hi hc hg (by simp only [List.length_cons]; omega)
    rcases h with h | h
    · simp only [pyPythonBody, h]
      exact hit.mapM (fun o ho => by simp only [Json.copied]; exact ⟨xs, o, ho, .inl ⟨h, rfl⟩⟩)
    · simp only [pyPythonBody, h]
      exact hit.mapM (fun o ho => by simp only [Json.copied]; exact ⟨xs, o, ho, .inr ⟨h, rfl⟩⟩)
  | .obj es, a, n + 1, opn, st, h, ha, hg, hl => by
    have hfr := ha.fresh hid h
    have hc := ha.cons h (h := heightEntries es) (by simp [Json.height])
    simp only [Json.isOf] at h
    obtain ⟨kvs, h, hi⟩ := h
    simp only [recs, inferPy, hm]
    refine guarded_out (h := heightEntries es) hp hfr (fun hs => hs.elim) (fun st hg => ?_) st hg
    have hit := plain_entries_py hm es kvs n _ st hi hc hg (by simp only [List.length_cons]; omega)
    simp only [pyPythonBody, h]
    exact hit.mapM (fun o ho => by simp only [Json.copied]; exact ⟨kvs, o, ho, h, rfl⟩)
theorem plain_items_py (hm : x.mode = .python) : ∀ (ds : List Json) (xs : List α) (n i len : Nat) (opn : List Guard.Key) (st : St),
    areItems E.world ds xs → Above E.world opn (heightItems ds) → Good E.platform opn st.guard →
      E.platform.limit < n + opn.length →
      Out E.platform False opn (heightItems ds) (fun o => copiedItems E.world ds xs o) st.warnings
        (pySeqFilter (recs E bottom n).infer x (some len) Option.none Option.none i (xs.map .ok) st)
  | [], [], n, i, len, opn, st, _, _, hg, _ => .pure hg (by simp [copiedItems])
  | [], _ :: _, n, i, len, opn, st, h, _, _, _ => by simp [areItems] at h
  | _ :: _, [], n, i, len, opn, st, h, _, _, _ => by simp [areItems] at h
  | d :: ds, v :: xs, n, i, len, opn, st, h, ha, hg, hl => by
    simp only [areItems] at h
    simp only [heightItems] at ha ⊢
    simp only [List.map_cons, pySeqFilter, index_pass]
    exact Out.seq (S := fun o => copiedItems E.world (d :: ds) (v :: xs) o) (f := List.cons) (plain_py hm d v n opn st h.1 (ha.mono (by omega)) hg hl)
      (fun st hg => plain_items_py hm ds xs n (i + 1) len opn st h.2 (ha.mono (by omega)) hg hl)
      (fun e st1 h1 => by simp only [h1]) (fun a st1 e st2 h1 h2 => by simp only [h1, h2])
      (fun a st1 b st2 h1 h2 => by simp only [h1, h2]) (fun a b h1 h2 => by simp only [copiedItems]; exact ⟨h1, h2⟩)
theorem plain_entries_py (hm : x.mode = .python) : ∀ (es : List (Text × Json)) (kvs : List (α × α)) (n : Nat) (opn : List Guard.Key)
    (st : St), areEntries E.world es kvs → Above E.world opn (heightEntries es) → Good E.platform opn st.guard →
      E.platform.limit < n + opn.length →
      Out E.platform False opn (heightEntries es) (fun o => copiedEntries E.world es kvs o) st.warnings
        (pyPairs E.world (recs E bottom n).infer x Option.none Option.none (kvs.map .ok) st)
  | [], [], n, opn, st, _, _, hg, _ => .pure hg (by simp [copiedEntries])
  | [], _ :: _, n, opn, st, h, _, _, _ => by simp [areEntries] at h
  | _ :: _, [], n, opn, st, h, _, _, _ => by simp [areEntries] at h
  | (t, d) :: es, (k, v) :: kvs, n, opn, st, h, ha, hg, hl => by
    simp only [areEntries] at h
    simp only [heightEntries] at ha ⊢
    simp only [List.map_cons, pyPairs, key_pass]
    exact Out.seq (S := fun o => copiedEntries E.world ((t, d) :: es) ((k, v) :: kvs) o)
      (f := fun o os => (.same k, o) :: os) (plain_py hm d v n opn st h.2.1 (ha.mono (by omega)) hg hl)
      (fun st hg => plain_entries_py hm es kvs n opn st h.2.2 (ha.mono (by omega)) hg hl)
      (fun e st1 h1 => by simp only [h1]) (fun a st1 e st2 h1 h2 => by simp only [h1, h2])
      (fun a st1 b st2 h1 h2 => by simp only [h1, h2]) (fun a b h1 h2 => by rw [copiedEntries]; exact ⟨rfl, h1, h2⟩)
end


end plain

end PC.Infer
