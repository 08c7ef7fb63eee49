import Verif.Lemmas.RoundTrip

/-
Validators that make a given output of a given input.
-/

namespace PC.Trip
open PC.Infer (Json Text Opts)
open PC.Fields (Dict ExtraBehavior Instance Field FAcc XAcc TAcc ModelFields TypedDict DictView)
open PC.Lookup (LookupKey KeyCollection LookupPath)
open PC.Coll PC.Engine PC.Comb

variable {α : Type} {c : Mode} {opn : List Guard.Key}

/-- The validator makes `y` of `x`. -/
def Takes (c : Mode) (opn : List Guard.Key) (v : Validator α α) (x y : α) : Prop :=
  ∀ st, Ready c opn st → ∃ st', v x st = (.ok y, st') ∧ Ready c opn st'

theorem take_leaf (l : Engine.Leaf α) {x y : α} {ex : Exactness} (h : l.check (c.strict.getD l.strict) x = .ok (y, ex)) :
    Takes c opn l.validate x y := by
  intro st hst
  refine ⟨st.floorExactness ex, ?_, hst.floor ex⟩
  simp only [Leaf.validate, hst.strictOr, h]

theorem take_none {isNone : α → Bool} {noneV x : α} {v : Validator α α} (h : isNone x = true) :
    Takes c opn (nullable isNone noneV v) x noneV := by
  intro st hst
  exact ⟨st, by simp only [nullable, h, if_true], hst⟩

theorem take_nullable {isNone : α → Bool} {noneV x y : α} {v : Validator α α} (h : ¬ isNone x = true)
    (hv : Takes c opn v x y) : Takes c opn (nullable isNone noneV v) x y := by
  intro st hst
  obtain ⟨st', h1, h2⟩ := hv st hst
  exact ⟨st', by simp only [nullable, h, Bool.false_eq_true, if_false]; exact h1, h2⟩

theorem take_vecLoop {v : Validator α α} (ff : Bool) {xs ys : List α} (h : All2 (Takes c opn v) xs ys) :
    ∀ (i : Nat) (mlc : MaxLengthCheck α) (out : List α) (st : VState α),
    FitsMax mlc.maxLength (mlc.current + ys.length) → Ready c opn st →
    ∃ st', vecLoop v .off ff (enumerateLastPartial .off i (xs.map .ok)) mlc out [] st = ⟨.ok (out ++ ys), st', []⟩ ∧
      Ready c opn st' := by
  induction h with
  | nil => exact fun i mlc out st _ hst => ⟨st, by simp [enumerateLastPartial, vecLoop], hst⟩
  | @cons x y xs ys hv hvs ih =>
    intro i mlc out st hm hst
    obtain ⟨st1, h1, h2⟩ := hv _ (hst.setPartial false)
    obtain ⟨mlc', h3, h4⟩ := fitsMax_incr (n := ys.length) hm
    obtain ⟨st', h5, h6⟩ := ih (i + 1) mlc' (out ++ [y]) st1 h4 h2
    refine ⟨st', ?_, h6⟩
    simp only [List.map_cons, enumerateLastPartial, vecLoop]
    rw [show (PartialMode.off.isActive && (List.map Except.ok xs : List (Except PyErr α)).isEmpty) = false from rfl]
    rw [h1]
    dsimp only
    rw [h3]
    dsimp only
    rw [h5, List.append_assoc]
    rfl

theorem take_list (l : ListV α) (v : Validator α α) (hl : l.item = some v) {input : α} {xs ys : List α}
    (has : ∀ strict, ∃ len py ex, l.asList strict input = .ok (⟨xs.map .ok, len, py⟩, ex))
    (hv : All2 (Takes c opn v) xs ys) (hmn : FitsMin l.minLength ys.length) (hmx : FitsMax l.maxLength ys.length) :
    Takes c opn l.validate input (l.build ys) := by
  intro st hst
  obtain ⟨len, py, ex, h⟩ := has (st.strictOr l.strict)
  obtain ⟨st', h1, h2⟩ := take_vecLoop l.failFast hv 0 (MaxLengthCheck.new l.maxLength "List" input len) []
    (st.floorExactness ex) (by simpa [MaxLengthCheck.new] using hmx) (hst.floor ex)
  refine ⟨st', ?_, h2⟩
  simp only [ListV.validate, h, hl, validateIterToVec, (hst.floor ex).off, h1, List.nil_append, minCheck_ok hmn]

theorem take_dictLoop (d : DictV α) (input : α) {xs kvs : List (α × α)}
    (h : All2 (fun x y => Takes c opn d.key x.1 y.1 ∧ Takes c opn d.value x.2 y.2) xs kvs) :
    ∀ (i : Nat) (out : List (α × α)) (st : VState α), DictOk d.hashing (out ++ kvs) →
    FitsMin d.minLength (out ++ kvs).length → FitsMax d.maxLength (out ++ kvs).length → Ready c opn st →
    ∃ st', dictLoop d input .off (enumerateLastPartial .off i (xs.map .ok)) out [] st =
      (.ok (d.build (out ++ kvs)), st') ∧ Ready c opn st' := by
  induction h with
  | nil =>
    intro i out st _ hmn hmx hst
    rw [List.append_nil] at hmn hmx ⊢
    exact ⟨st, by simp [enumerateLastPartial, dictLoop, check_ok hmn hmx], hst⟩
  | @cons a b xs kvs hkw hs ih =>
    intro i out st hd hmn hmx hst
    obtain ⟨k0, w0⟩ := a
    obtain ⟨k, w⟩ := b
    obtain ⟨st1, h1, h2⟩ := hkw.1 { st with allowPartial := .off } ⟨hst.1, hst.2, hst.3, rfl, hst.5, hst.6⟩
    obtain ⟨st2, h3, h4⟩ := hkw.2 _ (h2.setPartial false)
    have happ : out ++ (k, w) :: kvs = (out ++ [(k, w)]) ++ kvs := by simp
    obtain ⟨st', h5, h6⟩ := ih (i + 1) (out ++ [(k, w)]) st2 (happ ▸ hd) (happ ▸ hmn) (happ ▸ hmx) h4
    refine ⟨st', ?_, h6⟩
    have hset : setItem d.hashing out k w = out ++ [(k, w)] :=
      setItem_new fun x hx => (List.pairwise_append.mp hd.2).2.2 x hx (k, w) (.head _)
    simp only [List.map_cons, enumerateLastPartial, dictLoop]
    rw [show (PartialMode.off.isActive && (List.map Except.ok xs : List (ValResult α (α × α))).isEmpty) = false from rfl]
    dsimp only at h1 h3
    simp only [h1, h3, hd.1 (k, w) (by simp), hset, h5, happ]

theorem take_dict (d : DictV α) {input : α} {xs kvs : List (α × α)} (hd : DictOk d.hashing kvs)
    (has : ∀ strict, d.asDict strict input = .ok (xs.map .ok))
    (hv : All2 (fun x y => Takes c opn d.key x.1 y.1 ∧ Takes c opn d.value x.2 y.2) xs kvs)
    (hmn : FitsMin d.minLength kvs.length) (hmx : FitsMax d.maxLength kvs.length) :
    Takes c opn d.validate input (d.build kvs) := by
  intro st hst
  obtain ⟨st', h1, h2⟩ := take_dictLoop d input hv 0 [] st hd hmn hmx hst
  exact ⟨st', by simp only [DictV.validate, has, hst.off, h1, List.nil_append], h2⟩

/-! ### Fields -/

/-- The names a field is looked up by. -/
def Looks (ba bn : Bool) (f : Field α) (ns : List String) : Prop := LooksBy ba bn f.keys ns

/-- What fields make of the entries of an object: the dict of their values, and the names of those that were there. -/
inductive FieldsGet (c : Mode) (opn : List Guard.Key) (ba bn : Bool) :
    Bool → List (Field α) → List (String × α) → Dict α → List String → Prop
  | nil {total : Bool} : FieldsGet c opn ba bn total [] [] [] []
  | written {total : Bool} {f : Field α} {fs : List (Field α)} {k : String} {x y : α} {xs : List (String × α)} {ds : Dict α}
    {set ns : List String} (hk : Looks ba bn f ns) (hm : k ∈ ns) (h : Takes c opn f.run x y)
    (hs : FieldsGet c opn ba bn total fs xs ds set) :
    FieldsGet c opn ba bn total (f :: fs) ((k, x) :: xs) ((f.name, y) :: ds) (f.name :: set)
  | omitted {total : Bool} {f : Field α} {fs : List (Field α)} {v : α} {xs : List (String × α)} {ds : Dict α}
    {set ns : List String} (hk : Looks ba bn f ns) (hd : ∀ loc st, f.dflt loc st = (.ok (some v), st))
    (hs : FieldsGet c opn ba bn total fs xs ds set) :
    FieldsGet c opn ba bn total (f :: fs) xs ((f.name, v) :: ds) set
  | absent {f : Field α} {fs : List (Field α)} {xs : List (String × α)} {ds : Dict α} {set ns : List String}
    (hk : Looks ba bn f ns) (hd : ∀ loc st, f.dflt loc st = (.ok none, st)) (hr : f.required = false)
    (hs : FieldsGet c opn ba bn false fs xs ds set) :
    FieldsGet c opn ba bn false (f :: fs) xs ds set

/-- No field has the name of another, or is looked up by a name of another. -/
def Apart (ba bn : Bool) : List (Field α) → Prop
  | [] => True
  | f :: fs => (∀ g ∈ fs, f.name ≠ g.name ∧ ∀ ns ms, Looks ba bn f ns → Looks ba bn g ms → ∀ n ∈ ns, n ∉ ms) ∧ Apart ba bn fs

variable {ba bn : Bool}

theorem get_keys {total : Bool} {fs : List (Field α)} {xs : List (String × α)} {ds : Dict α} {set : List String}
    (h : FieldsGet c opn ba bn total fs xs ds set) : ∀ e ∈ xs, ∃ f ∈ fs, ∃ ns, Looks ba bn f ns ∧ e.1 ∈ ns := by
  induction h with
  | nil => intro e he; cases he
  | written hk hm h hs ih =>
    intro e he
    rcases List.mem_cons.mp he with rfl | he
    · exact ⟨_, .head _, _, hk, hm⟩
    · obtain ⟨f, h1, h2⟩ := ih e he
      exact ⟨f, .tail _ h1, h2⟩
  | omitted hk hd hs ih =>
    intro e he
    obtain ⟨f, h1, h2⟩ := ih e he
    exact ⟨f, .tail _ h1, h2⟩
  | absent hk hd hr hs ih =>
    intro e he
    obtain ⟨f, h1, h2⟩ := ih e he
    exact ⟨f, .tail _ h1, h2⟩

theorem get_names {total : Bool} {fs : List (Field α)} {xs : List (String × α)} {ds : Dict α} {set : List String}
    (h : FieldsGet c opn ba bn total fs xs ds set) : ∀ n ∈ ds.map Prod.fst, n ∈ fs.map Field.name := by
  induction h with
  | nil => intro e he; cases he
  | written hk hm h hs ih =>
    intro n hn
    rcases List.mem_cons.mp hn with rfl | hn
    · exact .head _
    · exact .tail _ (ih n hn)
  | omitted hk hd hs ih =>
    intro n hn
    rcases List.mem_cons.mp hn with rfl | hn
    · exact .head _
    · exact .tail _ (ih n hn)
  | absent hk hd hr hs ih => exact fun n hn => .tail _ (ih n hn)

/-- The value under the first of the names that is there. -/
def first (ns : List String) (D : Dict α) : Option (LookupPath × α) :=
  ns.findSome? fun n => (Dict.get n D).map fun v => (LookupPath.ofStr n, v)

theorem first_none {ns : List String} {D : Dict α} (h : ∀ n ∈ ns, n ∉ D.map Prod.fst) : first ns D = none := by
  refine List.findSome?_eq_none_iff.mpr fun n hn => ?_
  rw [get_notMem (h n hn)]
  rfl

theorem first_some {k : String} {x : α} {D : Dict α} (hD : (D.map Prod.fst).Nodup) (hm : (k, x) ∈ D) : ∀ {ns : List String},
    k ∈ ns → (∀ n ∈ ns, n ∈ D.map Prod.fst → n = k) → first ns D = some (.ofStr k, x)
  | n :: ns, hk, h => by
    by_cases hn : n = k
    · subst hn
      simp only [first, List.findSome?_cons, get_mem hD hm, Option.map_some]
    · have h1 : n ∉ D.map Prod.fst := fun hd => hn (h n (.head _) hd)
      have h2 : k ∈ ns := by
        rcases List.mem_cons.mp hk with e | h
        · exact absurd e.symm hn
        · exact h
      simp only [first, List.findSome?_cons, get_notMem h1, Option.map_none]
      exact first_some hD hm h2 (fun m hm' => h m (.tail _ hm'))

/-- Where the names that the first field looks for are. -/
theorem head_found {total : Bool} {f : Field α} {fs : List (Field α)} {xs : List (String × α)} {ds : Dict α}
    {set ns : List String} (h : FieldsGet c opn ba bn total fs xs ds set) (hap : Apart ba bn (f :: fs))
    (hk : Looks ba bn f ns) {n : String} (hn : n ∈ ns) : n ∉ xs.map Prod.fst := by
  intro hx
  obtain ⟨e, he, rfl⟩ := List.mem_map.mp hx
  obtain ⟨g, h1, ms, h2, h3⟩ := get_keys h e he
  exact (hap.1 g h1).2 ns ms hk h2 _ hn h3

theorem take_modelLoop (t : ModelFields α) (view : DictView α) (input : α) (D : Dict α)
    (hget : ∀ key ns, names key = some ns → view.get key = .ok (first ns D)) (hD : (D.map Prod.fst).Nodup) :
    ∀ {total : Bool} {fs : List (Field α)} {xs : List (String × α)} {ds : Dict α} {set : List String},
    FieldsGet c opn ba bn total fs xs ds set → total = true → ∀ acc : FAcc α, (∀ e ∈ xs, e ∈ D) → Apart ba bn fs →
    (∀ f ∈ fs, ∀ ns, Looks ba bn f ns → ∀ n ∈ ns, n ∈ D.map Prod.fst → n ∈ xs.map Prod.fst) →
    acc.errs = [] → (∀ f ∈ fs, f.name ∉ acc.dict.map Prod.fst) → Ready c opn acc.st →
    ∃ acc', t.fieldLoop view input ba bn fs acc = (.ok (), acc') ∧ acc'.dict = acc.dict ++ ds ∧
      acc'.errs = [] ∧ acc'.fieldsSet = acc.fieldsSet ++ set ∧
      (∀ k, k ∈ acc'.used ↔ k ∈ acc.used ∨ k ∈ xs.map Prod.fst) ∧ Ready c opn acc'.st := by
  intro total fs xs ds set h
  induction h with
  | nil =>
    intro _ acc _ _ _ he _ hst
    exact ⟨acc, by simp only [ModelFields.fieldLoop], by simp, he, by simp, by simp, hst⟩
  | @written _ f fs k x y xs ds set ns hk hm h hs ih =>
    intro htot acc hsub hap hin he hnew hst
    obtain ⟨key, hk1, hk2⟩ := id hk
    have hfind : first ns D = some (.ofStr k, x) := first_some hD (hsub _ (.head _)) hm (fun n hn hd => by
      rcases List.mem_cons.mp (hin f (.head _) ns hk n hn hd) with e | e
      · exact e
      · exact absurd e (head_found hs hap hk hn))
    have hnot : k ∉ xs.map Prod.fst := head_found hs hap hk hm
    obtain ⟨st1, h3, h4⟩ := h
      { acc.st with extra := { acc.st.extra with data := some acc.dict, fieldName := some f.name } }
      ⟨hst.1, hst.2, hst.3, hst.4, hst.5, hst.6⟩
    have hnew0 := hnew f (.head _)
    obtain ⟨acc', h5, h6, h7, h7', h8, h9⟩ := ih htot
      { acc with used := acc.used ++ [k], st := { st1 with extra := acc.st.extra },
                 dict := acc.dict ++ [(f.name, y)], fieldsSet := acc.fieldsSet ++ [f.name], count := acc.count + 1 }
      (fun e he => hsub e (.tail _ he)) hap.2
      (fun g hg ms hms n hn hd => by
        rcases List.mem_cons.mp (hin g (.tail _ hg) ms hms n hn hd) with e | e
        · subst e
          exact absurd hn ((hap.1 g hg).2 ns ms hk hms _ hm)
        · exact e) he
      (fun g hg => by
        simp only [List.map_append, List.map_cons, List.map_nil, List.mem_append, List.mem_singleton, not_or]
        exact ⟨hnew g (.tail _ hg), fun e => (hap.1 g hg).1 e.symm⟩)
      ⟨hst.1, hst.2, hst.3, h4.4, h4.5, hst.6⟩
    refine ⟨acc', ?_, ?_, h7, ?_, ?_, h9⟩
    · simp only [ModelFields.fieldLoop, ModelFields.fieldStep, hk1, hget key ns hk2, hfind, rebindExtra, h3, set_new hnew0]
      exact h5
    · rw [h6]; simp
    · rw [h7']; simp
    · intro n
      rw [h8]
      simp only [List.mem_append, List.map_cons, List.mem_cons, List.not_mem_nil, or_false, or_assoc]
  | @omitted _ f fs v xs ds set ns hk hd hs ih =>
    intro htot acc hsub hap hin he hnew hst
    obtain ⟨key, hk1, hk2⟩ := id hk
    have hfind : first ns D = none := first_none (fun n hn hd =>
      absurd (hin f (.head _) ns hk n hn hd) (head_found hs hap hk hn))
    have hnew0 := hnew f (.head _)
    obtain ⟨acc', h5, h6, h7, h7', h8, h9⟩ := ih htot
      { acc with dict := acc.dict ++ [(f.name, v)] }
      hsub hap.2 (fun g hg => hin g (.tail _ hg)) he
      (fun g hg => by
        simp only [List.map_append, List.map_cons, List.map_nil, List.mem_append, List.mem_singleton, not_or]
        exact ⟨hnew g (.tail _ hg), fun e => (hap.1 g hg).1 e.symm⟩) hst
    refine ⟨acc', ?_, ?_, h7, h7', h8, h9⟩
    · simp only [ModelFields.fieldLoop, ModelFields.fieldStep, hk1, hget key ns hk2, hfind, rebindExtra, hd, set_new hnew0]
      exact h5
    · rw [h6]; simp
  | absent => intro h; cases h

theorem take_typedLoop (t : TypedDict α) (view : DictView α) (input : α) (D : Dict α)
    (hget : ∀ key ns, names key = some ns → view.get key = .ok (first ns D)) (hD : (D.map Prod.fst).Nodup) :
    ∀ {total : Bool} {fs : List (Field α)} {xs : List (String × α)} {ds : Dict α} {set : List String},
    FieldsGet c opn ba bn total fs xs ds set → ∀ acc : FAcc α, (∀ e ∈ xs, e ∈ D) → Apart ba bn fs →
    (∀ f ∈ fs, ∀ ns, Looks ba bn f ns → ∀ n ∈ ns, n ∈ D.map Prod.fst → n ∈ xs.map Prod.fst) →
    acc.errs = [] → (∀ f ∈ fs, f.name ∉ acc.dict.map Prod.fst) → Ready c opn acc.st →
    ∃ acc', t.fieldLoop view input ba bn none .off fs acc = (.ok (), acc') ∧ acc'.dict = acc.dict ++ ds ∧
      acc'.errs = [] ∧ (∀ k, k ∈ acc'.used ↔ k ∈ acc.used ∨ k ∈ xs.map Prod.fst) ∧ Ready c opn acc'.st := by
  intro total fs xs ds set h
  induction h with
  | nil =>
    intro acc _ _ _ he _ hst
    exact ⟨acc, by simp only [TypedDict.fieldLoop], by simp, he, by simp, hst⟩
  | @written _ f fs k x y xs ds set ns hk hm h hs ih =>
    intro acc hsub hap hin he hnew hst
    obtain ⟨key, hk1, hk2⟩ := id hk
    have hfind : first ns D = some (.ofStr k, x) := first_some hD (hsub _ (.head _)) hm (fun n hn hd => by
      rcases List.mem_cons.mp (hin f (.head _) ns hk n hn hd) with e | e
      · exact e
      · exact absurd e (head_found hs hap hk hn))
    obtain ⟨st1, h3, h4⟩ := h
      { acc.st with
        allowPartial := .off
        extra := { acc.st.extra with data := some acc.dict, fieldName := some f.name } }
      ⟨hst.1, hst.2, hst.3, rfl, hst.5, hst.6⟩
    have hnew0 := hnew f (.head _)
    obtain ⟨acc', h5, h6, h7, h8, h9⟩ := ih
      { acc with used := acc.used ++ [k], st := { st1 with extra := acc.st.extra },
                 dict := acc.dict ++ [(f.name, y)], count := acc.count + 1 }
      (fun e he => hsub e (.tail _ he)) hap.2
      (fun g hg ms hms n hn hd => by
        rcases List.mem_cons.mp (hin g (.tail _ hg) ms hms n hn hd) with e | e
        · subst e
          exact absurd hn ((hap.1 g hg).2 ns ms hk hms _ hm)
        · exact e) he
      (fun g hg => by
        simp only [List.map_append, List.map_cons, List.map_nil, List.mem_append, List.mem_singleton, not_or]
        exact ⟨hnew g (.tail _ hg), fun e => (hap.1 g hg).1 e.symm⟩)
      ⟨hst.1, hst.2, hst.3, h4.4, h4.5, hst.6⟩
    refine ⟨acc', ?_, ?_, h7, ?_, h9⟩
    · simp only [TypedDict.fieldLoop, TypedDict.fieldStep, hk1, hget key ns hk2, hfind, rebindExtra, h3, set_new hnew0,
        reduceCtorEq, decide_false, Bool.false_eq_true, if_false]
      exact h5
    · rw [h6]; simp
    · intro n
      rw [h8]
      simp only [List.mem_append, List.map_cons, List.mem_cons, List.not_mem_nil, or_false, or_assoc]
  | @omitted _ f fs v xs ds set ns hk hd hs ih =>
    intro acc hsub hap hin he hnew hst
    obtain ⟨key, hk1, hk2⟩ := id hk
    have hfind : first ns D = none := first_none (fun n hn hd =>
      absurd (hin f (.head _) ns hk n hn hd) (head_found hs hap hk hn))
    have hnew0 := hnew f (.head _)
    obtain ⟨acc', h5, h6, h7, h8, h9⟩ := ih
      { acc with dict := acc.dict ++ [(f.name, v)] }
      hsub hap.2 (fun g hg => hin g (.tail _ hg)) he
      (fun g hg => by
        simp only [List.map_append, List.map_cons, List.map_nil, List.mem_append, List.mem_singleton, not_or]
        exact ⟨hnew g (.tail _ hg), fun e => (hap.1 g hg).1 e.symm⟩) hst
    refine ⟨acc', ?_, ?_, h7, h8, h9⟩
    · simp only [TypedDict.fieldLoop, TypedDict.fieldStep, hk1, hget key ns hk2, hfind, rebindExtra, hd, set_new hnew0]
      exact h5
    · rw [h6]; simp
  | @absent f fs xs ds set ns hk hd hr hs ih =>
    intro acc hsub hap hin he hnew hst
    obtain ⟨key, hk1, hk2⟩ := id hk
    have hfind : first ns D = none := first_none (fun n hn hd =>
      absurd (hin f (.head _) ns hk n hn hd) (head_found hs hap hk hn))
    obtain ⟨acc', h5, h6⟩ := ih acc
      hsub hap.2 (fun g hg => hin g (.tail _ hg)) he (fun g hg => hnew g (.tail _ hg)) hst
    refine ⟨acc', ?_, h6⟩
    simp only [TypedDict.fieldLoop, TypedDict.fieldStep, hk1, hget key ns hk2, hfind, rebindExtra, hd, hr,
      Bool.false_eq_true, if_false]
    exact h5

theorem take_modelExtraLoop (t : ModelFields α) (ht : t.extrasV = none) (ht2 : t.extrasKeysV = none) (keys : String → α)
    (hstr : ∀ n, t.keyOps.str (keys n) = .ok n) (used : List String)
    (ha : t.extra = .allow) : ∀ (xs : Dict α) (acc : XAcc α), (∀ x ∈ xs, x.1 ∉ used) → (xs.map Prod.fst).Nodup →
    (∀ x ∈ xs, x.1 ∉ acc.extra.map Prod.fst) →
    ∃ acc', t.extraLoop used (xs.map fun kv => .ok (keys kv.1, kv.2)) acc = (.ok (), acc') ∧
      acc'.extra = acc.extra ++ xs ∧ acc'.errs = acc.errs ∧ acc'.fieldsSet = acc.fieldsSet ++ xs.map Prod.fst ∧
      acc'.st = acc.st
  | [], acc, _, _, _ => ⟨acc, by simp [ModelFields.extraLoop], by simp, rfl, by simp, rfl⟩
  | (n, v) :: xs, acc, hu, hnd, hnew => by
    have hn : used.contains n = false := by
      rw [Bool.eq_false_iff]
      exact fun h => hu (n, v) (.head _) (List.contains_iff_mem.mp h)
    simp only [List.map_cons, List.nodup_cons] at hnd
    have hset := hnew (n, v) (.head _)
    obtain ⟨acc', h1, h2, h3, h3', h4⟩ := take_modelExtraLoop t ht ht2 keys hstr used ha xs
      { acc with extra := acc.extra ++ [(n, v)], fieldsSet := acc.fieldsSet ++ [n] }
      (fun x hx => hu x (.tail _ hx)) hnd.2
      (fun x hx => by
        simp only [List.map_append, List.map_cons, List.map_nil, List.mem_append, List.mem_singleton, not_or]
        exact ⟨hnew x (.tail _ hx), fun e => hnd.1 (e ▸ List.mem_map_of_mem (f := Prod.fst) hx)⟩)
    refine ⟨acc', ?_, by rw [h2]; simp, h3, by rw [h3']; simp, h4⟩
    simp only [List.map_cons, ModelFields.extraLoop, ModelFields.extraStep, ModelFields.extraKey, hstr, hn,
      Bool.false_eq_true, if_false, ha, ht, ht2, set_new hset]
    exact h1

/-- The entries of an object as a dict view shows them. -/
structure Shows (view : DictView α) (keys : String → α) (D : Dict α) : Prop where
  get : ∀ key ns, names key = some ns → view.get key = .ok (first ns D)
  attrs : view.isPyGetAttr = false
  entries : view.entries = .ok (D.map fun kv => .ok (keys kv.1, kv.2))

/-- A model-fields validator on an object of entries for fields and extra items. -/
theorem take_modelFields (t : ModelFields α) (ht : t.extrasV = none) (ht2 : t.extrasKeysV = none) (input : α)
    {xs ex : Dict α} {ds : Dict α} {set : List String} (keys : String → α) (hstr : ∀ n, t.keyOps.str (keys n) = .ok n)
    (hview : ∀ strict fa, ∃ view, t.asFields strict fa input = .ok view ∧ Shows view keys (xs ++ ex))
    (hD : ((xs ++ ex).map Prod.fst).Nodup)
    (hf : FieldsGet c opn ((c.byAlias.or t.byAlias).getD true) ((c.byName.or t.byName).getD false) true t.fields xs ds set)
    (hap : Apart ((c.byAlias.or t.byAlias).getD true) ((c.byName.or t.byName).getD false) t.fields)
    (hex : ∀ e ∈ ex, ∀ f ∈ t.fields, ∀ ns, Looks ((c.byAlias.or t.byAlias).getD true) ((c.byName.or t.byName).getD false) f ns →
      e.1 ∉ ns) (hx : ex ≠ [] → t.extra = .allow) :
    ∀ st, Ready c opn st → ∃ st', t.validate input st =
      (.ok ⟨ds, if t.extra = .allow then some ex else none, set ++ ex.map Prod.fst⟩, st') ∧ Ready c opn st' := by
  intro st hst
  have hst0 : Ready c opn ({ st with allowPartial := .ofBool false } : VState α) := ⟨hst.1, hst.2, hst.3, rfl, hst.5, hst.6⟩
  obtain ⟨view, h1, hv⟩ := hview (({ st with allowPartial := .ofBool false } : VState α).strictOr t.strict)
    (st.extra.fromAttributes.getD t.fromAttributes)
  have h3 := hv.attrs
  have h4 := hv.entries
  obtain ⟨acc, h6, h7, h8, h8', h9, h10⟩ := take_modelLoop t view input (xs ++ ex) hv.get hD hf rfl
    ⟨[], [], [], 0, [], { st with allowPartial := .ofBool false }⟩ (fun e he => List.mem_append_left _ he) hap
    (fun f hf' ns hns n hn hd => by
      rw [List.map_append] at hd
      rcases List.mem_append.mp hd with hd | hd
      · exact hd
      · obtain ⟨e, he, rfl⟩ := List.mem_map.mp hd
        exact absurd hn (hex e he f hf' ns hns)) rfl (fun f _ => by simp) hst0
  rw [List.nil_append] at h7 h8'
  have hba : ({ st with allowPartial := .ofBool false } : VState α).validateByAliasOr t.byAlias =
      (c.byAlias.or t.byAlias).getD true := by
    rw [VState.validateByAliasOr, hst0.byAlias]
  have hbn : ({ st with allowPartial := .ofBool false } : VState α).validateByNameOr t.byName =
      (c.byName.or t.byName).getD false := by
    rw [VState.validateByNameOr, hst0.byName]
  have hused : ∀ k, k ∈ acc.used ↔ k ∈ xs.map Prod.fst := fun k => by rw [h9]; simp
  simp only [ModelFields.validate, h1, hba, hbn, h6, ModelFields.afterFields, h3]
  by_cases ha : t.extra = .allow
  · have hni : ¬ (t.extra = .ignore ∨ false = true) := by
      rw [ha]
      simp
    rw [if_neg hni]
    simp only [h4, List.map_append]
    rw [fix_modelExtraSkip t keys hstr acc.used _ xs _ (fun x hx => (hused _).mpr (List.mem_map_of_mem hx))]
    rw [List.map_append, List.nodup_append] at hD
    obtain ⟨acc', g1, g2, g3, g5, g4⟩ := take_modelExtraLoop t ht ht2 keys hstr acc.used ha ex
      ⟨[], acc.errs, acc.fieldsSet, acc.st⟩
      (fun x hm hu => hD.2.2 x.1 ((hused _).mp hu) x.1 (List.mem_map_of_mem hm) rfl) hD.2.1 (fun x hm => by simp)
    rw [List.nil_append] at g2
    have g4' : acc'.st = acc.st := g4
    refine ⟨acc.st.addFieldsSet acc.count, ?_, h10.addFieldsSet acc.count⟩
    rw [g1]
    simp only [ModelFields.finish, g2, g3, g4', g5, h8, h8', List.isEmpty_nil, if_true, h7, ha, Option.isNone_some,
      Bool.false_eq_true, and_false, if_false]
  · obtain rfl : ex = [] := Classical.byContradiction fun h => ha (hx h)
    rw [if_neg ha]
    simp only [List.append_nil, List.map_nil] at h4 ⊢
    split
    · refine ⟨_, ?_, h10.addFieldsSet acc.count⟩
      simp only [ModelFields.finish, h8, List.isEmpty_nil, if_true, h7, h8', ha, false_and, if_false]
    · simp only [h4]
      rw [← List.append_nil (xs.map _), fix_modelExtraSkip t keys hstr acc.used [] xs _
        (fun x hx => (hused _).mpr (List.mem_map_of_mem hx))]
      refine ⟨_, ?_, h10.addFieldsSet acc.count⟩
      simp only [ModelFields.extraLoop, ModelFields.finish, h8, h8', List.isEmpty_nil, if_true, h7, ha, if_false, false_and]

/-- A model validator on such an object. -/
theorem take_model (W : World α) (cfg : ModelCfg) (vs : List (Field α)) (input : α) {xs ex : Dict α} {ds : Dict α}
    {set : List String} (hsrc : W.source cfg.cls input = .other) (keys : String → α)
    (hstr : ∀ n, W.keyOps.str (keys n) = .ok n)
    (hview : ∀ strict fa, ∃ view, W.asFields strict fa input = .ok view ∧ Shows view keys (xs ++ ex))
    (hD : ((xs ++ ex).map Prod.fst).Nodup)
    (hf : FieldsGet c opn ((c.byAlias.or cfg.byAlias).getD true) ((c.byName.or cfg.byName).getD false) true vs xs ds set)
    (hap : Apart ((c.byAlias.or cfg.byAlias).getD true) ((c.byName.or cfg.byName).getD false) vs)
    (hex : ∀ e ∈ ex, ∀ f ∈ vs, ∀ ns, Looks ((c.byAlias.or cfg.byAlias).getD true) ((c.byName.or cfg.byName).getD false) f ns →
      e.1 ∉ ns) (hx : ex ≠ [] → cfg.extra = .allow) :
    Takes c opn (modelRun W cfg.cls (modelV W cfg vs)) input
      (W.mkModel cfg.cls ⟨ds, if cfg.extra = .allow then some ex else none, set ++ ex.map Prod.fst⟩) := by
  intro st hst
  obtain ⟨st', h1, h2⟩ := take_modelFields (c := c) (opn := opn) (modelFieldsV W cfg vs) rfl rfl input keys hstr hview hD
    hf hap hex hx (st.floorExactness .strict) (hst.floor _)
  refine ⟨st', ?_, h2⟩
  have h1' : (modelV W cfg vs).inner input (st.floorExactness .strict) =
    (.ok ⟨ds, if cfg.extra = .allow then some ex else none, set ++ ex.map Prod.fst⟩, st') := h1
  simp only [modelRun, Cls.ModelV.validate, hsrc, Cls.ModelV.construct, Cls.ModelV.attrs, Cls.ModelV.callPostInit]
  rw [show (modelV W cfg vs).customInit = none from rfl, show (modelV W cfg vs).root = none from rfl,
    show (modelV W cfg vs).postInit = none from rfl]
  dsimp only [Option.bind]
  rw [h1']
  rfl

/-- A root model. -/
theorem take_root (W : World α) (cls : Nat) (rv : Dc.Revalidate) (v : Validator α α) {x y : α}
    (hsrc : W.source cls x = .other) (hv : Takes c opn v x y) :
    Takes c opn (modelRun W cls (rootModelV W rv v)) x
      (W.mkModel cls ⟨[("root", y)], none, if W.isUndefined x then [] else ["root"]⟩) := by
  intro st hst
  obtain ⟨st1, h1, h2⟩ := hv
    { (st.floorExactness .strict) with extra := { (st.floorExactness .strict).extra with fieldName := some "root" } }
    ⟨(hst.floor _).1, (hst.floor _).2, (hst.floor _).3, (hst.floor _).4, (hst.floor _).5, (hst.floor _).6⟩
  refine ⟨{ st1 with extra := (st.floorExactness .strict).extra }, ?_,
    ⟨(hst.floor _).1, (hst.floor _).2, (hst.floor _).3, h2.4, h2.5, (hst.floor _).6⟩⟩
  simp only [modelRun, Cls.ModelV.validate, hsrc, Cls.ModelV.construct, Cls.ModelV.attrs, Cls.ModelV.callPostInit,
    rootModelV, Option.bind_none, rebindExtra, h1, Dict.set]
  rfl

/-- A typed dict without extra items. -/
theorem take_typed (t : TypedDict α) {total : Bool} {input : α} {xs : Dict α} {ds : Dict α} {set : List String}
    (keys : String → α) (hstr : ∀ n, t.keyOps.str (keys n) = .ok n)
    (hview : ∀ strict, ∃ view, t.asDict strict input = .ok view ∧ Shows view keys xs) (hD : (xs.map Prod.fst).Nodup)
    (hf : FieldsGet c opn ((c.byAlias.or t.byAlias).getD true) ((c.byName.or t.byName).getD false) total t.fields xs ds set)
    (hap : Apart ((c.byAlias.or t.byAlias).getD true) ((c.byName.or t.byName).getD false) t.fields) :
    Takes c opn t.validate input (t.build ds) := by
  intro st hst
  obtain ⟨view, h1, hv⟩ := hview (st.strictOr t.strict)
  have h3 := hv.attrs
  have h4 := hv.entries
  obtain ⟨acc, h6, h7, h8, h9, h10⟩ := take_typedLoop t view input xs hv.get hD hf
    ⟨[], [], [], 0, [], st⟩ (fun e he => he) hap (fun f hf' ns hns n hn hd => hd) rfl (fun f _ => by simp) hst
  rw [List.nil_append] at h7
  have hba : st.validateByAliasOr t.byAlias = (c.byAlias.or t.byAlias).getD true := by
    rw [VState.validateByAliasOr, hst.byAlias]
  have hbn : st.validateByNameOr t.byName = (c.byName.or t.byName).getD false := by
    rw [VState.validateByNameOr, hst.byName]
  have hused : ∀ k, k ∈ acc.used ↔ k ∈ xs.map Prod.fst := fun k => by rw [h9]; simp
  simp only [TypedDict.validate, h1, hst.off, hba, hbn]
  rw [show PartialMode.off.isActive = false from rfl]
  simp only [Bool.false_eq_true, if_false, h6, TypedDict.afterFields, h3, or_false]
  split
  · refine ⟨_, ?_, h10.addFieldsSet acc.count⟩
    simp only [TypedDict.finish, h8, List.isEmpty_nil, if_true, h7]
  · simp only [h4]
    rw [← List.append_nil (xs.map _),
      fix_extraSkip t keys hstr acc.used [] xs _ (fun x hx => (hused _).mpr (List.mem_map_of_mem hx))]
    refine ⟨_, ?_, h10.addFieldsSet acc.count⟩
    simp only [TypedDict.extraLoop, TypedDict.finish, h8, List.isEmpty_nil, if_true, h7]

theorem take_ref (E : Env α) (name : Nat) {inner : Validator α α} {x y : α} (hid : E.world.identity x = none)
    (h : Takes c opn inner x y) : Takes c opn (definitionRef E name inner) x y := by
  intro st hst
  have hst0 : Ready c opn ({ st with allowPartial := .off } : VState α) := ⟨hst.1, hst.2, hst.3, rfl, hst.5, hst.6⟩
  simp only [definitionRef]
  rw [show PartialMode.ofBool false = .off from rfl, hid]
  exact h _ hst0

theorem take_withDefault {d : Option α} {v : Validator α α} {x y : α} (h : Takes c opn v x y) :
    Takes c opn (withDefault d v) x y := by
  intro st hst
  obtain ⟨st', h1, h2⟩ := h st hst
  exact ⟨st', by simp only [withDefault, h1], h2⟩

end PC.Trip
