import Verif.Spec.Dataclass
import Verif.Lemmas.Arguments

namespace PC.Dc
open PC.Lookup PC.Fields PC.Args
variable {α : Type}

/-! ### One field -/

/-- The positional argument for field number `i`. -/
def posArg (args : List α) (f : DcField α) (i : Nat) : Option α :=
  if f.init && !f.kwOnly then args[i]? else none

/-- The keyword argument for a field. -/
def kwArg (kw : Dict α) (f : DcField α) : Option α :=
  if f.init then kw.get f.name else none

/-- The names used after a field. -/
def usedAfter (kw : Dict α) (f : DcField α) (used : List String) : List String :=
  match kwArg kw f with
  | some _ => insertNew f.name used
  | none => used

/-- The attributes after a field. -/
def put (f : DcField α) (o : Option α) (dict : Dict α) : Dict α :=
  match o with
  | some v => if f.initOnly then dict else dict.set f.name v
  | none => dict

/-- The init-only values after a field. -/
def putInit (f : DcField α) (o : Option α) (l : List α) : List α :=
  match o with
  | some v => if f.initOnly then l ++ [v] else l
  | none => l

theorem setItem_eq (acc : DAcc α) (f : DcField α) (v : α) :
    acc.setItem f v = { acc with dict := put f (some v) acc.dict, initOnly := putInit f (some v) acc.initOnly } := by
  unfold DAcc.setItem put putInit
  cases f.initOnly <;> rfl

/-- What one iteration of the loop over fields finds: a value or none, and errors. -/
inductive Row (args : List α) (kw : Dict α) (input : α) (i : Nat) (data : Dict α)
    (f : DcField α) : Option α → List (LineError α) → Prop
  | both {x v} : posArg args f i = some x → kwArg kw f = some v →
      Row args kw input i data f none [.newWithLoc .multipleArgumentValues v (.s f.name)]
  | pos {x w st} : posArg args f i = some x → kwArg kw f = none →
      st.extra.fieldName = some f.name → st.extra.data = some data → (f.run x st).1 = .ok w →
      Row args kw input i data f (some w) []
  | posErr {x ls st} : posArg args f i = some x → kwArg kw f = none →
      (f.run x st).1 = .error (.lineErrors ls) →
      Row args kw input i data f none (ls.map (·.withOuterLocation (.i i)))
  | kw {x w st} : posArg args f i = none → kwArg kw f = some x →
      st.extra.fieldName = some f.name → st.extra.data = some data → (f.run x st).1 = .ok w →
      Row args kw input i data f (some w) []
  | kwErr {x ls st} : posArg args f i = none → kwArg kw f = some x →
      (f.run x st).1 = .error (.lineErrors ls) →
      Row args kw input i data f none (ls.map (·.withOuterLocation (.s f.name)))
  | dflt {w st} : posArg args f i = none → kwArg kw f = none → st.extra.data = some data →
      (f.dflt (some (.s f.name)) st).1 = .ok (some w) →
      Row args kw input i data f (some w) []
  | dfltErr {ls st} : posArg args f i = none → kwArg kw f = none →
      (f.dflt (some (.s f.name)) st).1 = .error (.lineErrors ls) →
      Row args kw input i data f none ls
  | omitted {st} : posArg args f i = none → kwArg kw f = none → st.extra.data = some data →
      (f.dflt (some (.s f.name)) st).1 = .error .omitted →
      Row args kw input i data f none []
  | missing {st} : f.init = true → posArg args f i = none → kwArg kw f = none →
      (f.dflt (some (.s f.name)) st).1 = .ok none →
      Row args kw input i data f none [.newWithLoc .missing input (.s f.name)]
  | absent {st} : f.init = false → posArg args f i = none → kwArg kw f = none →
      st.extra.data = some data → (f.dflt (some (.s f.name)) st).1 = .ok none →
      Row args kw input i data f none []

/-- What a field raises. -/
def FieldRaises (args : List α) (kw : Dict α) (i : Nat) (f : DcField α) (e : ValError α) : Prop :=
  (∀ ls, e ≠ .lineErrors ls) ∧ ∃ st,
    ((∃ x, (posArg args f i).or (kwArg kw f) = some x ∧ (f.run x st).1 = .error e) ∨
      ((posArg args f i).or (kwArg kw f) = none ∧ (f.dflt (some (.s f.name)) st).1 = .error e ∧
        e ≠ .omitted))

theorem lookup_eq {d : DcArgs α} {view : ArgsView α} {args : List α} {kw : Dict α}
    (hc : d.Call view args kw) {f : DcField α} (hi : f.init = true)
    (hk : f.keys = ⟨.simple (.ofStr f.name), none, none⟩) {ba bn : Bool}
    (hb : ba = true ∨ bn = true) :
    lookup view f ba bn =
      .ok (.simple (.ofStr f.name), (kwArg kw f).map fun v => (.ofStr f.name, v)) := by
  have hs : f.keys.select ba bn = .ok (.simple (.ofStr f.name)) := by
    rw [hk]
    cases ba <;> cases bn <;> simp_all [KeyCollection.select]
  simp only [lookup, kwArg]
  rw [if_pos hi, hs]
  dsimp only
  have := hc.kwargs
  cases hv : view.kwargs with
  | none =>
    rw [hv] at this
    dsimp only at this
    subst this
    rfl
  | some k =>
    rw [hv] at this
    dsimp only at this ⊢
    rw [this.2.1]

theorem posValue_eq {d : DcArgs α} {view : ArgsView α} {args : List α} {kw : Dict α}
    (hc : d.Call view args kw) {f : DcField α} (hi : f.init = true) (i : Nat) :
    posValue view f i = posArg args f i := by
  have := hc.args
  unfold posValue posArg
  rw [hi]
  cases hv : view.args with
  | none =>
    rw [hv] at this
    simp only [Option.getD_none] at this
    subst this
    simp
  | some l =>
    rw [hv] at this
    simp only [Option.getD_some] at this
    subst this
    cases f.kwOnly <;> rfl

/-- The variables after a field. -/
structure After (kw : Dict α) (f : DcField α) (acc : DAcc α) (o : Option α)
    (es : List (LineError α)) (acc' : DAcc α) : Prop where
  dict : acc'.dict = put f o acc.dict
  initOnly : acc'.initOnly = putInit f o acc.initOnly
  errs : acc'.errs = acc.errs ++ es
  used : acc'.used = usedAfter kw f acc.used

/-- What a step does. -/
theorem step_spec (d : DcArgs α) {view : ArgsView α} {args : List α} {kw : Dict α}
    (hc : d.Call view args kw) {f : DcField α}
    (hk : f.keys = ⟨.simple (.ofStr f.name), none, none⟩) {ba bn : Bool}
    (hb : ba = true ∨ bn = true) (input : α) (i : Nat) (acc : DAcc α) :
    ((d.step view input ba bn i f acc).1 = .ok () ∧ ∃ o es,
      Row args kw input i acc.dict f o es ∧
      After kw f acc o es (d.step view input ba bn i f acc).2) ∨
    ∃ e, (d.step view input ba bn i f acc).1 = .error e ∧ FieldRaises args kw i f e := by
  unfold DcArgs.step
  by_cases hi : f.init = true
  rotate_left
  · rw [if_neg hi]
    have hi' : f.init = false := by simpa using hi
    have hp : posArg args f i = none := by simp [posArg, hi']
    have hq : kwArg kw f = none := by simp [kwArg, hi']
    have hu : usedAfter kw f acc.used = acc.used := by simp [usedAfter, hq]
    simp only [noInitStep, rebindExtra]
    generalize hst : ({ acc.st with extra := { acc.st.extra with data := some acc.dict } } : VState α) = st
    have hdata : st.extra.data = some acc.dict := by rw [← hst]
    cases hr : (f.dflt (some (.s f.name)) st).1 with
    | ok o =>
      cases o with
      | some v =>
        exact Or.inl ⟨rfl, some v, [], .dflt hp hq hdata hr, (by dsimp only; rw [setItem_eq]; exact ⟨rfl, rfl, (List.append_nil _).symm, hu.symm⟩)⟩
      | none =>
        exact Or.inl ⟨rfl, none, [], .absent hi' hp hq hdata hr,
          ⟨rfl, rfl, (List.append_nil _).symm, hu.symm⟩⟩
    | error e =>
      cases e with
      | lineErrors ls =>
        exact Or.inl ⟨rfl, none, ls, .dfltErr hp hq hr, ⟨rfl, rfl, rfl, hu.symm⟩⟩
      | omitted =>
        exact Or.inl ⟨rfl, none, [], .omitted hp hq hdata hr,
          ⟨rfl, rfl, (List.append_nil _).symm, hu.symm⟩⟩
      | internal e =>
        exact Or.inr ⟨_, rfl, fun _ h => (by cases h), st,
          Or.inr ⟨by rw [hp, hq]; rfl, hr, fun h => (by cases h)⟩⟩
      | useDefault =>
        exact Or.inr ⟨_, rfl, fun _ h => (by cases h), st,
          Or.inr ⟨by rw [hp, hq]; rfl, hr, fun h => (by cases h)⟩⟩
  rw [if_pos hi]
  simp only [DcArgs.initStep]
  rw [lookup_eq hc hi hk hb]
  dsimp only
  rw [posValue_eq hc hi]
  cases hp : posArg args f i with
  | some x =>
    cases hq : kwArg kw f with
    | some v =>
      have hu : usedAfter kw f acc.used = insertNew f.name acc.used := by simp [usedAfter, hq]
      exact Or.inl ⟨rfl, none, _, .both hp hq, ⟨rfl, rfl, rfl, hu.symm⟩⟩
    | none =>
      have hu : usedAfter kw f acc.used = acc.used := by simp [usedAfter, hq]
      simp only [rebindExtra, Option.map_none]
      generalize hst : ({ acc.st with extra := { acc.st.extra with data := some acc.dict, fieldName := some f.name } } : VState α) = st
      have hdata : st.extra.data = some acc.dict := by rw [← hst]
      have hname : st.extra.fieldName = some f.name := by rw [← hst]
      cases hr : (f.run x st).1 with
      | ok w =>
        exact Or.inl ⟨rfl, some w, [], .pos hp hq hname hdata hr,
          (by dsimp only; rw [setItem_eq]; exact ⟨rfl, rfl, (List.append_nil _).symm, hu.symm⟩)⟩
      | error e =>
        cases e with
        | lineErrors ls =>
          exact Or.inl ⟨rfl, none, _, .posErr hp hq hr, ⟨rfl, rfl, rfl, hu.symm⟩⟩
        | omitted =>
          exact Or.inr ⟨_, rfl, fun _ h => (by cases h), st, Or.inl ⟨x, by rw [hp]; rfl, hr⟩⟩
        | internal e =>
          exact Or.inr ⟨_, rfl, fun _ h => (by cases h), st, Or.inl ⟨x, by rw [hp]; rfl, hr⟩⟩
        | useDefault =>
          exact Or.inr ⟨_, rfl, fun _ h => (by cases h), st, Or.inl ⟨x, by rw [hp]; rfl, hr⟩⟩
  | none =>
    cases hq : kwArg kw f with
    | some x =>
      have hu : usedAfter kw f acc.used = insertNew f.name acc.used := by simp [usedAfter, hq]
      simp only [rebindExtra, Option.map_some]
      generalize hst : ({ acc.st with extra := { acc.st.extra with data := some acc.dict, fieldName := some f.name } } : VState α) = st
      have hdata : st.extra.data = some acc.dict := by rw [← hst]
      have hname : st.extra.fieldName = some f.name := by rw [← hst]
      cases hr : (f.run x st).1 with
      | ok w =>
        exact Or.inl ⟨rfl, some w, [], .kw hp hq hname hdata hr,
          (by dsimp only; rw [setItem_eq]; exact ⟨rfl, rfl, (List.append_nil _).symm, hu.symm⟩)⟩
      | error e =>
        cases e with
        | lineErrors ls =>
          refine Or.inl ⟨rfl, none, _, .kwErr hp hq hr, ⟨rfl, rfl, ?_, hu.symm⟩⟩
          have : ∀ e : LineError α, (LookupPath.ofStr f.name).applyErrorLoc e d.locByAlias f.name =
              e.withOuterLocation (.s f.name) := by
            intro e
            unfold LookupPath.applyErrorLoc
            split <;> rfl
          simp only [this]
        | omitted =>
          exact Or.inr ⟨_, rfl, fun _ h => (by cases h), st, Or.inl ⟨x, by rw [hp, hq]; rfl, hr⟩⟩
        | internal e =>
          exact Or.inr ⟨_, rfl, fun _ h => (by cases h), st, Or.inl ⟨x, by rw [hp, hq]; rfl, hr⟩⟩
        | useDefault =>
          exact Or.inr ⟨_, rfl, fun _ h => (by cases h), st, Or.inl ⟨x, by rw [hp, hq]; rfl, hr⟩⟩
    | none =>
      have hu : usedAfter kw f acc.used = acc.used := by simp [usedAfter, hq]
      simp only [rebindExtra, Option.map_none]
      generalize hst : ({ acc.st with extra := { acc.st.extra with data := some acc.dict, fieldName := some f.name } } : VState α) = st
      have hdata : st.extra.data = some acc.dict := by rw [← hst]
      cases hr : (f.dflt (some (.s f.name)) st).1 with
      | ok o =>
        cases o with
        | some v =>
          exact Or.inl ⟨rfl, some v, [], .dflt hp hq hdata hr,
            (by dsimp only; rw [setItem_eq]; exact ⟨rfl, rfl, (List.append_nil _).symm, hu.symm⟩)⟩
        | none =>
          refine Or.inl ⟨rfl, none, _, .missing hi hp hq hr, ⟨rfl, rfl, ?_, hu.symm⟩⟩
          have : LookupKey.error (.simple (.ofStr f.name)) .missing input d.locByAlias f.name =
              some (.newWithLoc .missing input (.s f.name)) := by
            unfold LookupKey.error
            split <;> rfl
          simp only [this]
          rfl
      | error e =>
        cases e with
        | lineErrors ls =>
          exact Or.inl ⟨rfl, none, ls, .dfltErr hp hq hr, ⟨rfl, rfl, rfl, hu.symm⟩⟩
        | omitted =>
          exact Or.inl ⟨rfl, none, [], .omitted hp hq hdata hr,
            ⟨rfl, rfl, (List.append_nil _).symm, hu.symm⟩⟩
        | internal e =>
          exact Or.inr ⟨_, rfl, fun _ h => (by cases h), st,
            Or.inr ⟨by rw [hp, hq]; rfl, hr, fun h => (by cases h)⟩⟩
        | useDefault =>
          exact Or.inr ⟨_, rfl, fun _ h => (by cases h), st,
            Or.inr ⟨by rw [hp, hq]; rfl, hr, fun h => (by cases h)⟩⟩

/-! ### All fields -/

/-- The iterations of the loop over fields. -/
inductive Rows (args : List α) (kw : Dict α) (input : α) :
    Nat → Dict α → List (DcField α) → List (Option α) → List (LineError α) → Prop
  | nil {i data} : Rows args kw input i data [] [] []
  | cons {i data f fs o os es es'} : Row args kw input i data f o es →
      Rows args kw input (i + 1) (put f o data) fs os es' →
      Rows args kw input i data (f :: fs) (o :: os) (es ++ es')

/-- The attributes after all fields. -/
def putAll : List (DcField α) → List (Option α) → Dict α → Dict α
  | f :: fs, o :: os, dict => putAll fs os (put f o dict)
  | _, _, dict => dict

/-- The init-only values after all fields. -/
def putInitAll : List (DcField α) → List (Option α) → List α → List α
  | f :: fs, o :: os, l => putInitAll fs os (putInit f o l)
  | _, _, l => l

/-- The names used after all fields. -/
def usedAll (kw : Dict α) (fs : List (DcField α)) (used : List String) : List String :=
  fs.foldl (fun u f => usedAfter kw f u) used

theorem loop_spec (d : DcArgs α) {view : ArgsView α} {args : List α} {kw : Dict α}
    (hc : d.Call view args kw) {ba bn : Bool} (hb : ba = true ∨ bn = true) (input : α) :
    ∀ (fs : List (DcField α)) (_ : ∀ f ∈ fs, f.keys = ⟨.simple (.ofStr f.name), none, none⟩)
      (i : Nat) (acc : DAcc α),
    ((d.loop view input ba bn i fs acc).1 = .ok () ∧ ∃ os es,
      Rows args kw input i acc.dict fs os es ∧
      (d.loop view input ba bn i fs acc).2.dict = putAll fs os acc.dict ∧
      (d.loop view input ba bn i fs acc).2.initOnly = putInitAll fs os acc.initOnly ∧
      (d.loop view input ba bn i fs acc).2.errs = acc.errs ++ es ∧
      (d.loop view input ba bn i fs acc).2.used = usedAll kw fs acc.used) ∨
    ∃ e j f, (d.loop view input ba bn i fs acc).1 = .error e ∧ fs[j]? = some f ∧
      FieldRaises args kw (i + j) f e
  | [], _, i, acc => Or.inl ⟨rfl, [], [], .nil, rfl, rfl, (List.append_nil _).symm, rfl⟩
  | f :: fs, hk, i, acc => by
    simp only [DcArgs.loop]
    rcases step_spec d hc (hk f (List.mem_cons_self ..)) hb input i acc with
      ⟨h1, o, es, hrow, ha⟩ | ⟨e, h1, hr⟩
    · rw [h1]
      dsimp only
      generalize (d.step view input ba bn i f acc).2 = acc1 at ha
      rcases loop_spec d hc hb input fs (fun g hg => hk g (List.mem_cons_of_mem _ hg)) (i + 1) acc1
        with ⟨g1, os, es', grow, g2, g3, g4, g5⟩ | ⟨e, j, g, g1, g2, g3⟩
      · refine Or.inl ⟨g1, o :: os, es ++ es', .cons hrow (ha.dict ▸ grow), ?_, ?_, ?_, ?_⟩
        · rw [g2, ha.dict]; rfl
        · rw [g3, ha.initOnly]; rfl
        · rw [g4, ha.errs, List.append_assoc]
        · rw [g5, ha.used]; rfl
      · exact Or.inr ⟨e, j + 1, g, g1, g2, by rw [show i + (j + 1) = i + 1 + j by omega]; exact g3⟩
    · rw [h1]
      exact Or.inr ⟨e, 0, f, rfl, rfl, hr⟩

/-! ### The signature -/

theorem sig_split {d : DcArgs α} {ps ks : List (DcField α)} (hf : d.fields = ps ++ ks)
    (hp : ∀ f ∈ ps, f.init = true ∧ f.kwOnly = false) (hk : ∀ f ∈ ks, f.kwOnly = true) :
    d.sig.posOrKw = ps.map DcField.name ∧
    d.sig.kwOnly = (ks.filter fun f => f.init).map DcField.name := by
  unfold DcArgs.sig
  simp only [hf, List.filter_append]
  have h1 : ps.filter (fun f => f.init && !f.kwOnly) = ps := by
    rw [List.filter_eq_self]
    intro f h
    simp [hp f h]
  have h2 : ks.filter (fun f => f.init && !f.kwOnly) = [] := by
    rw [List.filter_eq_nil_iff]
    intro f h
    simp [hk f h]
  have h3 : ps.filter (fun f => f.init && f.kwOnly) = [] := by
    rw [List.filter_eq_nil_iff]
    intro f h
    simp [hp f h]
  have h4 : ks.filter (fun f => f.init && f.kwOnly) = ks.filter (fun f => f.init) := by
    apply List.filter_congr
    intro f h
    simp [hk f h]
  rw [h1, h2, h3, h4, List.append_nil, List.nil_append]
  exact ⟨rfl, rfl⟩

theorem posFields_eq : ∀ {ps ks : List (DcField α)}, (∀ f ∈ ps, f.kwOnly = false) →
    (∀ f ∈ ks, f.kwOnly = true) → posFields (ps ++ ks) = ps.length
  | [], [], _, _ => rfl
  | [], k :: ks, hp, hk => by
    have := posFields_eq (ps := []) (ks := ks) hp fun f h => hk f (List.mem_cons_of_mem _ h)
    simp only [List.nil_append, List.length_nil] at this ⊢
    rw [posFields, if_pos (hk k (List.mem_cons_self ..)), this]
  | p :: ps, ks, hp, hk => by
    have := posFields_eq (ps := ps) (ks := ks) (fun f h => hp f (List.mem_cons_of_mem _ h)) hk
    rw [List.cons_append, posFields, if_neg (by simp [hp p (List.mem_cons_self ..)]), this]
    rfl

theorem idxOf_of_getElem {l : List String} (hn : l.Nodup) {i : Nat} {n : String}
    (h : l[i]? = some n) : l.idxOf? n = some i := by
  obtain ⟨hi, rfl⟩ := List.getElem?_eq_some_iff.1 h
  cases hx : l.idxOf? l[i] with
  | none =>
    rw [List.idxOf?_eq_none_iff] at hx
    exact absurd (List.getElem_mem hi) hx
  | some j =>
    rw [List.idxOf?, List.findIdx?_eq_some_iff_getElem] at hx
    obtain ⟨hj, h1, -⟩ := hx
    have h1' : l[j] = l[i] := by simpa using h1
    have := (List.getElem_inj hn).1 h1'
    rw [this]

theorem idxOf_none {l : List String} {n : String} (h : n ∉ l) : l.idxOf? n = none := by
  rw [List.idxOf?_eq_none_iff]
  exact h

/-- Everything the proofs need to know about a field of an ordered dataclass. -/
structure Placed (d : DcArgs α) (args : List α) (kw : Dict α) (i : Nat) (f : DcField α) : Prop where
  argument : argument d.sig args kw f.name = (posArg args f i).or (kwArg kw f)
  place : (∀ x, posArg args f i = some x → d.place args f.name = .i i) ∧
    (posArg args f i = none → d.place args f.name = .s f.name)
  twice : ∀ x v, posArg args f i = some x → kwArg kw f = some v → d.sig.Twice args kw i f.name v
  notTwice : ∀ v, d.sig.Twice args kw i f.name v → (posArg args f i).isSome = true ∧ kwArg kw f = some v

theorem params_nodup {d : DcArgs α} (ho : d.Ordered) : d.sig.params.Nodup := by
  obtain ⟨ps, ks, hf, hp, hk⟩ := ho.order
  obtain ⟨h1, h2⟩ := sig_split hf hp hk
  have hn := ho.distinct
  rw [hf, List.map_append, List.nodup_append] at hn
  unfold Sig.params
  rw [h1, h2, show d.sig.posOnly = [] from rfl, List.nil_append, List.nodup_append]
  refine ⟨hn.1, hn.2.1.sublist (List.filter_sublist.map _), ?_⟩
  intro a ha b hb
  refine hn.2.2 a ha b ?_
  obtain ⟨f, hf, rfl⟩ := List.mem_map.1 hb
  exact List.mem_map.2 ⟨f, (List.mem_filter.1 hf).1, rfl⟩

theorem placed {d : DcArgs α} (ho : d.Ordered) (args : List α) (kw : Dict α) {i : Nat}
    {f : DcField α} (h : d.fields[i]? = some f) : Placed d args kw i f := by
  obtain ⟨ps, ks, hf, hp, hk⟩ := ho.order
  obtain ⟨h1, h2⟩ := sig_split hf hp hk
  have hn := params_nodup ho
  have hnn := ho.distinct
  have hpar : d.sig.params = ps.map DcField.name ++ (ks.filter fun f => f.init).map DcField.name := by
    unfold Sig.params
    rw [h1, h2]
    rfl
  have hpos : d.sig.positional = ps.map DcField.name := by
    unfold Sig.positional
    rw [h1]
    rfl
  rw [hf] at h
  by_cases hi : i < ps.length
  · rw [List.getElem?_append_left hi] at h
    have hmem := List.mem_of_getElem? h
    obtain ⟨hi1, hi2⟩ := hp f hmem
    have hpi : d.sig.params[i]? = some f.name := by
      rw [hpar, List.getElem?_append_left (by simpa using hi), List.getElem?_map, h]
      rfl
    have hpa : posArg args f i = args[i]? := by simp [posArg, hi1, hi2]
    have hka : kwArg kw f = kw.get f.name := by simp [kwArg, hi1]
    have hidx : d.sig.posOrKw.idxOf? f.name = some i := by
      refine idxOf_of_getElem ?_ ?_
      · rw [h1]
        rw [hf, List.map_append, List.nodup_append] at hnn
        exact hnn.1
      · rw [h1, List.getElem?_map, h]
        rfl
    refine ⟨?_, ⟨?_, ?_⟩, ?_, ?_⟩
    · unfold Dc.argument
      rw [idxOf_of_getElem hn hpi, hpa, hka]
      dsimp only [Option.bind]
      unfold Sig.bound
      rw [hpos, List.length_map]
      by_cases hl : i < args.length
      · rw [if_pos ⟨hi, hl⟩, List.getElem?_eq_getElem hl]
        rfl
      · rw [if_neg (by omega), if_pos (show d.sig.posOnly.length ≤ _ from Nat.zero_le _), hpi, List.getElem?_eq_none (by omega)]
        rfl
    · intro x hx
      rw [hpa] at hx
      unfold DcArgs.place
      rw [hidx]
      dsimp only
      rw [if_pos (List.getElem?_eq_some_iff.1 hx).1]
    · intro hx
      rw [hpa] at hx
      unfold DcArgs.place
      rw [hidx]
      dsimp only
      rw [if_neg]
      have := List.getElem?_eq_none_iff.1 hx
      omega
    · intro x v hx hv
      rw [hpa] at hx
      rw [hka] at hv
      exact ⟨hpi, Nat.zero_le _, by rw [hpos, List.length_map]; exact hi,
        (List.getElem?_eq_some_iff.1 hx).1, hv⟩
    · rintro v ⟨-, -, -, t4, t5⟩
      rw [hpa, hka, List.getElem?_eq_getElem t4]
      exact ⟨rfl, t5⟩
  · rw [List.getElem?_append_right (by omega)] at h
    have hmem := List.mem_of_getElem? h
    have hko := hk f hmem
    have hpa : posArg args f i = none := by simp [posArg, hko]
    have hnot : f.name ∉ ps.map DcField.name := by
      intro hm
      rw [hf, List.map_append, List.nodup_append] at hnn
      exact hnn.2.2 _ hm _ (List.mem_map.2 ⟨f, hmem, rfl⟩) rfl
    refine ⟨?_, ⟨?_, ?_⟩, ?_, ?_⟩
    · rw [hpa]
      unfold Dc.argument kwArg
      by_cases hin : f.init = true
      · have hm : f.name ∈ (ks.filter fun f => f.init).map DcField.name :=
          List.mem_map.2 ⟨f, List.mem_filter.2 ⟨hmem, hin⟩, rfl⟩
        obtain ⟨j, hj⟩ := List.getElem?_of_mem hm
        have hpj : d.sig.params[ps.length + j]? = some f.name := by
          rw [hpar, List.getElem?_append_right (by simp), List.length_map, ← hj]
          congr 1
          omega
        rw [idxOf_of_getElem hn hpj, if_pos hin]
        dsimp only [Option.bind]
        unfold Sig.bound
        rw [hpos, List.length_map, if_neg (by omega), if_pos (show d.sig.posOnly.length ≤ _ from Nat.zero_le _), hpj]
        rfl
      · rw [idxOf_none, if_neg hin]
        · rfl
        · rw [hpar, List.mem_append]
          rintro (hm | hm)
          · exact hnot hm
          · obtain ⟨g, hg, hgn⟩ := List.mem_map.1 hm
            obtain ⟨hg1, hg2⟩ := List.mem_filter.1 hg
            have hkn : (ks.map DcField.name).Nodup := by
              rw [hf, List.map_append, List.nodup_append] at hnn
              exact hnn.2.1
            have : g = f := by
              obtain ⟨a, ha⟩ := List.getElem?_of_mem hg1
              obtain ⟨b, hb⟩ := List.getElem?_of_mem hmem
              have ha' : (ks.map DcField.name)[a]? = some f.name := by
                rw [List.getElem?_map, ha, ← hgn]; rfl
              have hb' : (ks.map DcField.name)[b]? = some f.name := by
                rw [List.getElem?_map, hb]; rfl
              have hab : a = b :=
                (List.getElem?_inj (List.getElem?_eq_some_iff.1 ha').1 hkn).1 (by rw [ha', hb'])
              subst hab
              rw [ha] at hb
              exact Option.some.inj hb
            subst this
            exact hin hg2
    · intro x hx
      rw [hpa] at hx
      cases hx
    · intro _
      unfold DcArgs.place
      rw [idxOf_none (by rw [h1]; exact hnot)]
    · intro x v hx
      rw [hpa] at hx
      cases hx
    · rintro v ⟨-, -, t3, -, -⟩
      rw [hpos, List.length_map] at t3
      exact absurd t3 hi

theorem mem_sig_keyword {d : DcArgs α} (n : String) :
    n ∈ d.sig.keyword ↔ ∃ f ∈ d.fields, f.init = true ∧ f.name = n := by
  unfold Sig.keyword DcArgs.sig
  simp only [List.mem_append, List.mem_map, List.mem_filter]
  constructor
  · rintro (⟨f, ⟨h1, h2⟩, h3⟩ | ⟨f, ⟨h1, h2⟩, h3⟩)
    · exact ⟨f, h1, (by simp at h2; exact h2.1), h3⟩
    · exact ⟨f, h1, (by simp at h2; exact h2.1), h3⟩
  · rintro ⟨f, h1, h2, h3⟩
    cases hk : f.kwOnly
    · exact Or.inl ⟨f, ⟨h1, by simp [h2, hk]⟩, h3⟩
    · exact Or.inr ⟨f, ⟨h1, by simp [h2, hk]⟩, h3⟩

/-! ### The used names -/

theorem mem_usedAll (kw : Dict α) (n : String) : ∀ (fs : List (DcField α)) (used : List String),
    n ∈ usedAll kw fs used ↔
      n ∈ used ∨ ∃ f ∈ fs, f.init = true ∧ f.name = n ∧ (kw.get n).isSome = true
  | [], used => by simp [usedAll]
  | f :: fs, used => by
    unfold usedAll
    rw [List.foldl_cons]
    have ih := mem_usedAll kw n fs (usedAfter kw f used)
    unfold usedAll at ih
    rw [ih]
    have hu : n ∈ usedAfter kw f used ↔
        n ∈ used ∨ (f.init = true ∧ f.name = n ∧ (kw.get n).isSome = true) := by
      unfold usedAfter kwArg
      by_cases hi : f.init = true
      · rw [if_pos hi]
        cases hg : kw.get f.name with
        | none =>
          dsimp only
          constructor
          · exact Or.inl
          · rintro (h | ⟨-, rfl, h⟩)
            · exact h
            · rw [hg] at h
              cases h
        | some v =>
          dsimp only
          rw [insertNew_mem]
          constructor
          · rintro (rfl | h)
            · exact Or.inr ⟨hi, rfl, by rw [hg]; rfl⟩
            · exact Or.inl h
          · rintro (h | ⟨-, rfl, -⟩)
            · exact Or.inr h
            · exact Or.inl rfl
      · rw [if_neg hi]
        simp [hi]
    rw [hu]
    simp only [List.mem_cons, exists_eq_or_imp, or_assoc]

theorem usedAll_nodup (kw : Dict α) : ∀ (fs : List (DcField α)) {used : List String},
    used.Nodup → (usedAll kw fs used).Nodup
  | [], _, h => h
  | f :: fs, used, h => by
    unfold usedAll
    rw [List.foldl_cons]
    refine usedAll_nodup kw fs ?_
    unfold usedAfter
    split
    · exact insertNew_nodup _ h
    · exact h

/-! ### Extra items -/

/-- What becomes of keyword arguments that no field used. -/
inductive Extras (d : DcArgs α) : Dict α → Dict α → List (LineError α) → Prop
  | nil : Extras d [] [] []
  | forbid {k x l xs es} : d.extra = .forbid → Extras d l xs es →
      Extras d ((k, x) :: l) xs (.newWithLoc .unexpectedKeywordArgument x (.s k) :: es)
  | ignore {k x l xs es} : d.extra = .ignore → Extras d l xs es → Extras d ((k, x) :: l) xs es
  | asIs {k x l xs es} : d.extra = .allow → d.extrasV = none → Extras d l xs es →
      Extras d ((k, x) :: l) ((k, x) :: xs) es
  | valid {k x v st w l xs es} : d.extra = .allow → d.extrasV = some v → (v x st).1 = .ok w →
      Extras d l xs es → Extras d ((k, x) :: l) ((k, w) :: xs) es
  | invalid {k x v st ls l xs es} : d.extra = .allow → d.extrasV = some v →
      (v x st).1 = .error (.lineErrors ls) → Extras d l xs es →
      Extras d ((k, x) :: l) xs (ls.map (·.withOuterLocation (.s k)) ++ es)

theorem kwLoop_spec (d : DcArgs α) (mk : String → α)
    (hmk : ∀ n, d.keyOps.str (mk n) = .ok n ∧ d.keyOps.loc (mk n) = .s n) :
    ∀ (kw : Dict α) (acc : DAcc α),
    ((d.kwLoop (kw.map fun kv => .ok (mk kv.1, kv.2)) acc).1 = .ok () ∧ ∃ xs es,
      Extras d (kw.filter fun kv => decide (kv.1 ∉ acc.used)) xs es ∧
      (d.kwLoop (kw.map fun kv => .ok (mk kv.1, kv.2)) acc).2.dict = acc.dict.update xs ∧
      (d.kwLoop (kw.map fun kv => .ok (mk kv.1, kv.2)) acc).2.initOnly = acc.initOnly ∧
      (d.kwLoop (kw.map fun kv => .ok (mk kv.1, kv.2)) acc).2.errs = acc.errs ++ es) ∨
    ∃ e v k x st, (d.kwLoop (kw.map fun kv => .ok (mk kv.1, kv.2)) acc).1 = .error e ∧
      d.extra = .allow ∧ d.extrasV = some v ∧ (k, x) ∈ kw ∧ k ∉ acc.used ∧ (v x st).1 = .error e ∧
      ∀ ls, e ≠ .lineErrors ls
  | [], acc => Or.inl ⟨rfl, [], [], .nil, rfl, rfl, (List.append_nil _).symm⟩
  | (k, x) :: kw, acc => by
    simp only [List.map_cons, DcArgs.kwLoop, DcArgs.kwStep, (hmk k).1, (hmk k).2]
    by_cases hu : k ∈ acc.used
    · have hcont : acc.used.contains k = true := by simpa using hu
      rw [if_pos hcont]
      dsimp only
      have hfil : ((k, x) :: kw).filter (fun kv => decide (kv.1 ∉ acc.used)) =
          kw.filter fun kv => decide (kv.1 ∉ acc.used) := by
        rw [List.filter_cons_of_neg (by simpa using hu)]
      rw [hfil]
      rcases kwLoop_spec d mk hmk kw acc with h | ⟨e, v, k', x', st, h1, h0, h2, h3, h4, h5, h6⟩
      · exact Or.inl h
      · exact Or.inr ⟨e, v, k', x', st, h1, h0, h2, List.mem_cons_of_mem _ h3, h4, h5, h6⟩
    · have hcont : ¬ acc.used.contains k = true := by simpa using hu
      rw [if_neg hcont]
      have hfil : ((k, x) :: kw).filter (fun kv => decide (kv.1 ∉ acc.used)) =
          (k, x) :: kw.filter fun kv => decide (kv.1 ∉ acc.used) := by
        rw [List.filter_cons_of_pos (by simpa using hu)]
      rw [hfil]
      -- the rest of the loop from variables with the same used names
      have key : ∀ (acc1 : DAcc α), acc1.used = acc.used → acc1.initOnly = acc.initOnly →
          (∃ (one : Dict α) (e1 : List (LineError α)), acc1.dict = acc.dict.update one ∧
            acc1.errs = acc.errs ++ e1 ∧
            ∀ l xs es, Extras d l xs es → Extras d ((k, x) :: l) (one ++ xs) (e1 ++ es)) →
          ((d.kwLoop (kw.map fun kv => .ok (mk kv.1, kv.2)) acc1).1 = .ok () ∧ ∃ xs es,
            Extras d ((k, x) :: kw.filter fun kv => decide (kv.1 ∉ acc.used)) xs es ∧
            (d.kwLoop (kw.map fun kv => .ok (mk kv.1, kv.2)) acc1).2.dict = acc.dict.update xs ∧
            (d.kwLoop (kw.map fun kv => .ok (mk kv.1, kv.2)) acc1).2.initOnly = acc.initOnly ∧
            (d.kwLoop (kw.map fun kv => .ok (mk kv.1, kv.2)) acc1).2.errs = acc.errs ++ es) ∨
          ∃ e v k' x' st, (d.kwLoop (kw.map fun kv => .ok (mk kv.1, kv.2)) acc1).1 = .error e ∧
            d.extra = .allow ∧ d.extrasV = some v ∧ (k', x') ∈ (k, x) :: kw ∧ k' ∉ acc.used ∧
            (v x' st).1 = .error e ∧ ∀ ls, e ≠ .lineErrors ls := by
        rintro acc1 hu1 hi1 ⟨one, e1, hd1, he1, hx⟩
        rcases kwLoop_spec d mk hmk kw acc1 with
          ⟨g1, xs, es, g2, g3, g4, g5⟩ | ⟨e, v, k', x', st, h1, h0, h2, h3, h4, h5, h6⟩
        · rw [hu1] at g2
          refine Or.inl ⟨g1, one ++ xs, e1 ++ es, hx _ _ _ g2, ?_, ?_, ?_⟩
          · rw [g3, hd1]
            unfold Dict.update
            rw [List.foldl_append]
          · rw [g4, hi1]
          · rw [g5, he1, List.append_assoc]
        · rw [hu1] at h4
          exact Or.inr ⟨e, v, k', x', st, h1, h0, h2, List.mem_cons_of_mem _ h3, h4, h5, h6⟩
      cases hex : d.extra with
      | forbid =>
        have := key { acc with errs := acc.errs ++ [.newWithLoc .unexpectedKeywordArgument x (.s k)] }
          rfl rfl ⟨[], [_], rfl, rfl, fun _ _ _ h => .forbid hex h⟩
        rw [hex] at this
        exact this
      | ignore =>
        have := key acc rfl rfl
          ⟨[], [], rfl, (List.append_nil _).symm, fun _ _ _ h => .ignore hex h⟩
        rw [hex] at this
        exact this
      | allow =>
        dsimp only
        cases hv : d.extrasV with
        | none =>
          have := key { acc with dict := acc.dict.set k x } rfl rfl
            ⟨[(k, x)], [], rfl, (List.append_nil _).symm, fun _ _ _ h => .asIs hex hv h⟩
          rw [hex, hv] at this
          exact this
        | some v =>
          simp only [rebindExtra, true_and]
          generalize ({ acc.st with extra := { acc.st.extra with data := some acc.dict } } : VState α)
            = st
          cases hr : (v x st).1 with
          | ok w =>
            have := key { acc with dict := acc.dict.set k w, st := { (v x st).2 with extra := acc.st.extra } }
              rfl rfl ⟨[(k, w)], [], rfl, (List.append_nil _).symm,
                fun _ _ _ h => .valid hex hv hr h⟩
            rw [hex, hv] at this
            simp only [true_and] at this
            exact this
          | error e =>
            cases e with
            | lineErrors ls =>
              have := key { acc with errs := acc.errs ++ ls.map (·.withOuterLocation (.s k)), st := { (v x st).2 with extra := acc.st.extra } }
                rfl rfl ⟨[], _, rfl, rfl, fun _ _ _ h => .invalid hex hv hr h⟩
              rw [hex, hv] at this
              simp only [true_and] at this
              exact this
            | omitted =>
              exact Or.inr ⟨_, v, k, x, st, rfl, rfl, List.mem_cons_self .., hu, hr,
                fun _ h => (by cases h)⟩
            | internal e =>
              exact Or.inr ⟨_, v, k, x, st, rfl, rfl, List.mem_cons_self .., hu, hr,
                fun _ h => (by cases h)⟩
            | useDefault =>
              exact Or.inr ⟨_, v, k, x, st, rfl, rfl, List.mem_cons_self .., hu, hr,
                fun _ h => (by cases h)⟩

theorem kwPart_spec (d : DcArgs α) {view : ArgsView α} {args : List α} {kw : Dict α}
    (hc : d.Call view args kw) (acc : DAcc α) (hu : acc.used = usedAll kw d.fields []) :
    ((d.kwPart view acc).1 = .ok () ∧ ∃ xs es, Extras d (d.sig.surplusKw kw) xs es ∧
      (d.kwPart view acc).2.dict = acc.dict.update xs ∧
      (d.kwPart view acc).2.initOnly = acc.initOnly ∧
      (d.kwPart view acc).2.errs = acc.errs ++ es) ∨
    ∃ e v k x st, (d.kwPart view acc).1 = .error e ∧
      d.extra = .allow ∧ d.extrasV = some v ∧ (k, x) ∈ d.sig.surplusKw kw ∧ (v x st).1 = .error e ∧
      ∀ ls, e ≠ .lineErrors ls := by
  have husd : ∀ n ∈ kw.map Prod.fst, n ∈ acc.used ↔ n ∈ d.sig.keyword := by
    intro n hn
    rw [hu, mem_usedAll, mem_sig_keyword]
    constructor
    · rintro (h | ⟨f, h1, h2, h3, -⟩)
      · cases h
      · exact ⟨f, h1, h2, h3⟩
    · rintro ⟨f, h1, h2, h3⟩
      exact Or.inr ⟨f, h1, h2, h3, get_isSome hn⟩
  have hf : (kw.filter fun kv => decide (kv.1 ∉ acc.used)) = d.sig.surplusKw kw := by
    unfold Sig.surplusKw
    apply List.filter_congr
    intro kv hkv
    have := husd kv.1 (List.mem_map.2 ⟨kv, hkv, rfl⟩)
    simp [this]
  have hsame : d.sig.surplusKw kw = [] →
      ∃ xs es, Extras d (d.sig.surplusKw kw) xs es ∧ acc.dict = acc.dict.update xs ∧
        acc.initOnly = acc.initOnly ∧ acc.errs = acc.errs ++ es := by
    intro h
    rw [h]
    exact ⟨[], [], .nil, rfl, rfl, (List.append_nil _).symm⟩
  have hkw := hc.kwargs
  simp only [DcArgs.kwPart]
  cases hv : view.kwargs with
  | none =>
    rw [hv] at hkw
    dsimp only at hkw
    refine Or.inl ⟨rfl, hsame ?_⟩
    rw [hkw]
    rfl
  | some kv =>
    rw [hv] at hkw
    dsimp only at hkw ⊢
    obtain ⟨hlen, hget, mk, hent, hmk⟩ := hkw
    by_cases hl : kv.len ≠ acc.used.length
    · rw [if_pos hl, hent]
      have := kwLoop_spec d mk hmk kw acc
      rw [hf] at this
      rcases this with h | ⟨e, v, k, x, st, h1, h0, h2, h3, h4, h5, h6⟩
      · exact Or.inl h
      · refine Or.inr ⟨e, v, k, x, st, h1, h0, h2, ?_, h5, h6⟩
        rw [← hf, List.mem_filter]
        exact ⟨h3, by simpa using h4⟩
    · rw [if_neg hl]
      refine Or.inl ⟨rfl, hsame ?_⟩
      have hall := all_of_length (used := acc.used) (keys := kw.map Prod.fst)
        (by rw [hu]; exact usedAll_nodup _ _ List.nodup_nil) (by
        intro x hx
        rw [hu, mem_usedAll] at hx
        rcases hx with h | ⟨_, _, _, _, h⟩
        · cases h
        · exact mem_of_isSome h) (by rw [List.length_map, ← hlen]; omega)
      rw [← hf, List.filter_eq_nil_iff]
      intro kv' hkv'
      have := hall kv'.1 (List.mem_map.2 ⟨kv', hkv', rfl⟩)
      simpa using this

/-! ### The whole -/

/-- What `validate` comes to. -/
theorem run_spec {d : DcArgs α} (ho : d.Ordered) {view : ArgsView α}
    {args : List α} {kw : Dict α} (hc : d.Call view args kw) (input : α) (st : VState α)
    (hb : st.validateByAliasOr d.byAlias = true ∨ st.validateByNameOr d.byName = true) :
    (∃ os es xs es', Rows args kw input 0 [] d.fields os es ∧
      Extras d (d.sig.surplusKw kw) xs es' ∧
      (d.run view input st).1 =
        (let errs := es ++ unexpectedArgs d.sig.posOrKw.length (args.drop d.sig.posOrKw.length) ++ es'
        if errs.isEmpty then
          .ok ⟨(putAll d.fields os []).update xs,
            if d.collectInitOnly then some (putInitAll d.fields os []) else none⟩
        else .error (.lineErrors errs))) ∨
    ∃ e, (d.run view input st).1 = .error e ∧ d.Raises args kw e := by
  obtain ⟨ps, ks, hf, hp, hk⟩ := ho.order
  obtain ⟨hs1, -⟩ := sig_split hf hp hk
  have hpc : posFields d.fields = d.sig.posOrKw.length := by
    rw [hf, posFields_eq (fun f h => (hp f h).2) hk, hs1, List.length_map]
  simp only [DcArgs.run]
  rcases loop_spec d hc hb input d.fields ho.keys 0 ⟨[], [], [], [], 0, st⟩ with
    ⟨h1, os, es, hrows, h2, h3, h4, h5⟩ | ⟨e, j, f, h1, h2, h3⟩
  · rw [h1]
    dsimp only
    generalize (d.loop view input (st.validateByAliasOr d.byAlias) (st.validateByNameOr d.byName) 0
      d.fields ⟨[], [], [], [], 0, st⟩).2 = acc1 at h2 h3 h4 h5
    have ha : (d.argsPart view acc1).dict = acc1.dict ∧
        (d.argsPart view acc1).initOnly = acc1.initOnly ∧
        (d.argsPart view acc1).used = acc1.used ∧
        (d.argsPart view acc1).errs = acc1.errs ++
          unexpectedArgs d.sig.posOrKw.length (args.drop d.sig.posOrKw.length) := by
      have hargs := hc.args
      unfold DcArgs.argsPart
      cases hv : view.args with
      | none =>
        rw [hv] at hargs
        simp only [Option.getD_none] at hargs
        subst hargs
        simp [unexpectedArgs]
      | some l =>
        rw [hv] at hargs
        simp only [Option.getD_some] at hargs
        subst hargs
        dsimp only
        rw [hpc]
        split
        · exact ⟨rfl, rfl, rfl, rfl⟩
        · rw [List.drop_eq_nil_of_le (by omega)]
          simp [unexpectedArgs]
    generalize d.argsPart view acc1 = acc2 at ha
    obtain ⟨a1, a2, a3, a4⟩ := ha
    rcases kwPart_spec d hc acc2 (by rw [a3, h5]) with
      ⟨g1, xs, es', g2, g3, g4, g5⟩ | ⟨e, v, k, x, st', g1, g0, g2, g3, g4, g5⟩
    · refine Or.inl ⟨os, es, xs, es', hrows, g2, ?_⟩
      rw [g1]
      dsimp only
      rw [g3, g4, g5, a1, a2, a4, h2, h3, h4, List.nil_append]
      split <;> rfl
    · rw [g1]
      exact Or.inr ⟨e, rfl, .extra v k x st' e g0 g2 g3 g4 g5⟩
  · rw [h1]
    refine Or.inr ⟨e, rfl, ?_⟩
    have hpl := placed ho args kw h2
    obtain ⟨hne, st', hx⟩ := h3
    rw [Nat.zero_add] at hx
    have hm := List.mem_of_getElem? h2
    rcases hx with ⟨x, h6, h7⟩ | ⟨h6, h7, h8⟩
    · exact .run f x st' e hm (by rw [hpl.argument, h6]) h7 hne
    · exact .dflt f st' e hm (by rw [hpl.argument, h6]) h7 hne h8

/-! ### Reading the rows -/

theorem Rows.length {args : List α} {kw : Dict α} {input : α} {i : Nat} {data : Dict α}
    {fs : List (DcField α)} {os : List (Option α)} {es : List (LineError α)}
    (h : Rows args kw input i data fs os es) : os.length = fs.length := by
  induction h with
  | nil => rfl
  | cons _ _ ih => simp [ih]

/-- Each row, with the attributes it saw. -/
theorem Rows.at {args : List α} {kw : Dict α} {input : α} {i : Nat} {data : Dict α}
    {fs : List (DcField α)} {os : List (Option α)} {es : List (LineError α)}
    (h : Rows args kw input i data fs os es) :
    ∀ (j : Nat) (f : DcField α), fs[j]? = some f → ∃ o es', os[j]? = some o ∧
      Row args kw input (i + j) (putAll (fs.take j) (os.take j) data) f o es' ∧
      ∀ e ∈ es', e ∈ es := by
  induction h with
  | nil => intro j f h; simp at h
  | @cons i data f fs o os es es' h1 h2 ih =>
    intro j g hg
    cases j with
    | zero =>
      simp only [List.getElem?_cons_zero, Option.some.injEq] at hg
      subst hg
      exact ⟨o, es, rfl, h1, fun e he => List.mem_append_left _ he⟩
    | succ j =>
      obtain ⟨o', es1, h3, h4, h5⟩ := ih j g (by simpa using hg)
      refine ⟨o', es1, by simpa using h3, ?_, fun e he => List.mem_append_right _ (h5 e he)⟩
      rw [show i + (j + 1) = i + 1 + j by omega]
      exact h4

/-- Each error comes from a row. -/
theorem Rows.of_mem {args : List α} {kw : Dict α} {input : α} {i : Nat} {data : Dict α}
    {fs : List (DcField α)} {os : List (Option α)} {es : List (LineError α)}
    (h : Rows args kw input i data fs os es) : ∀ e ∈ es, ∃ (j : Nat) (f : DcField α) (o : _) (es' : _)
      (data' : _), fs[j]? = some f ∧ Row args kw input (i + j) data' f o es' ∧ e ∈ es' := by
  induction h with
  | nil => intro e h; cases h
  | @cons i data f fs o os es es' h1 h2 ih =>
    intro e he
    rcases List.mem_append.1 he with he | he
    · exact ⟨0, f, o, es, data, rfl, h1, he⟩
    · obtain ⟨j, g, o', es1, data', h3, h4, h5⟩ := ih e he
      refine ⟨j + 1, g, o', es1, data', by simpa using h3, ?_, h5⟩
      rw [show i + (j + 1) = i + 1 + j by omega]
      exact h4

theorem attributes_cons (f : DcField α) (o : Option α) (rows : List (DcField α × Option α)) :
    attributes ((f, o) :: rows) = put f o [] ++ attributes rows := by
  unfold attributes put
  rw [List.filterMap_cons]
  dsimp only
  cases f.initOnly <;> cases o <;> rfl

theorem attributes_keys : ∀ (rows : List (DcField α × Option α)) (n : String),
    n ∈ (attributes rows).map Prod.fst → n ∈ rows.map fun r => r.1.name
  | [], n, h => by cases h
  | (f, o) :: rows, n, h => by
    rw [attributes_cons, List.map_append, List.mem_append] at h
    rcases h with h | h
    · rw [List.map_cons]
      unfold put at h
      cases o with
      | none => cases h
      | some v =>
        dsimp only at h
        split at h
        · cases h
        · rw [Dict.set, List.map_cons, List.map_nil, List.mem_singleton] at h
          rw [h]
          exact List.mem_cons_self ..
    · exact List.mem_cons_of_mem _ (attributes_keys rows n h)

theorem putAll_eq : ∀ (fs : List (DcField α)) (os : List (Option α)) (dict : Dict α),
    os.length = fs.length → (fs.map DcField.name).Nodup →
    (∀ f ∈ fs, f.name ∉ dict.map Prod.fst) → putAll fs os dict = dict ++ attributes (fs.zip os)
  | [], [], dict, _, _, _ => (List.append_nil _).symm
  | f :: fs, o :: os, dict, hl, hn, hd => by
    rw [putAll, List.zip_cons_cons, attributes_cons, ← List.append_assoc]
    rw [List.map_cons, List.nodup_cons] at hn
    have hput : put f o dict = dict ++ put f o [] := by
      unfold put
      cases o with
      | none => exact (List.append_nil _).symm
      | some v =>
        dsimp only
        split
        · exact (List.append_nil _).symm
        · rw [Dict.set_new _ _ _ (hd f (List.mem_cons_self ..))]
          rfl
    rw [hput]
    refine putAll_eq fs os _ (by simpa using hl) hn.2 ?_
    intro g hg hm
    rw [List.map_append, List.mem_append] at hm
    rcases hm with hm | hm
    · exact hd g (List.mem_cons_of_mem _ hg) hm
    · have := attributes_keys [(f, o)] g.name (by rw [attributes_cons]; simpa [attributes] using hm)
      simp only [List.map_cons, List.map_nil, List.mem_singleton] at this
      exact hn.1 (List.mem_map.2 ⟨g, hg, this⟩)

theorem putInitAll_eq : ∀ (fs : List (DcField α)) (os : List (Option α)) (l : List α),
    os.length = fs.length → putInitAll fs os l = l ++ initOnlyValues (fs.zip os)
  | [], [], l, _ => (List.append_nil _).symm
  | f :: fs, o :: os, l, hl => by
    rw [putInitAll, putInitAll_eq fs os _ (by simpa using hl), List.zip_cons_cons]
    unfold putInit initOnlyValues
    rw [List.filterMap_cons]
    dsimp only
    cases o with
    | none => cases f.initOnly <;> rfl
    | some v =>
      cases f.initOnly
      · rfl
      · simp

/-- A row without errors is the value of the field. -/
theorem Row.value {d : DcArgs α} {args : List α} {kw : Dict α} {input : α} {i : Nat} {data : Dict α}
    {f : DcField α} {o : Option α} (hp : Placed d args kw i f) (he : d.Explains)
    (hf : f ∈ d.fields) (h : Row args kw input i data f o []) :
    FieldValue f data (argument d.sig args kw f.name) o ∧
    (∀ v, ¬ d.sig.Twice args kw i f.name v) ∧
    (argument d.sig args kw f.name = none → f.init = true → f.HasDefault) := by
  have ht : posArg args f i = none ∨ kwArg kw f = none → ∀ v, ¬ d.sig.Twice args kw i f.name v := by
    intro h v hv
    obtain ⟨h1, h2⟩ := hp.notTwice v hv
    rcases h with h | h
    · rw [h] at h1; cases h1
    · rw [h] at h2; cases h2
  rw [hp.argument]
  generalize hes : ([] : List (LineError α)) = es at h
  cases h with
  | both => cases hes
  | @pos x w st h1 h2 h3 h4 h5 =>
    rw [h1]
    exact ⟨⟨st, w, h3, h4, h5, rfl⟩, ht (Or.inr h2), fun h => by cases h⟩
  | @posErr x ls st h1 h2 h3 =>
    exfalso
    have : ls = [] := List.map_eq_nil_iff.1 hes.symm
    subst this
    exact he.1 f hf x st h3
  | @kw x w st h1 h2 h3 h4 h5 =>
    rw [h1, h2]
    exact ⟨⟨st, w, h3, h4, h5, rfl⟩, ht (Or.inl h1), fun h => by cases h⟩
  | @kwErr x ls st h1 h2 h3 =>
    exfalso
    have : ls = [] := List.map_eq_nil_iff.1 hes.symm
    subst this
    exact he.1 f hf x st h3
  | @dflt w st h1 h2 h3 h4 =>
    rw [h1, h2]
    exact ⟨⟨st, h3, Or.inl ⟨h4, fun h => by cases h⟩⟩, ht (Or.inl h1),
      fun _ _ => ⟨st, Or.inl ⟨w, h4⟩⟩⟩
  | @dfltErr ls st h1 h2 h3 =>
    exfalso
    subst hes
    exact he.2.1 f hf _ st h3
  | @omitted st h1 h2 h3 h4 =>
    rw [h1, h2]
    exact ⟨⟨st, h3, Or.inr ⟨h4, rfl⟩⟩, ht (Or.inl h1), fun _ _ => ⟨st, Or.inr h4⟩⟩
  | missing => cases hes
  | @absent st h0 h1 h2 h3 h4 =>
    rw [h1, h2]
    exact ⟨⟨st, h3, Or.inl ⟨h4, fun _ => h0⟩⟩, ht (Or.inl h1), fun _ h => by rw [h0] at h; cases h⟩

/-- The errors of a row have a reason. -/
theorem Row.reason {d : DcArgs α} {args : List α} {kw : Dict α} {input : α} {i : Nat} {data : Dict α}
    {f : DcField α} {o : Option α} {es : List (LineError α)} (hp : Placed d args kw i f)
    (hf : f ∈ d.fields) (h : Row args kw input i data f o es) :
    ∀ e ∈ es, d.Reason input args kw e := by
  have ha := hp.argument
  intro e he
  cases h with
  | @both x v h1 h2 =>
    rw [List.mem_singleton] at he
    subst he
    exact .twice i f.name v (hp.twice x v h1 h2)
  | pos => cases he
  | @posErr x ls st h1 h2 h3 =>
    obtain ⟨e0, h4, rfl⟩ := List.mem_map.1 he
    rw [h1] at ha
    exact .invalid f x _ hf ha ⟨st, ls, e0, h3, h4, by rw [hp.place.1 x h1]⟩
  | kw => cases he
  | @kwErr x ls st h1 h2 h3 =>
    obtain ⟨e0, h4, rfl⟩ := List.mem_map.1 he
    rw [h1, h2] at ha
    exact .invalid f x _ hf ha ⟨st, ls, e0, h3, h4, by rw [hp.place.2 h1]⟩
  | dflt => cases he
  | @dfltErr ls st h1 h2 h3 =>
    rw [h1, h2] at ha
    exact .badDefault f e hf ha ⟨st, es, h3, he⟩
  | omitted => cases he
  | @missing st h0 h1 h2 h3 =>
    rw [List.mem_singleton] at he
    subst he
    rw [h1, h2] at ha
    exact .missing f hf h0 ha ⟨st, h3⟩
  | absent => cases he

theorem Extras.values {d : DcArgs α} (he : d.Explains) {kw xs : Dict α} {es : List (LineError α)}
    (h : Extras d kw xs es) (h0 : es = []) : d.ExtraValues kw xs := by
  unfold DcArgs.ExtraValues
  induction h with
  | nil =>
    cases d.extra with
    | forbid => exact ⟨rfl, rfl⟩
    | ignore => rfl
    | allow =>
      dsimp only
      cases d.extrasV with
      | none => rfl
      | some v => exact .nil
  | forbid => cases h0
  | ignore hx _ ih =>
    have := ih h0
    rw [hx] at this ⊢
    exact this
  | asIs hx hv _ ih =>
    have := ih h0
    rw [hx] at this ⊢
    dsimp only at this ⊢
    rw [hv] at this ⊢
    dsimp only at this ⊢
    rw [this]
  | valid hx hv hr _ ih =>
    have := ih h0
    rw [hx] at this ⊢
    dsimp only at this ⊢
    rw [hv] at this ⊢
    exact .cons rfl hr this
  | @invalid k x v st ls l xs es hx hv hr _ ih =>
    exfalso
    have : ls = [] := List.map_eq_nil_iff.1 (List.append_eq_nil_iff.1 h0).1
    subst this
    exact he.2.2 v hv x st hr

theorem Extras.reason {d : DcArgs α} {input : α} {args : List α} {kw0 kw xs : Dict α}
    {es : List (LineError α)} (h : Extras d kw xs es)
    (hs : ∀ kv ∈ kw, kv ∈ d.sig.surplusKw kw0) :
    (∀ e ∈ es, d.Reason input args kw0 e) ∧
    (d.extra = .forbid → ∀ k x, (k, x) ∈ kw → .newWithLoc .unexpectedKeywordArgument x (.s k) ∈ es) := by
  induction h with
  | nil => exact ⟨fun _ h => (by cases h), fun _ _ _ h => (by cases h)⟩
  | @forbid k x l xs es hx _ ih =>
    obtain ⟨i1, i2⟩ := ih fun kv h => hs kv (List.mem_cons_of_mem _ h)
    constructor
    · intro e he
      rcases List.mem_cons.1 he with rfl | he
      · exact .unknown k x hx (hs _ (List.mem_cons_self ..))
      · exact i1 e he
    · intro h k' x' hm
      rcases List.mem_cons.1 hm with hm | hm
      · cases hm
        exact List.mem_cons_self ..
      · exact List.mem_cons_of_mem _ (i2 h k' x' hm)
  | ignore hx _ ih =>
    obtain ⟨i1, i2⟩ := ih fun kv h => hs kv (List.mem_cons_of_mem _ h)
    exact ⟨i1, fun h => by rw [hx] at h; cases h⟩
  | asIs hx hv _ ih =>
    obtain ⟨i1, i2⟩ := ih fun kv h => hs kv (List.mem_cons_of_mem _ h)
    exact ⟨i1, fun h => by rw [hx] at h; cases h⟩
  | valid hx hv hr _ ih =>
    obtain ⟨i1, i2⟩ := ih fun kv h => hs kv (List.mem_cons_of_mem _ h)
    exact ⟨i1, fun h => by rw [hx] at h; cases h⟩
  | @invalid k x v st ls l xs es hx hv hr _ ih =>
    obtain ⟨i1, i2⟩ := ih fun kv h => hs kv (List.mem_cons_of_mem _ h)
    refine ⟨?_, fun h => by rw [hx] at h; cases h⟩
    intro e he
    rcases List.mem_append.1 he with he | he
    · obtain ⟨e0, h1, rfl⟩ := List.mem_map.1 he
      exact .invalidExtra v k x _ hx hv (hs _ (List.mem_cons_self ..)) ⟨st, ls, e0, hr, h1, rfl⟩
    · exact i1 e he

end PC.Dc
