import Verif.Lemmas.ArgumentsV3Errors
import Verif.Props.Arguments

/-
C85: an `arguments-v3` schema binds a call the way Python binds it, however the call is spelled.

The theorems are partial: they are for signatures without parameter aliases and for validators
that say why they reject (`Explains`); `**kwargs` given in a mapping must not contain the name of a
parameter (`NoClash`).  What happens otherwise is at the end of the file.
-/

namespace PC.ArgsV3
open PC.Lookup PC.Fields
open PC.Args (Sig EachValid EachKwValid ArgsView Arguments Acc)
variable {α : Type}

/-! ### Building -/

/-- **C85**, which parameter lists `build` accepts: those of Python's grammar, without
`omit_on_error`, in which a variadic parameter does not follow a default (see `VariadicQuirk`). -/
theorem build_iff (ds : List Decl) : build ds = .ok () ↔
    PythonParams ds ∧ (∀ d ∈ ds, d.omitOnError = false) ∧
      ∀ pre d post, ds = pre ++ d :: post → VariadicQuirk pre d := by
  have h0 : build ds = .ok () ↔ ∃ st', buildLoop {} ds = .ok st' := by
    unfold build
    cases buildLoop {} ds with
    | error e => exact Iff.intro (fun h => by cases h) (fun ⟨_, h⟩ => by cases h)
    | ok st => exact ⟨fun _ => ⟨st, rfl⟩, fun _ => rfl⟩
  rw [h0, buildLoop_iff ds After.nil]
  constructor
  · intro h
    refine ⟨fun p d q e => (h p d q e).follow, ?_, fun p d q e => (h p d q e).quirk⟩
    intro d hd
    obtain ⟨p, q, e⟩ := List.append_of_mem hd
    exact (h p d q e).noOmit
  · rintro ⟨h1, h2, h3⟩ p d q e
    exact ⟨h1 p d q e, h2 d (by rw [e]; simp), h3 p d q e⟩

/-- `def f(a, /, b, c=1, *, d, **kwargs)`. -/
def demoDecls : List Decl :=
  [⟨"a", .positionalOnly, false, false⟩, ⟨"b", .positionalOrKeyword, false, false⟩,
    ⟨"c", .positionalOrKeyword, true, false⟩, ⟨"d", .keywordOnly, false, false⟩,
    ⟨"kwargs", .varKwUniform, false, false⟩]

example : build demoDecls = .ok () := by rfl

/-- Not every parameter list of Python's grammar is accepted: `def f(a=1, *args)` is refused as if
`args` were a required parameter. -/
theorem build_refuses_star_after_default :
    let ds : List Decl := [⟨"a", .positionalOrKeyword, true, false⟩, ⟨"args", .varArgs, false, false⟩]
    PythonParams ds ∧ build ds = .error (.requiredAfterDefault "args") := by
  refine ⟨?_, rfl⟩
  intro pre d post h
  match pre, h with
  | [], h =>
    cases h
    exact ⟨by simp, by simp, by simp⟩
  | [c], h =>
    simp only [List.cons_append, List.nil_append, List.cons.injEq] at h
    obtain ⟨rfl, rfl, -⟩ := h
    exact ⟨by simp, by simp [Mode.place], by simp [Mode.positional]⟩
  | c :: c' :: pre, h =>
    simp at h

/-! ### Signatures -/

section
variable {v : V3 α} {q : Parts α} {s : Sig} (hd : v.Describes q s)
include hd

theorem named_names : q.named.map Param.name = s.params := by
  have h1 := congrArg (List.map Prod.snd) hd.pos
  have h2 := congrArg (List.map Prod.snd) hd.kwOnly
  simp only [List.map_map, List.map_append] at h1 h2
  have e : ∀ (m : Mode) (l : List String), List.map (Prod.snd ∘ fun x => (m, x)) l = l := by
    intro m l
    induction l with
    | nil => rfl
    | cons x l ih => rw [List.map_cons, ih]; rfl
  rw [e, e] at h1
  rw [e] at h2
  unfold Parts.named Sig.params
  rw [List.map_append]
  exact (congrArg (· ++ _) h1).trans (congrArg (_ ++ ·) h2)

theorem pos_length : q.pos.length = s.positional.length := by
  have := congrArg List.length hd.pos
  simpa [Sig.positional] using this

theorem named_distinct : s.params.Nodup := by
  rw [← named_names hd]
  refine List.Nodup.sublist ?_ hd.distinct
  rw [hd.params]
  unfold Parts.named
  refine List.Sublist.map _ ?_
  have h1 : q.pos.Sublist (q.pos ++ q.star.toList) := List.sublist_append_left ..
  exact (h1.append (List.Sublist.refl _)).trans (List.sublist_append_left ..)

theorem named_at {i : Nat} {p : Param α} (h : q.named[i]? = some p) :
    s.params[i]? = some p.name ∧ (i < s.positional.length ↔ i < q.pos.length) := by
  refine ⟨?_, by rw [pos_length hd]⟩
  rw [← named_names hd, List.getElem?_map, h]
  rfl

end

theorem Contribs.pos {v : V3 α} {m : Dict α} {ps : List (Param α)} {as : List α} {ks : Dict α}
    (h : v.Contribs m ps as ks) (hp : ∀ p ∈ ps, p.mode.positional = true) :
    ks = [] ∧ as.length = ps.length ∧ ∀ (i : Nat) p, ps[i]? = some p →
      ∃ w, as[i]? = some w ∧ ParamOutput p (m.get p.name) w := by
  induction h with
  | nil => exact ⟨rfl, rfl, by simp⟩
  | @cons p ps a as k ks h1 h2 ih =>
    obtain ⟨rfl, i2, i3⟩ := ih fun p hp' => hp p (List.mem_cons_of_mem _ hp')
    have hmo := hp p (List.mem_cons_self ..)
    have hc : ∃ w, ParamOutput p (m.get p.name) w ∧ a = [w] ∧ k = [] := by
      unfold V3.Contrib at h1
      cases hm : p.mode <;> rw [hm] at h1 hmo <;> first | exact h1 | cases hmo
    obtain ⟨w, hw, rfl, rfl⟩ := hc
    refine ⟨rfl, by simp [i2], ?_⟩
    intro i p' hi
    cases i with
    | zero =>
      cases hi
      exact ⟨w, rfl, hw⟩
    | succ i => exact i3 i p' hi

theorem Contribs.kwOnly {v : V3 α} {m : Dict α} {ps : List (Param α)} {as : List α} {ks : Dict α}
    (h : v.Contribs m ps as ks) (hp : ∀ p ∈ ps, p.mode = .keywordOnly) :
    as = [] ∧ ks.map Prod.fst = ps.map Param.name ∧ ∀ (i : Nat) p, ps[i]? = some p →
      ∃ w, (p.name, w) ∈ ks ∧ ParamOutput p (m.get p.name) w := by
  induction h with
  | nil => exact ⟨rfl, rfl, by simp⟩
  | @cons p ps a as k ks h1 h2 ih =>
    obtain ⟨rfl, i2, i3⟩ := ih fun p hp' => hp p (List.mem_cons_of_mem _ hp')
    have hmo := hp p (List.mem_cons_self ..)
    unfold V3.Contrib at h1
    rw [hmo] at h1
    obtain ⟨w, hw, rfl, rfl⟩ := h1
    refine ⟨rfl, by simp [i2], ?_⟩
    intro i p' hi
    cases i with
    | zero =>
      cases hi
      exact ⟨w, by simp, hw⟩
    | succ i =>
      obtain ⟨w', h3, h4⟩ := i3 i p' hi
      exact ⟨w', List.mem_append_right _ h3, h4⟩

theorem EachEntry.keys {v : V3 α} {p : Param α} {es : List (α × α)} {out : Dict α}
    (h : v.EachEntry p es out) :
    es.map (fun kv => v.keyOps.str kv.1) = (out.map Prod.fst).map .ok := by
  induction h with
  | nil => rfl
  | cons h1 _ _ ih =>
    rw [List.map_cons, ih, h1]
    rfl

theorem StarStarPart.nodup {v : V3 α} {q : Parts α} {m out : Dict α} (hdi : v.Dicts)
    (h : v.StarStarPart q m out) : (out.map Prod.fst).Nodup := by
  unfold V3.StarStarPart at h
  split at h
  · unfold V3.StarStarOutput at h
    split at h
    · split at h
      · obtain ⟨es, h1, h2⟩ := h
        exact hdi.kwargs _ _ h1 _ (EachEntry.keys h2)
      · rw [h]
        exact List.nodup_nil
    · obtain ⟨st, w, -, h2⟩ := h
      exact hdi.dict _ _ h2
  · rw [h]
    exact List.nodup_nil

/-! ### Calls spelled as a mapping -/

/-- The output for a mapping, by parts. -/
theorem mapping_parts {v : V3 α} {q : Parts α} {s : Sig} (hd : v.Describes q s) (he : v.Explains)
    {input : α} {view : DictView α} {m : Dict α} {st st' : VState α}
    (hin : v.asMapping input = some view) (hm : v.Mapping view m)
    (hb : st.validateByAliasOr v.byAlias = true ∨ st.validateByNameOr v.byName = true)
    {oa : List α} {ok : Dict α} (h : v.validate input st = (.ok (oa, ok), st')) :
    ∃ ws vs ks zs, oa = ws ++ vs ∧ ok = Dict.update [] (ks ++ zs) ∧
      (ws.length = q.pos.length ∧ ∀ (i : Nat) p, q.pos[i]? = some p →
        ∃ w, ws[i]? = some w ∧ ParamOutput p (m.get p.name) w) ∧
      v.StarPart q m vs ∧
      (ks.map Prod.fst = q.kwOnly.map Param.name ∧ ∀ (i : Nat) p, q.kwOnly[i]? = some p →
        ∃ w, (p.name, w) ∈ ks ∧ ParamOutput p (m.get p.name) w) ∧
      v.StarStarPart q m zs ∧
      (v.extra = .forbid → view.isPyGetAttr = false →
        ∀ k ∈ m.map Prod.fst, k ∈ v.params.map Param.name) := by
  unfold V3.validate at h
  rw [hin] at h
  obtain ⟨as, ks, hcs, rfl, rfl, hx⟩ := fromMapping_ok hm he hd.keys (st := { st with
    allowPartial := .ofBool false }) hb h
  rw [hd.params] at hcs
  obtain ⟨b1, a4, l1, k4, hc1, h4, rfl, rfl⟩ := Contribs.append hcs
  obtain ⟨b2, a3, l2, k3, hc2, h3, rfl, rfl⟩ := Contribs.append hc1
  obtain ⟨a1, a2, k1, k2, h1, h2, rfl, rfl⟩ := Contribs.append hc2
  obtain ⟨rfl, p1, p2⟩ := Contribs.pos h1 fun p hp => pos_mode hd hp
  obtain ⟨rfl, o1, o2⟩ := Contribs.kwOnly h3 fun p hp => kwOnly_mode hd hp
  have hs : v.StarPart q m a2 ∧ k2 = [] := by
    unfold V3.StarPart
    have hmo := hd.star.1
    cases hq : q.star with
    | none =>
      rw [hq] at h2
      cases h2
      exact ⟨rfl, rfl⟩
    | some p =>
      rw [hq] at h2
      cases h2 with
      | cons g1 g2 =>
        cases g2
        unfold V3.Contrib at g1
        rw [hmo p hq] at g1
        rw [List.append_nil, List.append_nil]
        exact g1
  have hss : v.StarStarPart q m k4 ∧ a4 = [] := by
    unfold V3.StarStarPart
    have hmo := hd.starStar.1
    cases hq : q.starStar with
    | none =>
      rw [hq] at h4
      cases h4
      exact ⟨rfl, rfl⟩
    | some p =>
      rw [hq] at h4
      have hvk := hmo p hq
      cases h4 with
      | cons g1 g2 =>
        cases g2
        rw [List.append_nil, List.append_nil]
        unfold V3.Contrib at g1
        cases hm' : p.mode <;> rw [hm'] at g1 hvk <;>
          first | (cases hvk; done) | exact ⟨g1.2, g1.1⟩
  obtain ⟨hs, rfl⟩ := hs
  obtain ⟨hss, rfl⟩ := hss
  refine ⟨a1, a2, k3, k4, by simp, by simp, ⟨p1, p2⟩, hs, ⟨o1, o2⟩, hss, hx⟩

/-- **C85**, one direction.  If a call spelled as a mapping is accepted, then Python can make the
call with the output, and in that call every parameter gets the validated form of what the mapping
has under its name (or the default), `*args` gets the validated items under its name and `**kwargs`
the validated entries under its name; with `extra='forbid'` the mapping has no other keys. -/
theorem mapping_sound_partial (v : V3 α) (q : Parts α) (s : Sig) (hd : v.Describes q s)
    (he : v.Explains) (hdi : v.Dicts) (input : α) (view : DictView α) (m : Dict α)
    (st st' : VState α) (hin : v.asMapping input = some view) (hm : v.Mapping view m)
    (hb : st.validateByAliasOr v.byAlias = true ∨ st.validateByNameOr v.byName = true)
    (hcl : v.NoClash q s m) (oa : List α) (ok : Dict α)
    (h : v.validate input st = (.ok (oa, ok), st')) :
    s.Binds (fun _ => False) oa ok ∧
    (∀ (i : Nat) p, q.named[i]? = some p →
      ∃ w, s.bound oa ok i = some w ∧ ParamOutput p (m.get p.name) w) ∧
    v.StarPart q m (s.surplus oa) ∧
    v.StarStarPart q m (s.surplusKw ok) ∧
    (v.extra = .forbid → view.isPyGetAttr = false →
      ∀ k ∈ m.map Prod.fst, k ∈ v.params.map Param.name) := by
  obtain ⟨ws, vs, ks, zs, rfl, rfl, ⟨p1, p2⟩, hs, ⟨o1, o2⟩, hss, hx⟩ :=
    mapping_parts hd he hin hm hb h
  have hpl := pos_length hd
  have hnd := named_distinct hd
  have hnn := named_names hd
  have hkwn : q.kwOnly.map Param.name = s.kwOnly := by
    unfold Parts.named Sig.params at hnn
    rw [List.map_append] at hnn
    refine (List.append_inj hnn ?_).2
    rw [List.length_map, hpl]
    rfl
  have hzk : ∀ k ∈ zs.map Prod.fst, k ∉ s.keyword := hcl zs hss
  have hkk : ∀ k ∈ ks.map Prod.fst, k ∈ s.kwOnly := by
    intro k hk
    rwa [o1, hkwn] at hk
  have hnod : ((ks ++ zs).map Prod.fst).Nodup := by
    rw [List.map_append, List.nodup_append]
    refine ⟨?_, StarStarPart.nodup hdi hss, ?_⟩
    · rw [o1, hkwn]
      unfold Sig.params at hnd
      exact (List.nodup_append.1 hnd).2.1
    · rintro a ha b hb' rfl
      exact hzk a hb' (List.mem_append_right _ (hkk a ha))
  have hupd : Dict.update [] (ks ++ zs) = ks ++ zs := update_fresh [] (ks ++ zs) hnod
  rw [hupd]
  have hsur : s.surplus (ws ++ vs) = vs := by
    unfold Sig.surplus
    rw [← hpl, ← p1, List.drop_left]
  have hsurk : s.surplusKw (ks ++ zs) = zs := by
    unfold Sig.surplusKw
    rw [List.filter_append]
    have h5 : ks.filter (fun kv => decide (kv.1 ∉ s.keyword)) = [] := by
      rw [List.filter_eq_nil_iff]
      intro kv hkv
      have := hkk kv.1 (List.mem_map.2 ⟨kv, hkv, rfl⟩)
      simp [Sig.keyword, this]
    have h6 : zs.filter (fun kv => decide (kv.1 ∉ s.keyword)) = zs := by
      rw [List.filter_eq_self]
      intro kv hkv
      simpa using hzk kv.1 (List.mem_map.2 ⟨kv, hkv, rfl⟩)
    rw [h5, h6]
    rfl
  have hout : ∀ (i : Nat) p, q.named[i]? = some p →
      ∃ w, s.bound (ws ++ vs) (ks ++ zs) i = some w ∧ ParamOutput p (m.get p.name) w := by
    intro i p hi
    obtain ⟨hname, -⟩ := named_at hd hi
    unfold Parts.named at hi
    by_cases hlt : i < q.pos.length
    · rw [List.getElem?_append_left hlt] at hi
      obtain ⟨w, h1, h2⟩ := p2 i p hi
      refine ⟨w, ?_, h2⟩
      unfold Sig.bound
      rw [if_pos ⟨by omega, by rw [List.length_append]; omega⟩,
        List.getElem?_append_left (by omega)]
      exact h1
    · rw [List.getElem?_append_right (by omega)] at hi
      obtain ⟨w, h1, h2⟩ := o2 _ p hi
      refine ⟨w, ?_, h2⟩
      unfold Sig.bound
      have hpl' : s.positional.length = s.posOnly.length + s.posOrKw.length := by
        simp [Sig.positional]
      rw [if_neg (by omega), if_pos (by omega), hname]
      exact Args.get_of_mem hnod (List.mem_append_left _ h1)
  refine ⟨⟨?_, ?_, ?_, ?_⟩, hout, ?_, ?_, hx⟩
  · intro hst
    rw [hsur]
    have hn : q.star = none := by
      have := hd.star.2
      rw [hst] at this
      simpa using this
    unfold V3.StarPart at hs
    rw [hn] at hs
    exact hs
  · intro hst
    rw [hsurk]
    have hn : q.starStar = none := by
      have := hd.starStar.2
      rw [hst] at this
      simpa using this
    unfold V3.StarStarPart at hss
    rw [hn] at hss
    exact hss
  · rintro i name x ⟨t1, t2, t3, t4, t5⟩
    have hmem := List.mem_map_of_mem (f := Prod.fst) (Args.mem_of_get t5)
    rw [List.map_append, List.mem_append] at hmem
    have hposn : name ∈ s.posOrKw := by
      unfold Sig.params at t1
      unfold Sig.positional at t3
      rw [List.getElem?_append_left t3, List.getElem?_append_right t2] at t1
      exact List.mem_of_getElem? t1
    rcases hmem with hmem | hmem
    · have hk := hkk _ hmem
      unfold Sig.params at hnd
      exact (List.nodup_append.1 hnd).2.2 name (List.mem_append_right _ hposn) name hk rfl
    · exact hzk _ hmem (List.mem_append_left _ hposn)
  · intro i hi hbn
    have hi' : i < q.named.length := by
      have := congrArg List.length hnn
      rw [List.length_map] at this
      omega
    obtain ⟨w, h5, -⟩ := hout i q.named[i] (List.getElem?_eq_getElem hi')
    rw [hbn] at h5
    cases h5
  · rw [hsur]
    exact hs
  · rw [hsurk]
    exact hss

/-- **C85**, the other direction.  A mapping in which everything given validates and everything
else has a default is accepted, unless it has keys that are forbidden. -/
theorem mapping_complete_partial (v : V3 α) (q : Parts α) (s : Sig) (hd : v.Describes q s)
    (input : α) (view : DictView α) (m : Dict α) (st : VState α)
    (hin : v.asMapping input = some view) (hm : v.Mapping view m)
    (hb : st.validateByAliasOr v.byAlias = true ∨ st.validateByNameOr v.byName = true)
    (hv : v.AllValid q m)
    (hx : v.extra = .forbid → ∀ k ∈ m.map Prod.fst, k ∈ v.params.map Param.name) :
    ∃ out, (v.validate input st).1 = .ok out := by
  unfold V3.validate
  rw [hin]
  exact fromMapping_valid hm hd hv hx input { st with allowPartial := .ofBool false } hb

/-- **C85**.  A rejected mapping is rejected for what is wrong with it: each error is of one of
the kinds of `MapError`, reported where that says; the errors of a default come alone. -/
theorem mapping_errors_only_partial (v : V3 α) (q : Parts α) (s : Sig) (hd : v.Describes q s)
    (input : α) (view : DictView α) (m : Dict α) (st : VState α)
    (hin : v.asMapping input = some view) (hm : v.Mapping view m)
    (hb : st.validateByAliasOr v.byAlias = true ∨ st.validateByNameOr v.byName = true)
    (ls : List (LineError α)) (h : (v.validate input st).1 = .error (.lineErrors ls)) :
    (∀ e ∈ ls, v.MapError q m input e) ∨
    ∃ p ∈ q.named, m.get p.name = none ∧
      ∃ st, (p.dflt (some (.s p.name)) st).1 = .error (.lineErrors ls) := by
  unfold V3.validate at h
  rw [hin] at h
  exact fromMapping_errs hm hd input { st with allowPartial := .ofBool false } hb h

/-! ### Calls spelled as `ArgsKwargs` -/

/-- **C85**.  An `ArgsKwargs` is treated exactly as by the `arguments` schema of the same
signature (C35): same output, same errors, same state afterwards; provided no validator looks at
the name of the field being validated. -/
theorem argskwargs_as_arguments_partial (v : V3 α) (q : Parts α) (s : Sig) (hd : v.Describes q s)
    (hf : ∀ p ∈ q.named, p.FieldBlind) (input : α) (st : VState α)
    (hin : v.asMapping input = none)
    (hb : st.validateByAliasOr v.byAlias = true ∨ st.validateByNameOr v.byName = true) :
    v.validate input st = (v.older q).validate input st := by
  unfold V3.validate Arguments.validate
  rw [hin]
  have e : (v.older q).asArgs = v.asArgs := rfl
  rw [e]
  dsimp only
  cases v.asArgs input with
  | error e => rfl
  | ok view => exact fromArgsKwargs_older hd hf view input { st with
      allowPartial := .ofBool false } hb

/-- The older schema describes the signature too. -/
theorem older_describes {v : V3 α} {q : Parts α} {s : Sig} (hd : v.Describes q s)
    (hu : ∀ p, q.starStar = some p → p.mode = .varKwUniform) (hx : v.extra = .forbid) :
    (v.older q).Describes s := by
  refine ⟨?_, named_distinct hd, ?_, ?_, ?_, hx⟩
  · have h1 := congrArg (List.map (Prod.map Mode.older id)) hd.pos
    have h2 := congrArg (List.map (Prod.map Mode.older id)) hd.kwOnly
    have e : ∀ (m : Mode) (l : List String),
        List.map (Prod.map Mode.older id) (l.map fun x => (m, x)) = l.map fun x => (m.older, x) := by
      intro m l
      rw [List.map_map]
      rfl
    have e' : ∀ l : List (Param α),
        List.map (Prod.map Mode.older id) (l.map fun p => (p.mode, p.name)) =
          (l.map Param.older).map fun p => (p.mode, p.name) := by
      intro l
      rw [List.map_map, List.map_map]
      rfl
    rw [List.map_append, e, e, e'] at h1
    rw [e, e'] at h2
    show ((q.pos ++ q.kwOnly).map Param.older).map _ = _
    rw [List.map_append, List.map_append, h1, h2]
    rfl
  · intro p hp
    obtain ⟨p', hp', rfl⟩ := List.mem_map.1 hp
    have : p' ∈ v.params := by
      rw [hd.params]
      rcases List.mem_append.1 hp' with h | h
      · simp [h]
      · simp [h]
    exact hd.keys p' this
  · show (q.star.map Param.run).isSome = s.star
    rw [← hd.star.2]
    cases q.star <;> rfl
  · have h2 := hd.starStar.2
    cases hq : q.starStar with
    | none =>
      refine ⟨none, ?_, by rw [← h2, hq]; rfl⟩
      show (match q.starStar with | none => _ | some p => _) = _
      rw [hq]
    | some p =>
      refine ⟨some p.run, ?_, by rw [← h2, hq]; rfl⟩
      show (match q.starStar with | none => _ | some p => _) = _
      rw [hq]
      dsimp only
      rw [if_pos (hu p hq)]

theorem mem_params_of_named {v : V3 α} {q : Parts α} {s : Sig} (hd : v.Describes q s) {p : Param α}
    (hp : p ∈ q.named) : p ∈ v.params := by
  rw [hd.params]
  rcases List.mem_append.1 hp with h | h
  · simp [h]
  · simp [h]

theorem older_explains {v : V3 α} {q : Parts α} {s : Sig} (hd : v.Describes q s)
    (he : v.Explains) : (v.older q).Explains := by
  refine ⟨?_, ?_, ?_⟩
  · intro p hp
    obtain ⟨p', hp', rfl⟩ := List.mem_map.1 hp
    exact he.1 p' (mem_params_of_named hd hp')
  · intro f hf
    obtain ⟨p, hp, rfl⟩ := Option.map_eq_some_iff.1 hf
    exact he.1 p (by rw [hd.params]; simp [hp])
  · intro f hf
    have hf' : (match q.starStar with
      | none => Args.VarKw.uniform none
      | some (p : Param α) => if p.mode = Mode.varKwUniform then .uniform (some p.run) else .unpacked p.run) =
        .uniform (some f) := hf
    cases hq : q.starStar with
    | none =>
      rw [hq] at hf'
      cases hf'
    | some p =>
      rw [hq] at hf'
      dsimp only at hf'
      by_cases hu : p.mode = .varKwUniform
      · rw [if_pos hu] at hf'
        cases hf'
        exact he.1 p (by rw [hd.params]; simp [hq])
      · rw [if_neg hu] at hf'
        cases hf'

theorem older_varKw {v : V3 α} {q : Parts α}
    (hu : ∀ p, q.starStar = some p → p.mode = .varKwUniform) :
    (v.older q).varKw = .uniform (q.starStar.map Param.run) := by
  show (match q.starStar with
      | none => Args.VarKw.uniform none
      | some (p : Param α) => if p.mode = Mode.varKwUniform then .uniform (some p.run) else .unpacked p.run) = _
  cases hq : q.starStar with
  | none => rfl
  | some p =>
    dsimp only
    rw [if_pos (hu p hq)]
    rfl

/-- **C85**, for calls spelled as an `ArgsKwargs`: what C35 says of `arguments` schemas holds of
`arguments-v3` ones. -/
theorem argskwargs_sound_partial (v : V3 α) (q : Parts α) (s : Sig) (hd : v.Describes q s)
    (he : v.Explains) (hf : ∀ p ∈ q.named, p.FieldBlind)
    (hu : ∀ p, q.starStar = some p → p.mode = .varKwUniform) (hx : v.extra = .forbid)
    (input : α) (view : ArgsView α) (args : List α) (kw : Dict α) (st st' : VState α)
    (hin : v.asMapping input = none) (ha : v.asArgs input = .ok view)
    (hc : (v.older q).Call view args kw)
    (hb : st.validateByAliasOr v.byAlias = true ∨ st.validateByNameOr v.byName = true)
    (oa : List α) (ok : Dict α) (h : v.validate input st = (.ok (oa, ok), st')) :
    s.Binds (v.older q).HasDefault args kw ∧
    s.Binds (fun _ => False) oa ok ∧
    (∀ (i : Nat) p, q.named[i]? = some p →
      ∃ w, s.bound oa ok i = some w ∧ ParamOutput p (s.bound args kw i) w) ∧
    EachValid (q.star.map Param.run) (s.surplus args) (s.surplus oa) ∧
    EachKwValid (.uniform (q.starStar.map Param.run)) (s.surplusKw kw) (s.surplusKw ok) := by
  rw [argskwargs_as_arguments_partial v q s hd hf input st hin hb] at h
  obtain ⟨h1, h2, h3, h4, h5⟩ := Args.args_sound_partial (v.older q) s (older_describes hd hu hx)
    (older_explains hd he) input view args kw st st' ha hc hb oa ok h
  rw [older_varKw hu] at h5
  refine ⟨h1, h2, ?_, h4, h5⟩
  intro i p hi
  have hi' : (v.older q).params[i]? = some p.older := by
    show (q.named.map Param.older)[i]? = _
    rw [List.getElem?_map, hi]
    rfl
  obtain ⟨w, h6, h7⟩ := h3 i p.older hi'
  refine ⟨w, h6, ?_⟩
  unfold Args.ParamOutput at h7
  unfold ParamOutput
  cases hb' : s.bound args kw i with
  | none =>
    rw [hb'] at h7
    obtain ⟨st1, -, h8⟩ := h7
    exact ⟨st1, h8⟩
  | some x =>
    rw [hb'] at h7
    obtain ⟨st1, -, h8⟩ := h7
    exact ⟨st1, h8⟩

/-! ### One call, two spellings -/

theorem eachValid_mem {p : Param α} {xs ws : List α} (h : EachValid (some p.run) xs ws) :
    ∀ x ∈ xs, ∃ st w, (p.run x st).1 = .ok w := by
  generalize hv : some p.run = v at h
  induction h with
  | nil => simp
  | cons h1 h2 _ ih =>
    subst hv
    cases h1
    intro x hx
    rcases List.mem_cons.1 hx with rfl | hx
    · exact ⟨_, _, h2⟩
    · exact ih x hx

theorem eachValid_unique {p : Param α} (hs : p.Steady) {xs ws ws' : List α}
    (h : EachValid (some p.run) xs ws) (h' : EachValid (some p.run) xs ws') : ws = ws' := by
  generalize hv : some p.run = v at h h'
  induction h generalizing ws' with
  | nil =>
    cases h'
    rfl
  | cons h1 h2 _ ih =>
    subst hv
    cases h1
    cases h' with
    | cons g1 g2 g3 =>
      cases g1
      rw [hs.1 _ _ (VState.new {} .init .off)] at h2 g2
      rw [h2] at g2
      cases g2
      rw [ih g3]

theorem eachEntry_kw {v : V3 α} {p : Param α} {es : List (α × α)} {out : Dict α}
    (h : v.EachEntry p es out) : ∀ kw : Dict α,
      es.map (fun kv => (v.keyOps.str kv.1, kv.2)) = kw.map (fun kv => (.ok kv.1, kv.2)) →
      EachKwValid (.uniform (some p.run)) kw out := by
  induction h with
  | nil =>
    intro kw hk
    cases kw with
    | nil => exact .nil
    | cons => cases hk
  | cons h1 h2 _ ih =>
    intro kw hk
    cases kw with
    | nil => cases hk
    | cons kv kw =>
      rw [List.map_cons, List.map_cons, List.cons.injEq] at hk
      obtain ⟨hk1, hk2⟩ := hk
      rw [Prod.mk.injEq, h1, Except.ok.injEq] at hk1
      obtain ⟨rfl, rfl⟩ := hk1
      exact .cons rfl h2 (ih kw hk2)

theorem eachKwValid_mem {p : Param α} {kw out : Dict α}
    (h : EachKwValid (.uniform (some p.run)) kw out) :
    ∀ kv ∈ kw, ∃ st w, (p.run kv.2 st).1 = .ok w := by
  generalize hv : Args.VarKw.uniform (some p.run) = v at h
  induction h with
  | nil => simp
  | cons h1 h2 _ ih =>
    subst hv
    cases h1
    intro x hx
    rcases List.mem_cons.1 hx with rfl | hx
    · exact ⟨_, _, h2⟩
    · exact ih x hx

theorem eachKwValid_keys {u : Args.VarKw α} {kw out : Dict α} (h : EachKwValid u kw out) :
    out.map Prod.fst = kw.map Prod.fst := by
  induction h with
  | nil => rfl
  | cons _ _ _ ih => simp [ih]

theorem eachKwValid_unique {p : Param α} (hs : p.Steady) {kw out out' : Dict α}
    (h : EachKwValid (.uniform (some p.run)) kw out)
    (h' : EachKwValid (.uniform (some p.run)) kw out') : out = out' := by
  generalize hv : Args.VarKw.uniform (some p.run) = v at h h'
  induction h generalizing out' with
  | nil =>
    cases h'
    rfl
  | cons h1 h2 _ ih =>
    subst hv
    cases h1
    cases h' with
    | cons g1 g2 g3 =>
      cases g1
      rw [hs.1 _ _ (VState.new {} .init .off)] at h2 g2
      rw [h2] at g2
      cases g2
      rw [ih g3]

theorem eachValid_none {xs ws : List α} (h : EachValid none xs ws) : xs = [] ∧ ws = [] := by
  cases h with
  | nil => exact ⟨rfl, rfl⟩
  | cons h1 => cases h1

theorem eachKwValid_none {xs ws : Dict α} (h : EachKwValid (.uniform none) xs ws) :
    xs = [] ∧ ws = [] := by
  cases h with
  | nil => exact ⟨rfl, rfl⟩
  | cons h1 => cases h1

theorem paramOutput_unique {p : Param α} (hs : p.Steady) {x : Option α} {w w' : α}
    (h : ParamOutput p x w) (h' : ParamOutput p x w') : w = w' := by
  unfold ParamOutput at h h'
  cases x with
  | none =>
    obtain ⟨s1, h⟩ := h
    obtain ⟨s2, h'⟩ := h'
    rw [hs.2 _ _ s2, h'] at h
    cases h
    rfl
  | some x =>
    obtain ⟨s1, h⟩ := h
    obtain ⟨s2, h'⟩ := h'
    rw [hs.1 _ _ s2, h'] at h
    cases h
    rfl

/-- The items under the name of `*args` are the surplus positional arguments. -/
theorem starPart_same {v : V3 α} {q : Parts α} {s : Sig} {m : Dict α} {args : List α} {kw : Dict α}
    (hsc : v.SameCall q s m args kw) {out : List α} (h : v.StarPart q m out) :
    EachValid (q.star.map Param.run) (s.surplus args) out := by
  have hs := hsc.star
  unfold V3.StarPart at h
  cases hq : q.star with
  | none =>
    rw [hq] at hs h
    dsimp only at hs h
    rw [hs, h]
    exact .nil
  | some p =>
    rw [hq] at hs h
    dsimp only at hs h
    unfold V3.StarOutput at h
    cases hg : m.get p.name with
    | none =>
      rw [hg] at hs h
      dsimp only at hs h
      rw [hs, h]
      exact .nil
    | some x =>
      rw [hg] at hs h
      obtain ⟨e, hs⟩ := hs
      obtain ⟨e', xs, h1, h2⟩ := h
      rw [hs] at h1
      simp only [Option.some.injEq, Prod.mk.injEq] at h1
      have hxs : s.surplus args = xs :=
        (List.map_inj_right (fun a b h => by cases h; rfl)).1 h1.2
      rw [hxs]
      exact h2

/-- The entries under the name of `**kwargs` are the surplus keyword arguments. -/
theorem starStarPart_same {v : V3 α} {q : Parts α} {s : Sig} {m : Dict α} {args : List α}
    {kw : Dict α} (hu : ∀ p, q.starStar = some p → p.mode = .varKwUniform)
    (hsc : v.SameCall q s m args kw) {out : Dict α} (h : v.StarStarPart q m out) :
    EachKwValid (.uniform (q.starStar.map Param.run)) (s.surplusKw kw) out := by
  have hs := hsc.starStar
  unfold V3.StarStarPart at h
  cases hq : q.starStar with
  | none =>
    rw [hq] at hs h
    dsimp only at hs h
    rw [hs, h]
    exact .nil
  | some p =>
    rw [hq] at hs h
    dsimp only at hs h
    unfold V3.StarStarOutput at h
    rw [if_pos (hu p hq)] at h
    cases hg : m.get p.name with
    | none =>
      rw [hg] at hs h
      dsimp only at hs h
      rw [hs, h]
      exact .nil
    | some x =>
      rw [hg] at hs h
      obtain ⟨es, hs, hs2⟩ := hs
      obtain ⟨es', h1, h2⟩ := h
      rw [hs] at h1
      cases h1
      exact eachEntry_kw h2 _ hs2

theorem noClash_same {v : V3 α} {q : Parts α} {s : Sig} {m : Dict α} {args : List α}
    {kw : Dict α} (hu : ∀ p, q.starStar = some p → p.mode = .varKwUniform)
    (hsc : v.SameCall q s m args kw) : v.NoClash q s m := by
  intro out h k hk
  rw [eachKwValid_keys (starStarPart_same hu hsc h)] at hk
  obtain ⟨kv, hkv, rfl⟩ := List.mem_map.1 hk
  have := (List.mem_filter.1 hkv).2
  simpa using this

/-- **C85**.  Spelling a call as a mapping of the parameters' names or as an `ArgsKwargs` makes no
difference: one is accepted exactly if the other is, and then every parameter, `*args` and
`**kwargs` get the same from both outputs. -/
theorem forms_agree_partial (v : V3 α) (q : Parts α) (s : Sig) (hd : v.Describes q s)
    (he : v.Explains) (hdi : v.Dicts) (hf : ∀ p ∈ q.named, p.FieldBlind)
    (hst : ∀ p ∈ v.params, p.Steady)
    (hu : ∀ p, q.starStar = some p → p.mode = .varKwUniform) (hx : v.extra = .forbid)
    (st : VState α)
    (hb : st.validateByAliasOr v.byAlias = true ∨ st.validateByNameOr v.byName = true)
    (inM : α) (dview : DictView α) (m : Dict α)
    (hM : v.asMapping inM = some dview) (hm : v.Mapping dview m)
    (inA : α) (view : ArgsView α) (args : List α) (kw : Dict α)
    (hA : v.asMapping inA = none) (ha : v.asArgs inA = .ok view)
    (hc : (v.older q).Call view args kw) (hsc : v.SameCall q s m args kw) :
    ((∃ out, (v.validate inM st).1 = .ok out) ↔ ∃ out, (v.validate inA st).1 = .ok out) ∧
    ∀ oa ok oa' ok', (v.validate inM st).1 = .ok (oa, ok) → (v.validate inA st).1 = .ok (oa', ok') →
      (∀ i, i < s.params.length → s.bound oa ok i = s.bound oa' ok' i) ∧
      s.surplus oa = s.surplus oa' ∧ s.surplusKw ok = s.surplusKw ok' := by
  have hncl := noClash_same hu hsc
  have soundM : ∀ oa ok, (v.validate inM st).1 = .ok (oa, ok) →
      (∀ (i : Nat) p, q.named[i]? = some p →
        ∃ w, s.bound oa ok i = some w ∧ ParamOutput p (s.bound args kw i) w) ∧
      EachValid (q.star.map Param.run) (s.surplus args) (s.surplus oa) ∧
      EachKwValid (.uniform (q.starStar.map Param.run)) (s.surplusKw kw) (s.surplusKw ok) := by
    intro oa ok h
    obtain ⟨-, h2, h3, h4, -⟩ := mapping_sound_partial v q s hd he hdi inM dview m st
      (v.validate inM st).2 hM hm hb hncl oa ok (Prod.ext h rfl)
    refine ⟨?_, starPart_same hsc h3, starStarPart_same hu hsc h4⟩
    intro i p hi
    rw [← hsc.params i p hi]
    exact h2 i p hi
  have soundA : ∀ oa ok, (v.validate inA st).1 = .ok (oa, ok) →
      (∀ (i : Nat) p, q.named[i]? = some p →
        ∃ w, s.bound oa ok i = some w ∧ ParamOutput p (s.bound args kw i) w) ∧
      EachValid (q.star.map Param.run) (s.surplus args) (s.surplus oa) ∧
      EachKwValid (.uniform (q.starStar.map Param.run)) (s.surplusKw kw) (s.surplusKw ok) := by
    intro oa ok h
    obtain ⟨-, -, h3, h4, h5⟩ := argskwargs_sound_partial v q s hd he hf hu hx inA view args kw st
      (v.validate inA st).2 hA ha hc hb oa ok (Prod.ext h rfl)
    exact ⟨h3, h4, h5⟩
  have hnl : ∀ i, i < s.params.length → ∃ p, q.named[i]? = some p ∧ p ∈ q.named := by
    intro i hi
    have hl := congrArg List.length (named_names hd)
    rw [List.length_map] at hl
    exact ⟨q.named[i], List.getElem?_eq_getElem (by omega), List.getElem_mem ..⟩
  have hstar_mem : ∀ p, q.star = some p → p.Steady := fun p hp =>
    hst p (by rw [hd.params]; simp [hp])
  have hss_mem : ∀ p, q.starStar = some p → p.Steady := fun p hp =>
    hst p (by rw [hd.params]; simp [hp])
  have hnamed : ∀ p ∈ q.named, p.Steady := fun p hp => hst p (mem_params_of_named hd hp)
  refine ⟨⟨?_, ?_⟩, ?_⟩
  · rintro ⟨⟨oa, ok⟩, h⟩
    obtain ⟨h1, h2, h3⟩ := soundM oa ok h
    rw [argskwargs_as_arguments_partial v q s hd hf inA st hA hb]
    refine Args.args_complete_partial (v.older q) s (older_describes hd hu hx) inA view args kw st
      ha hc hb ⟨?_, ?_, hsc.once, ?_⟩ ⟨?_, ?_, ?_, ?_⟩
    · intro hs
      have hn : q.star = none := by simpa [hs] using hd.star.2
      rw [hn] at h2
      exact (eachValid_none h2).1
    · intro hs
      have hn : q.starStar = none := by simpa [hs] using hd.starStar.2
      rw [hn] at h3
      exact (eachKwValid_none h3).1
    · intro i hi hbn
      obtain ⟨p, hp, -⟩ := hnl i hi
      obtain ⟨w, -, h5⟩ := h1 i p hp
      rw [hbn] at h5
      obtain ⟨st1, h5⟩ := h5
      refine ⟨p.older, st1, w, ?_, h5⟩
      show (q.named.map Param.older)[i]? = _
      rw [List.getElem?_map, hp]
      rfl
    · intro i p x hp hbx st1
      have hp' : (q.named.map Param.older)[i]? = some p := hp
      rw [List.getElem?_map] at hp'
      obtain ⟨p', hq', rfl⟩ := Option.map_eq_some_iff.1 hp'
      obtain ⟨w, -, h5⟩ := h1 i p' hq'
      rw [hbx] at h5
      obtain ⟨st2, h5⟩ := h5
      exact ⟨w, ((hnamed p' (List.mem_of_getElem? hq')).1 x st1 st2).trans h5⟩
    · intro i p hp hbx st1
      have hp' : (q.named.map Param.older)[i]? = some p := hp
      rw [List.getElem?_map] at hp'
      obtain ⟨p', hq', rfl⟩ := Option.map_eq_some_iff.1 hp'
      obtain ⟨w, -, h5⟩ := h1 i p' hq'
      rw [hbx] at h5
      obtain ⟨st2, h5⟩ := h5
      exact ⟨w, ((hnamed p' (List.mem_of_getElem? hq')).2 _ st1 st2).trans h5⟩
    · intro f x hf' hmem st1
      obtain ⟨p, hp, rfl⟩ := Option.map_eq_some_iff.1 hf'
      rw [hp] at h2
      obtain ⟨st2, w, h5⟩ := eachValid_mem h2 x hmem
      exact ⟨w, ((hstar_mem p hp).1 x st1 st2).trans h5⟩
    · intro f k x hf' hmem st1
      rw [older_varKw hu] at hf'
      have hf2 := Args.VarKw.uniform.inj hf'
      obtain ⟨p, hp, rfl⟩ := Option.map_eq_some_iff.1 hf2
      rw [hp] at h3
      obtain ⟨st2, w, h5⟩ := eachKwValid_mem h3 (k, x) hmem
      exact ⟨w, ((hss_mem p hp).1 x st1 st2).trans h5⟩
  · rintro ⟨⟨oa, ok⟩, h⟩
    obtain ⟨h1, h2, h3⟩ := soundA oa ok h
    have hidx : ∀ p ∈ q.named, ∃ i : Nat, q.named[i]? = some p := fun p hp =>
      List.getElem?_of_mem hp
    refine mapping_complete_partial v q s hd inM dview m st hM hm hb ⟨?_, ?_, ?_, ?_, ?_⟩
      (fun _ => hsc.known)
    · intro p hp x hg st1
      obtain ⟨i, hi⟩ := hidx p hp
      obtain ⟨w, -, h5⟩ := h1 i p hi
      rw [← hsc.params i p hi, hg] at h5
      obtain ⟨st2, h5⟩ := h5
      exact ⟨w, ((hnamed p hp).1 x st1 st2).trans h5⟩
    · intro p hp hg st1
      obtain ⟨i, hi⟩ := hidx p hp
      obtain ⟨w, -, h5⟩ := h1 i p hi
      rw [← hsc.params i p hi, hg] at h5
      obtain ⟨st2, h5⟩ := h5
      exact ⟨w, ((hnamed p hp).2 _ st1 st2).trans h5⟩
    · intro p x hp hg
      have hs := hsc.star
      rw [hp] at hs h2
      dsimp only at hs
      rw [hg] at hs
      obtain ⟨e, hs⟩ := hs
      refine ⟨e, _, hs, ?_⟩
      intro y hy st1
      obtain ⟨st2, w, h5⟩ := eachValid_mem h2 y hy
      exact ⟨w, ((hstar_mem p hp).1 y st1 st2).trans h5⟩
    · intro p x hp _ hg
      have hs := hsc.starStar
      rw [hp] at hs h3
      dsimp only at hs
      rw [hg] at hs
      obtain ⟨es, hs, hs2⟩ := hs
      refine ⟨es, hs, ?_⟩
      intro kv hkv
      have hmem : (v.keyOps.str kv.1, kv.2) ∈ (s.surplusKw kw).map
          (fun kv => ((.ok kv.1 : ValResult α String), kv.2)) := by
        rw [← hs2]
        exact List.mem_map.2 ⟨kv, hkv, rfl⟩
      obtain ⟨kv', hkv', hpr⟩ := List.mem_map.1 hmem
      rw [Prod.mk.injEq] at hpr
      refine ⟨⟨kv'.1, hpr.1.symm⟩, ?_⟩
      intro st1
      obtain ⟨st2, w, h5⟩ := eachKwValid_mem h3 kv' hkv'
      refine ⟨w, ((hss_mem p hp).1 kv.2 st1 st2).trans ?_⟩
      rw [← hpr.2]
      exact h5
    · intro p hp hne
      exact absurd (hu p hp) hne
  · intro oa ok oa' ok' h h'
    obtain ⟨h1, h2, h3⟩ := soundM oa ok h
    obtain ⟨g1, g2, g3⟩ := soundA oa' ok' h'
    refine ⟨?_, ?_, ?_⟩
    · intro i hi
      obtain ⟨p, hp, hmem⟩ := hnl i hi
      obtain ⟨w, e1, h5⟩ := h1 i p hp
      obtain ⟨w', e2, g5⟩ := g1 i p hp
      rw [e1, e2, paramOutput_unique (hnamed p hmem) h5 g5]
    · cases hq : q.star with
      | none =>
        rw [hq] at h2 g2
        rw [(eachValid_none h2).2, (eachValid_none g2).2]
      | some p =>
        rw [hq] at h2 g2
        exact eachValid_unique (hstar_mem p hq) h2 g2
    · cases hq : q.starStar with
      | none =>
        rw [hq] at h3 g3
        rw [(eachKwValid_none h3).2, (eachKwValid_none g3).2]
      | some p =>
        rw [hq] at h3 g3
        exact eachKwValid_unique (hss_mem p hq) h3 g3

/-! ### The hypotheses can be met -/

/-- Some Python values. -/
inductive T where
  | str (s : String)
  | tup (l : List T)
  | gen (l : List (Option T))
  | dict (d : List (String × T))
  | call (args : List T) (kw : List (String × T))

/-- Accepts strings, marking them. -/
def mark (m : String) : Validator T T
  | .str s, st => (.ok (.str (s ++ m)), st)
  | x, st => (.error (.lineErrors [.new (.other "bad") x]), st)

/-- Accepts only the string `1`. -/
def one : Validator T T
  | .str "1", st => (.ok (.str "one"), st)
  | x, st => (.error (.lineErrors [.new (.other "bad") x]), st)

def noDflt : Option LocItem → VState T → ValResult T (Option T) × VState T :=
  fun _ st => (.ok none, st)

def someDflt (d : T) : Option LocItem → VState T → ValResult T (Option T) × VState T :=
  fun _ st => (.ok (some d), st)

def plainKeys (n : String) : KeyCollection := ⟨.simple (.ofStr n), none, none⟩

def tOps : PyOps T := ⟨fun _ => true, fun _ => false, fun _ _ => none, fun _ _ => .ok none⟩

def tKeys : KeyOps T where
  str := fun
    | .str k => .ok k
    | x => .error (.lineErrors [.new (.other "string_type") x])
  loc := fun
    | .str k => .s k
    | _ => .s "?"
  downcast := fun
    | .str k => some k
    | _ => none

/-- A dict as a mapping. -/
def tView (d : Dict T) : DictView T where
  get := fun
    | .simple p => .ok ((d.get p.first).map fun x => (p, x))
    | _ => .ok none
  isPyGetAttr := false
  entries := .ok (d.map fun kv => .ok (.str kv.1, kv.2))
  lastKey := none

def tV3 (params : List (Param T)) : V3 T where
  params := params
  locByAlias := true
  extra := .forbid
  byAlias := none
  byName := none
  asMapping := fun
    | .dict d => some (tView d)
    | _ => none
  asArgs := fun
    | .call args kw => .ok (Args.pyArgsView tOps .str (some args) (some kw))
    | x => .error (.lineErrors [.new (.other "arguments_type") x])
  asTuple := fun
    | .tup l => some (.exact, l.map .ok)
    | .gen l => some (.lax, l.map fun x => match x with | some x => .ok x | none => .error ⟨"boom"⟩)
    | _ => none
  asKwargs := fun
    | .dict d => if (d.map Prod.fst).Nodup then some (d.map fun kv => (.str kv.1, kv.2)) else none
    | _ => none
  keyOps := tKeys
  mkDict := .dict
  asDict := fun
    | .dict d => if (d.map Prod.fst).Nodup then some d else none
    | _ => none

def st0 : VState T := VState.new {} .init .off

/-- `def f(a, /, b, *args, c='d', **kwargs)`. -/
def demoParts : Parts T where
  pos := [⟨.positionalOnly, "a", plainKeys "a", mark "a", noDflt⟩,
    ⟨.positionalOrKeyword, "b", plainKeys "b", mark "b", noDflt⟩]
  star := some ⟨.varArgs, "args", plainKeys "args", mark "*", noDflt⟩
  kwOnly := [⟨.keywordOnly, "c", plainKeys "c", mark "c", someDflt (.str "d")⟩]
  starStar := some ⟨.varKwUniform, "kwargs", plainKeys "kwargs", mark "**", noDflt⟩

def demo : V3 T := tV3 (demoParts.pos ++ demoParts.star.toList ++ demoParts.kwOnly ++
  demoParts.starStar.toList)

def demoSig : Sig := ⟨["a"], ["b"], ["c"], true, true⟩

theorem demo_describes : demo.Describes demoParts demoSig where
  params := rfl
  pos := rfl
  kwOnly := rfl
  distinct := by decide
  keys := by
    intro p hp
    simp only [demo, tV3, demoParts, Option.toList, List.cons_append, List.nil_append,
      List.mem_cons, List.not_mem_nil, or_false] at hp
    rcases hp with rfl | rfl | rfl | rfl | rfl <;> rfl
  star := ⟨fun p hp => by cases hp; rfl, rfl⟩
  starStar := ⟨fun p hp => by cases hp; rfl, rfl⟩

theorem mark_explains (m : String) (x : T) (st : VState T) :
    (mark m x st).1 ≠ .error (.lineErrors []) := by
  cases x <;> (intro h; cases h)

theorem demo_explains : demo.Explains := by
  refine ⟨?_, ?_⟩
  · intro p hp
    simp only [demo, tV3, demoParts, Option.toList, List.cons_append, List.nil_append,
      List.mem_cons, List.not_mem_nil, or_false] at hp
    rcases hp with rfl | rfl | rfl | rfl | rfl <;> exact mark_explains _
  · intro k
    cases k <;> (intro h; cases h)

theorem tV3_dicts (ps : List (Param T)) : (tV3 ps).Dicts where
  kwargs := by
    intro x es h ks hk
    cases x with
    | dict d =>
      have h' : (if (d.map Prod.fst).Nodup then
        some (d.map fun kv => ((T.str kv.1 : T), kv.2)) else none) = some es := h
      by_cases hn : (d.map Prod.fst).Nodup
      · rw [if_pos hn] at h'
        cases h'
        rw [List.map_map] at hk
        have : ks = d.map Prod.fst := by
          have h2 : (d.map Prod.fst).map (.ok : String → ValResult T String) = ks.map .ok := by
            rw [List.map_map, ← hk]
            rfl
          exact ((List.map_inj_right (fun a b h => by cases h; rfl)).1 h2).symm
        rw [this]
        exact hn
      · rw [if_neg hn] at h'
        cases h'
    | _ => cases h
  dict := by
    intro x d h
    cases x with
    | dict d' =>
      have h' : (if (d'.map Prod.fst).Nodup then some d' else none) = some d := h
      by_cases hn : (d'.map Prod.fst).Nodup
      · rw [if_pos hn] at h'
        cases h'
        exact hn
      · rw [if_neg hn] at h'
        cases h'
    | _ => cases h

theorem tV3_mapping (ps : List (Param T)) (d : Dict T) (hn : (d.map Prod.fst).Nodup) :
    (tV3 ps).Mapping (tView d) d where
  distinct := hn
  get := fun _ => rfl
  entries := ⟨.str, rfl, fun _ => rfl⟩

theorem demo_steady : ∀ p ∈ demo.params, p.Steady := by
  intro p hp
  have hm : ∀ (m : String) (x : T) (st st' : VState T), (mark m x st).1 = (mark m x st').1 := by
    intro m x st st'
    cases x <;> rfl
  simp only [demo, tV3, demoParts, Option.toList, List.cons_append, List.nil_append,
    List.mem_cons, List.not_mem_nil, or_false] at hp
  rcases hp with rfl | rfl | rfl | rfl | rfl <;> exact ⟨hm _, fun _ _ _ => rfl⟩

theorem mark_blind (m n : String) (x : T) (st : VState T) :
    rebindExtra (fun e => { e with fieldName := some n }) (mark m x) st = mark m x st := by
  cases x <;> rfl

theorem demo_blind : ∀ p ∈ demoParts.named, p.FieldBlind := by
  intro p hp
  simp only [Parts.named, demoParts, List.cons_append, List.nil_append,
    List.mem_cons, List.not_mem_nil, or_false] at hp
  rcases hp with rfl | rfl | rfl <;> exact ⟨mark_blind _ _, fun _ => rfl⟩

/-- `f('1', '2', '3', k='4')`, as a mapping. -/
def demoMap : Dict T :=
  [("a", .str "1"), ("b", .str "2"), ("args", .tup [.str "3"]), ("kwargs", .dict [("k", .str "4")])]

theorem demoMap_nodup : (demoMap.map Prod.fst).Nodup := by decide

theorem demo_call : (demo.older demoParts).Call
    (Args.pyArgsView tOps .str (some [.str "1", .str "2", .str "3"]) (some [("k", .str "4")]))
    [.str "1", .str "2", .str "3"] [("k", .str "4")] where
  args := rfl
  distinct := by decide
  kwargs := by
    refine ⟨rfl, ?_, T.str, rfl, fun n => ⟨rfl, rfl⟩⟩
    intro name
    simp only [LookupKey.pyGetDictItem, LookupPath.ofStr]
    cases Dict.get name [("k", T.str "4")] <;> rfl

theorem demo_same : demo.SameCall demoParts demoSig demoMap
    [.str "1", .str "2", .str "3"] [("k", .str "4")] where
  params := by
    intro i p hp
    match i, hp with
    | 0, hp => cases hp; rfl
    | 1, hp => cases hp; rfl
    | 2, hp => cases hp; rfl
  star := ⟨.exact, rfl⟩
  starStar := ⟨[(.str "k", .str "4")], by rfl, rfl⟩
  known := by decide
  once := by
    rintro i name x ⟨h1, h2, h3, h4, h5⟩
    match i, h1, h2, h3 with
    | 1, h1, _, _ =>
      cases h1
      cases h5
    | i + 2, _, _, h3 =>
      simp [demoSig, Sig.positional] at h3
      omega

/-- Both spellings and their output. -/
example : (demo.validate (.dict demoMap) st0).1 =
      .ok ([.str "1a", .str "2b", .str "3*"], [("c", .str "d"), ("k", .str "4**")]) ∧
    (demo.validate (.call [.str "1", .str "2", .str "3"] [("k", .str "4")]) st0).1 =
      .ok ([.str "1a", .str "2b", .str "3*"], [("c", .str "d"), ("k", .str "4**")]) :=
  ⟨by rfl, by rfl⟩

/-- `mapping_sound_partial` applies to the mapping. -/
example : demoSig.Binds (fun _ => False) [T.str "1a", T.str "2b", T.str "3*"]
    [("c", T.str "d"), ("k", T.str "4**")] :=
  (mapping_sound_partial demo demoParts demoSig demo_describes demo_explains (tV3_dicts _)
    (.dict demoMap) (tView demoMap) demoMap st0 _ rfl (tV3_mapping _ _ demoMap_nodup) (Or.inl rfl)
    (noClash_same (fun p hp => by cases hp; rfl) demo_same) _ _ rfl).1

/-- `mapping_complete_partial` applies to the mapping. -/
example : ∃ out, (demo.validate (.dict demoMap) st0).1 = .ok out := by
  refine mapping_complete_partial demo demoParts demoSig demo_describes (.dict demoMap)
    (tView demoMap) demoMap st0 rfl (tV3_mapping _ _ demoMap_nodup) (Or.inl rfl) ?_
    (fun _ => by decide)
  refine ⟨?_, ?_, ?_, ?_, ?_⟩
  · intro p hp x hx st
    simp only [Parts.named, demoParts, List.cons_append, List.nil_append,
      List.mem_cons, List.not_mem_nil, or_false] at hp
    rcases hp with rfl | rfl | rfl <;> cases hx <;> exact ⟨_, rfl⟩
  · intro p hp hx st
    simp only [Parts.named, demoParts, List.cons_append, List.nil_append,
      List.mem_cons, List.not_mem_nil, or_false] at hp
    rcases hp with rfl | rfl | rfl
    · cases hx
    · cases hx
    · exact ⟨_, rfl⟩
  · intro p x hp hx
    cases hp
    cases hx
    refine ⟨.exact, [.str "3"], rfl, ?_⟩
    intro y hy st
    cases List.mem_singleton.1 hy
    exact ⟨_, rfl⟩
  · intro p x hp _ hx
    cases hp
    cases hx
    refine ⟨[(.str "k", .str "4")], by rfl, ?_⟩
    intro kv hkv
    cases List.mem_singleton.1 hkv
    exact ⟨⟨_, rfl⟩, fun _ => ⟨_, rfl⟩⟩
  · intro p hp hne
    cases hp
    exact absurd rfl hne

/-- `b` is missing, `args` has a bad item, `kwargs` is no dict and `z` is unknown. -/
def demoBad : Dict T :=
  [("a", .str "1"), ("args", .tup [.str "3", .tup []]), ("kwargs", .str "4"), ("z", .str "5")]

/-- `mapping_errors_only_partial` applies to that. -/
example : (demo.validate (.dict demoBad) st0).1 = .error (.lineErrors [
      ⟨.missingArgument, .list [.s "b"], .dict demoBad⟩,
      ⟨.other "bad", .list [.i 1, .s "args"], .tup []⟩,
      ⟨.other "dict_type", .list [.s "kwargs"], .str "4"⟩,
      ⟨.extraForbidden, .list [.s "z"], .str "5"⟩]) ∧
    demo.Mapping (tView demoBad) demoBad :=
  ⟨by rfl, tV3_mapping _ _ (by decide)⟩

/-- `argskwargs_as_arguments_partial` and `argskwargs_sound_partial` apply to the `ArgsKwargs`. -/
example : demo.validate (.call [.str "1", .str "2", .str "3"] [("k", .str "4")]) st0 =
      (demo.older demoParts).validate (.call [.str "1", .str "2", .str "3"] [("k", .str "4")]) st0 ∧
    demoSig.Binds (fun _ => False) [T.str "1a", T.str "2b", T.str "3*"]
      [("c", T.str "d"), ("k", T.str "4**")] :=
  ⟨argskwargs_as_arguments_partial demo demoParts demoSig demo_describes demo_blind _ st0 rfl
      (Or.inl rfl),
    (argskwargs_sound_partial demo demoParts demoSig demo_describes demo_explains demo_blind
      (fun p hp => by cases hp; rfl) rfl
      (.call [.str "1", .str "2", .str "3"] [("k", .str "4")]) _ _ _ st0 _ rfl rfl demo_call
      (Or.inl rfl) _ _ rfl).2.1⟩

/-- `forms_agree_partial` applies to the two. -/
example : (∃ out, (demo.validate (.dict demoMap) st0).1 = .ok out) ↔
    ∃ out, (demo.validate (.call [.str "1", .str "2", .str "3"] [("k", .str "4")]) st0).1 =
      .ok out :=
  (forms_agree_partial demo demoParts demoSig demo_describes demo_explains (tV3_dicts _) demo_blind
    demo_steady (fun p hp => by cases hp; rfl) rfl st0 (Or.inl rfl) _ _ demoMap rfl
    (tV3_mapping _ _ demoMap_nodup) _ _ _ _ rfl rfl demo_call demo_same).1

/-! ### Where it goes wrong -/

/-- `def f(*, a, **kwargs)` where `a` must be the string `1`. -/
def clash : V3 T := tV3 [⟨.keywordOnly, "a", plainKeys "a", one, noDflt⟩,
  ⟨.varKwUniform, "kwargs", plainKeys "kwargs", mark "**", noDflt⟩]

/-- An entry for `**kwargs` with the name of a keyword-only parameter replaces the parameter's
validated value by one that the parameter's validator does not accept. -/
theorem mapping_clash_overwrites :
    (clash.validate (.dict [("a", .str "1"), ("kwargs", .dict [("a", .str "2")])]) st0).1 =
      .ok ([], [("a", .str "2**")]) ∧
    ∀ x st, (one x st).1 ≠ .ok (.str "2**") := by
  refine ⟨by rfl, ?_⟩
  intro x st h
  unfold one at h
  split at h
  · simp at h
  · cases h

/-- `def f(a, **kwargs)`. -/
def clashPos : V3 T := tV3 [⟨.positionalOrKeyword, "a", plainKeys "a", one, noDflt⟩,
  ⟨.varKwUniform, "kwargs", plainKeys "kwargs", mark "**", noDflt⟩]

/-- With the name of a positional parameter, the output is a call that Python cannot make: the
parameter gets two arguments. -/
theorem mapping_clash_twice :
    (clashPos.validate (.dict [("a", .str "1"), ("kwargs", .dict [("a", .str "2")])]) st0).1 =
      .ok ([.str "one"], [("a", .str "2**")]) ∧
    ¬ (Sig.Binds ⟨[], ["a"], [], false, true⟩ (fun _ => True) [T.str "one"]
      [("a", .str "2**")]) :=
  ⟨by rfl, fun h => h.once 0 "a" (.str "2**")
    ⟨rfl, Nat.zero_le _, Nat.zero_lt_one, Nat.zero_lt_one, by rfl⟩⟩

/-- `def f(*args)`. -/
def starOnly : V3 T := tV3 [⟨.varArgs, "args", plainKeys "args", mark "*", noDflt⟩]

/-- If `*args` is given as a generator that raises, the interpreter gets a Rust panic instead of
the exception. -/
theorem mapping_generator_panics :
    (starOnly.validate (.dict [("args", .gen [some (.str "1"), none])]) st0).1 =
      .error (.internal ⟨"panic"⟩) := by rfl

/-- Accepts anything, answering with the name of the field being validated. -/
def echoField : Validator T T := fun _ st => (.ok (.str (st.extra.fieldName.getD "?")), st)

def echo : Parts T := ⟨[⟨.positionalOrKeyword, "a", plainKeys "a", echoField, noDflt⟩], none, [], none⟩

/-- A validator that looks at the field name (`info.field_name`) gets it under an `arguments` schema
but not under `arguments-v3`. -/
theorem field_name_not_set :
    ((tV3 echo.pos).validate (.call [.str "1"] []) st0).1 = .ok ([.str "?"], []) ∧
    (((tV3 echo.pos).older echo).validate (.call [.str "1"] []) st0).1 = .ok ([.str "a"], []) :=
  ⟨by rfl, by rfl⟩

end PC.ArgsV3
