import Verif.Lemmas.Dataclass
import Verif.Props.Arguments

/-
C70: the arguments of a dataclass are bound the way the `__init__` of the standard library binds
them.  C71: assignment to an attribute of a dataclass instance.  C72: dataclass instances as
inputs, and the construction of instances.

C70 is partial: fields in pydantic's order without aliases, and every field with a positional
place taking an argument (`Ordered`); validators that say why they reject (`Explains`).  C71 and
C72 are partial as well; what goes wrong otherwise is at the end of each part.
-/

namespace PC.Dc
open PC.Lookup PC.Fields PC.Args
variable {α : Type}

/-! ### C70 -/

/-- **C70**, one direction.  If the arguments of a dataclass are accepted, then the `__init__` of
the standard library takes them too; each field has the validated form of the argument it gets
there, else its default, and its validator is shown the attributes made by the fields before it;
init-only fields make no attributes, and their values are kept in order for `__post_init__`;
further keyword arguments are treated as `extra` says. -/
theorem dataclass_args_sound_partial (d : DcArgs α) (ho : d.Ordered) (he : d.Explains)
    (input : α) (view : ArgsView α) (args : List α) (kw : Dict α) (st st' : VState α)
    (hin : d.asArgs input = .ok view) (hc : d.Call view args kw)
    (hb : st.validateByAliasOr d.byAlias = true ∨ st.validateByNameOr d.byName = true)
    (out : DcOut α) (h : d.validate input st = (.ok out, st')) :
    d.sig.Binds (fun i => ∃ f ∈ d.fields, d.sig.params[i]? = some f.name ∧ f.HasDefault) args kw ∧
    ∃ rows xs, rows.map Prod.fst = d.fields ∧
      (∀ (i : Nat) (r : DcField α × Option α), rows[i]? = some r →
        FieldValue r.1 (attributes (rows.take i)) (argument d.sig args kw r.1.name) r.2) ∧
      d.ExtraValues (d.sig.surplusKw kw) xs ∧
      out.dict = (attributes rows).update xs ∧
      out.initOnly = if d.collectInitOnly then some (initOnlyValues rows) else none := by
  simp only [DcArgs.validate, hin] at h
  rcases run_spec ho hc input { st with allowPartial := .ofBool false } hb with
    ⟨os, es, xs, es', hrows, hx, hr⟩ | ⟨e, hr, -⟩
  rotate_left
  · rw [h] at hr
    cases hr
  rw [h] at hr
  dsimp only at hr
  split at hr
  rotate_left
  · cases hr
  rename_i hnil
  rw [List.isEmpty_iff] at hnil
  obtain ⟨hnil', h3⟩ := List.append_eq_nil_iff.1 hnil
  obtain ⟨h1, h2⟩ := List.append_eq_nil_iff.1 hnil'
  subst h1
  simp only [Except.ok.injEq] at hr
  have hlen := hrows.length
  have hrow : ∀ (i : Nat) (f : DcField α), d.fields[i]? = some f → ∃ o, os[i]? = some o ∧
      Row args kw input i (putAll (d.fields.take i) (os.take i) []) f o [] := by
    intro i f hf
    obtain ⟨o, es1, g1, g2, g3⟩ := hrows.at i f hf
    rw [Nat.zero_add] at g2
    have : es1 = [] := by
      cases es1 with
      | nil => rfl
      | cons e es1 => cases g3 e (List.mem_cons_self ..)
    subst this
    exact ⟨o, g1, g2⟩
  have hdn := ho.distinct
  refine ⟨⟨?_, ?_, ?_, ?_⟩, d.fields.zip os, xs, ?_, ?_, hx.values he h3, ?_, ?_⟩
  · intro _
    unfold Sig.surplus
    have : d.sig.positional = d.sig.posOrKw := List.nil_append _
    rw [this]
    cases hdr : args.drop d.sig.posOrKw.length with
    | nil => rfl
    | cons x l =>
      rw [hdr, unexpectedArgs] at h2
      cases h2
  · intro hs
    have hf : d.extra = .forbid := by
      have : decide (d.extra ≠ .forbid) = false := hs
      simpa using this
    cases hsu : d.sig.surplusKw kw with
    | nil => rfl
    | cons kv l =>
      have := (hx.reason (input := input) (args := args) (fun _ h => h)).2 hf kv.1 kv.2
        (by rw [hsu]; exact List.mem_cons_self ..)
      rw [h3] at this
      cases this
  · intro i name v ht
    have hname : name ∈ d.sig.posOrKw := by
      have h5 := ht.1
      unfold Sig.params at h5
      have h6 := ht.2.2.1
      unfold Sig.positional at h6
      rw [List.getElem?_append_left h6, show d.sig.posOnly = [] from rfl, List.nil_append] at h5
      exact List.mem_of_getElem? h5
    unfold DcArgs.sig at hname
    obtain ⟨f, hf, hfn⟩ := List.mem_map.1 hname
    obtain ⟨hf1, hf2⟩ := List.mem_filter.1 hf
    obtain ⟨j, hj⟩ := List.getElem?_of_mem hf1
    obtain ⟨o, -, g2⟩ := hrow j f hj
    obtain ⟨-, g3, -⟩ := g2.value (placed ho args kw hj) he hf1
    -- a field in positional place `i` is field number `i`
    obtain ⟨ps, ks, hfs, hp, hk⟩ := ho.order
    obtain ⟨s1, -⟩ := sig_split hfs hp hk
    have h5 := ht.1
    have h6 := ht.2.2.1
    unfold Sig.params at h5
    unfold Sig.positional at h6
    rw [List.getElem?_append_left h6, show d.sig.posOnly = [] from rfl, List.nil_append, s1] at h5
    have h7 : (d.fields.map DcField.name)[i]? = some name := by
      rw [hfs, List.map_append, List.getElem?_append_left (List.getElem?_eq_some_iff.1 h5).1, h5]
    have h8 : (d.fields.map DcField.name)[j]? = some name := by
      rw [List.getElem?_map, hj, ← hfn]
      rfl
    have hij : i = j :=
      (List.getElem?_inj (List.getElem?_eq_some_iff.1 h7).1 hdn).1 (by rw [h7, h8])
    subst hij
    rw [← hfn] at ht
    exact g3 v ht
  · intro i hi hbn
    have hname := List.getElem_mem hi
    have hkey : d.sig.params[i] ∈ d.sig.keyword := hname
    rw [mem_sig_keyword] at hkey
    obtain ⟨f, hf1, hf2, hfn⟩ := hkey
    have hpi : d.sig.params[i]? = some f.name := by rw [List.getElem?_eq_getElem hi, hfn]
    obtain ⟨j, hj⟩ := List.getElem?_of_mem hf1
    obtain ⟨o, -, g2⟩ := hrow j f hj
    obtain ⟨-, -, g4⟩ := g2.value (placed ho args kw hj) he hf1
    refine ⟨f, hf1, hpi, g4 ?_ hf2⟩
    unfold argument
    rw [idxOf_of_getElem (params_nodup ho) hpi]
    exact hbn
  · exact List.map_fst_zip (by omega)
  · intro i r hr'
    obtain ⟨f, o⟩ := r
    rw [List.getElem?_zip_eq_some] at hr'
    obtain ⟨o', g1, g2⟩ := hrow i f hr'.1
    rw [hr'.2] at g1
    cases g1
    have := (g2.value (placed ho args kw hr'.1) he (List.mem_of_getElem? hr'.1)).1
    rw [putAll_eq _ _ _ (by simp [hlen]) (by
        rw [List.map_take]
        exact hdn.sublist (List.take_sublist _ _)) (fun _ _ h => by cases h),
      List.nil_append] at this
    rw [List.zip, List.take_zipWith]
    exact this
  · rw [hr, putAll_eq _ _ _ hlen hdn (fun _ _ h => by cases h), List.nil_append]
  · rw [hr, putInitAll_eq _ _ _ hlen, List.nil_append]

/-- **C70**, the other direction.  A call that the `__init__` of the standard library takes, whose
arguments, defaults and extra items all validate, is accepted. -/
theorem dataclass_args_complete_partial (d : DcArgs α) (ho : d.Ordered)
    (input : α) (view : ArgsView α) (args : List α) (kw : Dict α) (st : VState α)
    (hin : d.asArgs input = .ok view) (hc : d.Call view args kw)
    (hb : st.validateByAliasOr d.byAlias = true ∨ st.validateByNameOr d.byName = true)
    (hasDefault : Nat → Prop) (hbind : d.sig.Binds hasDefault args kw) (hv : d.AllValid args kw) :
    ∃ out, (d.validate input st).1 = .ok out := by
  simp only [DcArgs.validate, hin]
  rcases run_spec ho hc input { st with allowPartial := .ofBool false } hb with
    ⟨os, es, xs, es', hrows, hx, hr⟩ | ⟨e, hr, hra⟩
  · rw [hr]
    dsimp only
    have h1 : ∀ e ∈ es, False := by
      intro e hes
      obtain ⟨j, f, o, es1, data, g1, g2, g3⟩ := hrows.of_mem e hes
      rw [Nat.zero_add] at g2
      have hp := placed ho args kw g1
      have hm := List.mem_of_getElem? g1
      have ha := hp.argument
      cases g2 with
      | @both x v h1 h2 => exact hbind.once j f.name v (hp.twice x v h1 h2)
      | pos => cases g3
      | @posErr x ls st h1 h2 h3 =>
        rw [h1] at ha
        obtain ⟨w, hw⟩ := hv.given f hm x ha st
        rw [h3] at hw
        cases hw
      | kw => cases g3
      | @kwErr x ls st h1 h2 h3 =>
        rw [h1, h2] at ha
        obtain ⟨w, hw⟩ := hv.given f hm x ha st
        rw [h3] at hw
        cases hw
      | dflt => cases g3
      | @dfltErr ls st h1 h2 h3 =>
        rw [h1, h2] at ha
        rcases hv.defaults f hm ha st with ⟨w, hw⟩ | hw | ⟨-, hw⟩ <;>
        · rw [h3] at hw
          cases hw
      | omitted => cases g3
      | @missing st h0 h1 h2 h3 =>
        rw [h1, h2] at ha
        rcases hv.defaults f hm ha st with ⟨w, hw⟩ | hw | ⟨hw, -⟩
        · rw [h3] at hw
          cases hw
        · rw [h3] at hw
          cases hw
        · rw [h0] at hw
          cases hw
      | absent => cases g3
    have h2 : args.drop d.sig.posOrKw.length = [] := by
      have := hbind.few rfl
      unfold Sig.surplus at this
      rw [show d.sig.positional = d.sig.posOrKw from List.nil_append _] at this
      exact this
    have h3 : ∀ e ∈ es', False := by
      intro e he
      cases (hx.reason (input := input) (args := args) (fun _ h => h)).1 e he with
      | surplus i x hi hxi =>
        have := List.drop_eq_nil_iff.1 h2
        have := (List.getElem?_eq_some_iff.1 hxi).1
        omega
      | unknown k x hf hm =>
        rw [hbind.known (by
          show decide (d.extra ≠ .forbid) = false
          simpa using hf)] at hm
        cases hm
      | twice i k x ht => exact hbind.once i k x ht
      | missing f hf hi ha hd =>
        obtain ⟨st, hd⟩ := hd
        rcases hv.defaults f hf ha st with ⟨w, hw⟩ | hw | ⟨hw, -⟩
        · rw [hd] at hw
          cases hw
        · rw [hd] at hw
          cases hw
        · rw [hi] at hw
          cases hw
      | invalid f x _ hf ha hu =>
        obtain ⟨st, ls, e0, h5, -, -⟩ := hu
        obtain ⟨w, hw⟩ := hv.given f hf x ha st
        rw [h5] at hw
        cases hw
      | badDefault f _ hf ha hd =>
        obtain ⟨st, ls, hd, -⟩ := hd
        rcases hv.defaults f hf ha st with ⟨w, hw⟩ | hw | ⟨-, hw⟩ <;>
        · rw [hd] at hw
          cases hw
      | invalidExtra v k x _ hal hev hm hu =>
        obtain ⟨st, ls, e0, h5, -, -⟩ := hu
        obtain ⟨w, hw⟩ := hv.extras v hal hev k x hm st
        rw [h5] at hw
        cases hw
    have h1' : es = [] := by
      cases es with
      | nil => rfl
      | cons e _ => exact (h1 e (List.mem_cons_self ..)).elim
    have h3' : es' = [] := by
      cases es' with
      | nil => rfl
      | cons e _ => exact (h3 e (List.mem_cons_self ..)).elim
    subst h1' h3'
    rw [h2]
    exact ⟨_, rfl⟩
  · exfalso
    cases hra with
    | run f x st _ hf ha h5 _ =>
      obtain ⟨w, hw⟩ := hv.given f hf x ha st
      rw [h5] at hw
      cases hw
    | dflt f st _ hf ha h5 h6 h7 =>
      rcases hv.defaults f hf ha st with ⟨w, hw⟩ | hw | ⟨-, hw⟩ <;> rw [h5] at hw <;> cases hw
      exact h7 rfl
    | extra v k x st _ hal hev hm h5 _ =>
      obtain ⟨w, hw⟩ := hv.extras v hal hev k x hm st
      rw [h5] at hw
      cases hw

/-- **C70**, errors.  When the arguments are rejected with line errors, each error has a reason,
and everything that the `__init__` of the standard library would object to is reported: each
surplus positional argument, each unknown keyword argument (if extra ones are forbidden), each
parameter given twice, each parameter without argument and default; and so is each argument that
its validator rejects. -/
theorem dataclass_args_errors_partial (d : DcArgs α) (ho : d.Ordered)
    (input : α) (view : ArgsView α) (args : List α) (kw : Dict α) (st st' : VState α)
    (hin : d.asArgs input = .ok view) (hc : d.Call view args kw)
    (hb : st.validateByAliasOr d.byAlias = true ∨ st.validateByNameOr d.byName = true)
    (es : List (LineError α)) (h : d.validate input st = (.error (.lineErrors es), st')) :
    (∀ e ∈ es, d.Reason input args kw e) ∧
    (∀ (i : Nat) (x : α), d.sig.posOrKw.length ≤ i → args[i]? = some x →
      .newWithLoc .unexpectedPositionalArgument x (.i i) ∈ es) ∧
    (d.extra = .forbid → ∀ k x, (k, x) ∈ d.sig.surplusKw kw →
      .newWithLoc .unexpectedKeywordArgument x (.s k) ∈ es) ∧
    (∀ i k x, d.sig.Twice args kw i k x → .newWithLoc .multipleArgumentValues x (.s k) ∈ es) ∧
    (∀ f ∈ d.fields, f.init = true → argument d.sig args kw f.name = none →
      (∀ st, (f.dflt (some (.s f.name)) st).1 = .ok none) →
      .newWithLoc .missing input (.s f.name) ∈ es) ∧
    (∀ f ∈ d.fields, ∀ x, argument d.sig args kw f.name = some x →
      (∀ i v, ¬ d.sig.Twice args kw i f.name v) →
      (∀ st, ∃ ls, (f.run x st).1 = .error (.lineErrors ls)) →
      ∃ st ls, (f.run x st).1 = .error (.lineErrors ls) ∧
        ∀ e ∈ ls, e.withOuterLocation (d.place args f.name) ∈ es) := by
  simp only [DcArgs.validate, hin] at h
  rcases run_spec ho hc input { st with allowPartial := .ofBool false } hb with
    ⟨os, es1, xs, es', hrows, hx, hr⟩ | ⟨e, hr, hra⟩
  rotate_left
  · exfalso
    rw [h] at hr
    cases hr
    cases hra with
    | run _ _ _ _ _ _ _ hne => exact hne _ rfl
    | dflt _ _ _ _ _ _ hne => exact hne _ rfl
    | extra _ _ _ _ _ _ _ _ _ hne => exact hne _ rfl
  rw [h] at hr
  dsimp only at hr
  split at hr
  · cases hr
  simp only [Except.error.injEq, ValError.lineErrors.injEq] at hr
  have hxr := hx.reason (input := input) (args := args) (fun _ h => h)
  have hrow : ∀ f ∈ d.fields, ∃ (j : Nat) (o : Option α) (es2 : List (LineError α)) (data : Dict α),
      d.fields[j]? = some f ∧ Row args kw input j data f o es2 ∧ ∀ e ∈ es2, e ∈ es := by
    intro f hf
    obtain ⟨j, hj⟩ := List.getElem?_of_mem hf
    obtain ⟨o, es2, -, g2, g3⟩ := hrows.at j f hj
    rw [Nat.zero_add] at g2
    refine ⟨j, o, es2, _, hj, g2, ?_⟩
    intro e he
    rw [hr]
    exact List.mem_append_left _ (List.mem_append_left _ (g3 e he))
  refine ⟨?_, ?_, ?_, ?_, ?_, ?_⟩
  · intro e he
    rw [hr, List.mem_append, List.mem_append] at he
    rcases he with (he | he) | he
    · obtain ⟨j, f, o, es2, data, g1, g2, g3⟩ := hrows.of_mem e he
      rw [Nat.zero_add] at g2
      exact g2.reason (placed ho args kw g1) (List.mem_of_getElem? g1) e g3
    · rw [mem_unexpectedArgs] at he
      obtain ⟨j, x, g1, rfl⟩ := he
      rw [List.getElem?_drop] at g1
      exact .surplus _ x (by omega) g1
    · exact hxr.1 e he
  · intro i x hi hxi
    rw [hr, List.mem_append, List.mem_append, mem_unexpectedArgs]
    refine Or.inl (Or.inr ⟨i - d.sig.posOrKw.length, x, ?_, ?_⟩)
    · rw [List.getElem?_drop, ← hxi]
      congr 1
      omega
    · rw [show d.sig.posOrKw.length + (i - d.sig.posOrKw.length) = i by omega]
  · intro hf k x hm
    rw [hr]
    exact List.mem_append_right _ (hxr.2 hf k x hm)
  · intro i k x ht
    obtain ⟨ps, ks, hfs, hp, hk⟩ := ho.order
    obtain ⟨s1, -⟩ := sig_split hfs hp hk
    have h5 := ht.1
    have h6 := ht.2.2.1
    unfold Sig.params at h5
    unfold Sig.positional at h6
    rw [List.getElem?_append_left h6, show d.sig.posOnly = [] from rfl, List.nil_append, s1,
      List.getElem?_map] at h5
    cases hpi : ps[i]? with
    | none => rw [hpi] at h5; cases h5
    | some f =>
      rw [hpi] at h5
      cases h5
      have hfi : d.fields[i]? = some f := by
        rw [hfs, List.getElem?_append_left (List.getElem?_eq_some_iff.1 hpi).1, hpi]
      obtain ⟨o, es2, -, g2, g3⟩ := hrows.at i f hfi
      rw [Nat.zero_add] at g2
      obtain ⟨n1, n2⟩ := (placed ho args kw hfi).notTwice x ht
      have : es2 = [.newWithLoc .multipleArgumentValues x (.s f.name)] := by
        cases g2 with
        | both h1 h2 => rw [n2] at h2; cases h2; rfl
        | pos h1 h2 => rw [n2] at h2; cases h2
        | posErr h1 h2 => rw [n2] at h2; cases h2
        | kw h1 => rw [h1] at n1; cases n1
        | kwErr h1 => rw [h1] at n1; cases n1
        | dflt h1 => rw [h1] at n1; cases n1
        | dfltErr h1 => rw [h1] at n1; cases n1
        | omitted h1 => rw [h1] at n1; cases n1
        | missing _ h1 => rw [h1] at n1; cases n1
        | absent _ h1 => rw [h1] at n1; cases n1
      rw [hr]
      exact List.mem_append_left _ (List.mem_append_left _
        (g3 _ (by rw [this]; exact List.mem_singleton.2 rfl)))
  · intro f hf hi ha hd
    obtain ⟨j, o, es2, data, g1, g2, g3⟩ := hrow f hf
    have hpa := (placed ho args kw g1).argument
    rw [ha] at hpa
    obtain ⟨p1, p2⟩ := Option.or_eq_none_iff.1 hpa.symm
    cases g2 with
    | both h1 => rw [p1] at h1; cases h1
    | pos h1 => rw [p1] at h1; cases h1
    | posErr h1 => rw [p1] at h1; cases h1
    | kw _ h2 => rw [p2] at h2; cases h2
    | kwErr _ h2 => rw [p2] at h2; cases h2
    | dflt _ _ _ h4 => rw [hd] at h4; cases h4
    | dfltErr _ _ h4 => rw [hd] at h4; cases h4
    | omitted _ _ _ h4 => rw [hd] at h4; cases h4
    | missing => exact g3 _ (List.mem_singleton.2 rfl)
    | absent h0 => rw [hi] at h0; cases h0
  · intro f hf x ha ht hv
    obtain ⟨j, o, es2, data, g1, g2, g3⟩ := hrow f hf
    have hpl := placed ho args kw g1
    have hpa := hpl.argument
    rw [ha] at hpa
    cases g2 with
    | @both x v h1 h2 => exact absurd (hpl.twice x v h1 h2) (ht j v)
    | @pos y w st h1 _ _ _ h5 =>
      rw [h1] at hpa
      cases hpa
      obtain ⟨ls, hls⟩ := hv st
      rw [h5] at hls
      cases hls
    | @posErr y ls st h1 _ h3 =>
      rw [h1] at hpa
      cases hpa
      refine ⟨st, ls, h3, fun e he => ?_⟩
      rw [hpl.place.1 x h1]
      exact g3 _ (List.mem_map.2 ⟨e, he, rfl⟩)
    | @kw y w st h1 h2 _ _ h5 =>
      rw [h1, h2] at hpa
      cases hpa
      obtain ⟨ls, hls⟩ := hv st
      rw [h5] at hls
      cases hls
    | @kwErr y ls st h1 h2 h3 =>
      rw [h1, h2] at hpa
      cases hpa
      refine ⟨st, ls, h3, fun e he => ?_⟩
      rw [hpl.place.2 h1]
      exact g3 _ (List.mem_map.2 ⟨e, he, rfl⟩)
    | dflt h1 h2 => rw [h1, h2] at hpa; cases hpa
    | dfltErr h1 h2 => rw [h1, h2] at hpa; cases hpa
    | omitted h1 h2 => rw [h1, h2] at hpa; cases hpa
    | missing _ h1 h2 => rw [h1, h2] at hpa; cases hpa
    | absent _ h1 h2 => rw [h1, h2] at hpa; cases hpa

/-- **C70**.  Any other way for the arguments to be rejected is a validator that raises. -/
theorem dataclass_args_raises_partial (d : DcArgs α) (ho : d.Ordered)
    (input : α) (view : ArgsView α) (args : List α) (kw : Dict α) (st st' : VState α)
    (hin : d.asArgs input = .ok view) (hc : d.Call view args kw)
    (hb : st.validateByAliasOr d.byAlias = true ∨ st.validateByNameOr d.byName = true)
    (e : ValError α) (hne : ∀ ls, e ≠ .lineErrors ls) (h : d.validate input st = (.error e, st')) :
    d.Raises args kw e := by
  simp only [DcArgs.validate, hin] at h
  rcases run_spec ho hc input { st with allowPartial := .ofBool false } hb with
    ⟨os, es1, xs, es', hrows, hx, hr⟩ | ⟨e', hr, hra⟩
  · exfalso
    rw [h] at hr
    dsimp only at hr
    split at hr
    · cases hr
    · cases hr
      exact hne _ rfl
  · rw [h] at hr
    cases hr
    exact hra

/-! #### Cases -/

/-- A field without alias. -/
def field (name : String) (kwOnly init initOnly : Bool) (run : Validator String String)
    (dflt : Option LocItem → VState String → ValResult String (Option String) × VState String) :
    DcField String :=
  ⟨kwOnly, name, init, initOnly, plainKeys name, run, dflt, false⟩

/-- The arguments of a dataclass; the input text is ignored, the call is made of `args` and `kw`. -/
def dataclass (fields : List (DcField String)) (extra : ExtraBehavior) (args : List String)
    (kw : Dict String) : DcArgs String where
  fields := fields
  collectInitOnly := true
  extra := extra
  extrasV := none
  locByAlias := true
  byAlias := none
  byName := none
  asArgs := fun _ => .ok (pyArgsView strOps id (some args) (some kw))
  keyOps := strKeys

theorem dcCall (d : DcArgs String) (hk : d.keyOps = strKeys) (args : List String)
    (kw : Dict String) (hn : (kw.map Prod.fst).Nodup) :
    d.Call (pyArgsView strOps id (some args) (some kw)) args kw where
  args := rfl
  distinct := hn
  kwargs := by
    refine ⟨rfl, ?_, id, rfl, ?_⟩
    · intro name
      simp only [LookupKey.pyGetDictItem, LookupPath.ofStr]
      cases Dict.get name kw <;> rfl
    · intro n
      rw [hk]
      exact ⟨rfl, rfl⟩

/-- ```
@dataclass
class Demo:
    a: str
    b: InitVar[str]
    c: str = field(default='d', kw_only=True)
    e: str = field(default='f', init=False, kw_only=True)
``` -/
def demoFields : List (DcField String) :=
  [field "a" false true false (okV "a") noDflt, field "b" false true true (okV "b") noDflt,
    field "c" true true false (okV "c") (someDflt "d"),
    field "e" true false false (okV "e") (someDflt "f")]

/-- `Demo('1', b='2', z='3')` with `extra='allow'`. -/
def demoDc : DcArgs String := dataclass demoFields .allow ["1"] [("b", "2"), ("z", "3")]

theorem demoDc_ordered (extra : ExtraBehavior) (args : List String) (kw : Dict String) :
    (dataclass demoFields extra args kw).Ordered where
  order := ⟨demoFields.take 2, demoFields.drop 2, rfl, by
    intro f hf
    simp only [demoFields, List.take, List.mem_cons, List.not_mem_nil, or_false] at hf
    rcases hf with rfl | rfl <;> exact ⟨rfl, rfl⟩, by
    intro f hf
    simp only [demoFields, List.drop, List.mem_cons, List.not_mem_nil, or_false] at hf
    rcases hf with rfl | rfl <;> rfl⟩
  distinct := (by decide : (demoFields.map DcField.name).Nodup)
  keys := by
    intro f hf
    simp only [dataclass, demoFields, List.mem_cons, List.not_mem_nil, or_false] at hf
    rcases hf with rfl | rfl | rfl | rfl <;> rfl

theorem demoDc_explains (extra : ExtraBehavior) (args : List String) (kw : Dict String) :
    (dataclass demoFields extra args kw).Explains := by
  refine ⟨?_, ?_, ?_⟩
  · intro f hf x st h
    simp only [dataclass, demoFields, List.mem_cons, List.not_mem_nil, or_false] at hf
    rcases hf with rfl | rfl | rfl | rfl <;> cases h
  · intro f hf loc st h
    simp only [dataclass, demoFields, List.mem_cons, List.not_mem_nil, or_false] at hf
    rcases hf with rfl | rfl | rfl | rfl <;> cases h
  · intro v hv
    cases hv

/-- The output: the attributes, and the argument for `__post_init__`. -/
theorem demoDc_out : (demoDc.validate "" st0).1 =
    .ok ⟨[("a", "1a"), ("c", "d"), ("e", "f"), ("z", "3")], some ["2b"]⟩ := by rfl

/-- The signature is `(a, b, *, c, **kwargs)`. -/
example : demoDc.sig = ⟨[], ["a", "b"], ["c"], false, true⟩ := by decide

/-- `dataclass_args_sound_partial` applies to it. -/
example : ∃ rows xs, rows.map Prod.fst = demoDc.fields ∧
      (∀ (i : Nat) (r : DcField String × Option String), rows[i]? = some r →
        FieldValue r.1 (attributes (rows.take i))
          (argument demoDc.sig ["1"] [("b", "2"), ("z", "3")] r.1.name) r.2) ∧
      demoDc.ExtraValues [("z", "3")] xs ∧
      [("a", "1a"), ("c", "d"), ("e", "f"), ("z", "3")] = (attributes rows).update xs ∧
      some ["2b"] = some (initOnlyValues rows) :=
  (dataclass_args_sound_partial demoDc (demoDc_ordered ..) (demoDc_explains ..) "" _ ["1"]
    [("b", "2"), ("z", "3")] st0 _ rfl (dcCall demoDc rfl _ _ (by decide)) (Or.inl rfl) _ rfl).2

/-- `dataclass_args_complete_partial` applies to it. -/
example : ∃ out, (demoDc.validate "" st0).1 = .ok out := by
  refine dataclass_args_complete_partial demoDc (demoDc_ordered ..) "" _ ["1"]
    [("b", "2"), ("z", "3")] st0 rfl (dcCall demoDc rfl _ _ (by decide)) (Or.inl rfl)
    (fun i => i = 2) ?_ ?_
  · refine ⟨fun _ => (by decide), fun h => (by cases h), ?_, ?_⟩
    · rintro i name v ⟨h1, h2, h3, h4, h5⟩
      match i, h1, h4 with
      | 0, h1, _ =>
        cases h1
        cases h5
      | i + 1, _, h4 =>
        simp at h4
    · intro i hi hb
      match i, hi, hb with
      | 0, _, hb => exact absurd hb (by decide)
      | 1, _, hb => exact absurd hb (by decide)
      | 2, _, _ => rfl
      | i + 3, hi, _ =>
        have : demoDc.sig.params.length = 3 := by decide
        omega
  · refine ⟨?_, ?_, fun v _ h => (by cases h)⟩
    · intro f hf x _ st
      simp only [demoDc, dataclass, demoFields, List.mem_cons, List.not_mem_nil, or_false] at hf
      rcases hf with rfl | rfl | rfl | rfl <;> exact ⟨_, rfl⟩
    · intro f hf ha st
      simp only [demoDc, dataclass, demoFields, List.mem_cons, List.not_mem_nil, or_false] at hf
      rcases hf with rfl | rfl | rfl | rfl
      · exact absurd ha (by decide)
      · exact absurd ha (by decide)
      · exact Or.inl ⟨_, rfl⟩
      · exact Or.inl ⟨_, rfl⟩

/-- `Demo('1', '2', '3', a='4', z='5')` with `extra='forbid'`: everything is reported. -/
theorem demoDc_errors :
    ((dataclass demoFields .forbid ["1", "2", "3"] [("a", "4"), ("z", "5")]).validate "in" st0).1 =
    .error (.lineErrors [
      ⟨.multipleArgumentValues, .list [.s "a"], "4"⟩,
      ⟨.unexpectedPositionalArgument, .list [.i 2], "3"⟩,
      ⟨.unexpectedKeywordArgument, .list [.s "z"], "5"⟩]) := by rfl

/-- `dataclass_args_errors_partial` applies to it. -/
example : ∀ e ∈ [⟨.multipleArgumentValues, .list [.s "a"], "4"⟩,
      ⟨.unexpectedPositionalArgument, .list [.i 2], "3"⟩,
      ⟨.unexpectedKeywordArgument, .list [.s "z"], "5"⟩],
    (dataclass demoFields .forbid ["1", "2", "3"] [("a", "4"), ("z", "5")]).Reason "in"
      ["1", "2", "3"] [("a", "4"), ("z", "5")] e :=
  (dataclass_args_errors_partial _ (demoDc_ordered ..) "in" _ ["1", "2", "3"]
    [("a", "4"), ("z", "5")] st0 _ rfl (dcCall _ rfl _ _ (by decide)) (Or.inl rfl) _ rfl).1

/-- `dataclass_args_raises_partial` applies to a validator that raises. -/
example : (dataclass [field "a" true true false (fun _ st => (.error (.internal ⟨"KeyError"⟩), st))
      noDflt] .forbid [] [("a", "4")]).Raises [] [("a", "4")] (.internal ⟨"KeyError"⟩) :=
  dataclass_args_raises_partial _ ⟨⟨[], _, rfl, fun _ h => (by cases h), by
      intro f hf
      rw [List.mem_singleton.1 hf]
      rfl⟩, by decide, by
      intro f hf
      rw [List.mem_singleton.1 hf]
      rfl⟩ "in" _ [] [("a", "4")] st0 _ rfl (dcCall _ rfl _ _ (by decide)) (Or.inl rfl) _
    (fun _ h => by cases h) rfl

/-! #### Where it goes wrong -/

/-- A positional field that takes no argument (`init=False`) still uses up a place: for
```
class D:
    a: str = field(default='d', init=False)
    b: str
```
the call `D('1')`, which the standard library takes, is rejected: `b` is said to be missing. -/
theorem init_false_shifts :
    let d := dataclass [field "a" false false false (okV "a") (someDflt "d"),
      field "b" false true false (okV "b") noDflt] .ignore ["1"] []
    d.sig.Binds (fun _ => False) ["1"] [] ∧
    (d.validate "in" st0).1 = .error (.lineErrors [⟨.missing, .list [.s "b"], "in"⟩]) := by
  refine ⟨⟨fun _ => (by decide), fun _ => (by decide), ?_, ?_⟩, by rfl⟩
  · rintro i name v ⟨-, -, -, -, h5⟩
    cases h5
  · intro i hi hb
    match i, hi, hb with
    | 0, _, hb => exact absurd hb (by decide)
    | i + 1, hi, _ =>
      have h1 : i + 1 < 1 := hi
      omega

/-- Worse, for
```
class D:
    a: str = field(default='d', init=False)
    b: str = 'e'
```
the argument of `D('1')` is lost without an error. -/
theorem init_false_loses_argument :
    ((dataclass [field "a" false false false (okV "a") (someDflt "d"),
      field "b" false true false (okV "b") (someDflt "e")] .ignore ["1"] []).validate "in" st0).1 =
    .ok ⟨[("a", "d"), ("b", "e")], some []⟩ := by rfl

/-- With `extra='allow'`, a keyword argument with the name of a field that takes no argument
becomes the value of that field, without being validated (`rejV` rejects everything). -/
theorem init_false_overwritten :
    ((dataclass [field "a" true false false rejV (someDflt "d")] .allow []
      [("a", "1")]).validate "in" st0).1 = .ok ⟨[("a", "1")], some []⟩ := by rfl

/-- With `extra='allow'`, so does one with the name of a field that has an alias. -/
theorem aliased_overwritten :
    ((dataclass [{ field "a" true true false rejV (someDflt "d") with
      keys := ⟨.simple (.ofStr "a"), some (.simple (.ofStr "x")), none⟩ }] .allow []
      [("a", "1")]).validate "in" st0).1 = .ok ⟨[("a", "1")], some []⟩ := by rfl

/-- A field validator that raises `PydanticOmit` ends the validation of the whole dataclass, where
a model leaves out the field. -/
theorem omit_ends_validation :
    ((dataclass [field "a" true true false (fun _ st => (.error .omitted, st)) noDflt] .ignore []
      [("a", "1")]).validate "in" st0).1 = .error .omitted := by rfl

end PC.Dc
