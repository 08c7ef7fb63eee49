import Verif.Lemmas.Arguments

/-
C35: arguments of a call are bound the way Python binds them.

The theorems are partial: they are for signatures without parameter aliases, with `extra` left at
`forbid`, with `**kwargs` not declared as an unpacked typed dict, and for validators that say why
they reject (`Explains`).  What happens otherwise is at the end of the file.
-/

namespace PC.Args
open PC.Lookup PC.Fields
variable {α : Type}

theorem EachValid.length {v : Option (Validator α α)} {xs ws : List α} (h : EachValid v xs ws) :
    ws.length = xs.length := by
  induction h with
  | nil => rfl
  | cons _ _ _ ih => simp [ih]

/-- **C35**, one direction.  If a call is accepted, then Python could make it, Python can make the
call with the output too, and in that call every parameter, `*args` and `**kwargs` get the
validated form of what they get in the original call (or the default). -/
theorem args_sound_partial (a : Arguments α) (s : Sig) (hd : a.Describes s) (he : a.Explains)
    (input : α) (view : ArgsView α) (args : List α) (kw : Dict α) (st st' : VState α)
    (hin : a.asArgs input = .ok view) (hc : a.Call view args kw)
    (hb : st.validateByAliasOr a.byAlias = true ∨ st.validateByNameOr a.byName = true)
    (oa : List α) (ok : Dict α) (h : a.validate input st = (.ok (oa, ok), st')) :
    s.Binds a.HasDefault args kw ∧
    s.Binds (fun _ => False) oa ok ∧
    (∀ i p, a.params[i]? = some p →
      ∃ w, s.bound oa ok i = some w ∧ ParamOutput p (s.bound args kw i) w) ∧
    EachValid a.varArgs (s.surplus args) (s.surplus oa) ∧
    EachKwValid a.varKw (s.surplusKw kw) (s.surplusKw ok) := by
  simp only [Arguments.validate, hin] at h
  rcases run_spec hd hc input { st with allowPartial := .ofBool false } hb with
    ⟨acc, ws, es2, d, es3, hch, hr, hv, -, hv2, hk, -, hk2⟩ | ⟨e, hr, -⟩
  rotate_left
  · rw [h] at hr
    cases hr
  rw [h] at hr
  unfold outcomeOf at hr
  by_cases hnil : acc.errs ++ es2 ++ es3 = []
  rotate_left
  · rw [if_neg hnil] at hr
    cases hr
  rw [if_pos hnil] at hr
  simp only [Except.ok.injEq, Prod.mk.injEq] at hr
  obtain ⟨rfl, rfl⟩ := hr
  obtain ⟨hnil', h3⟩ := List.append_eq_nil_iff.1 hnil
  obtain ⟨h1, h2⟩ := List.append_eq_nil_iff.1 hnil'
  have hinv := Inv.chain hd he hch List.drop_zero (Inv.start a s args kw _) h1
  rw [Nat.zero_add] at hinv
  have hws := hv he h2
  have hpl := Sig.positional_length s
  have hparl := params_length hd
  have hspl := Sig.params_length s
  have hinj : ∀ (i : Nat) (n : String), s.params[i]? = some n → ∀ (j : Nat),
      s.params[j]? = some n → i = j := by
    intro i n h1 j h2
    exact (List.getElem?_inj (List.getElem?_eq_some_iff.1 h1).1 hd.distinct).1 (by rw [h1, h2])
  have hL : outLen s args ≤ s.positional.length ∧ s.posOnly.length ≤ outLen s args := by
    unfold outLen
    omega
  have hlen : acc.outArgs.length = outLen s args := by
    rw [hinv.len]
    omega
  have hwl := hws.length
  have hsl : (s.surplus args).length = args.length - s.positional.length := by
    simp [Sig.surplus]
  obtain ⟨zs, rfl, hzs⟩ := hk he h3 (by
    intro k hk hnk hmem
    obtain ⟨j, _, h5, h6⟩ := hinv.keys k hmem
    exact hnk ((mem_keyword k).2 ⟨j, by omega, h6⟩))
  have hzk := hzs.keys
  have hznk : ∀ k, k ∈ zs.map Prod.fst → k ∉ s.keyword := by
    intro k hk
    rw [hzk] at hk
    obtain ⟨kv, h5, rfl⟩ := List.mem_map.1 hk
    have := (List.mem_filter.1 h5).2
    simpa using this
  have hokeys : ∀ k, k ∈ acc.outKwargs.map Prod.fst → k ∈ s.keyword := by
    intro k hk
    obtain ⟨j, _, h5, h6⟩ := hinv.keys k hk
    exact (mem_keyword k).2 ⟨j, by omega, h6⟩
  have hgapp : ∀ (d1 d2 : Dict α) (k : String), k ∉ d2.map Prod.fst →
      Dict.get k (d1 ++ d2) = Dict.get k d1 := by
    intro d1 d2 k hk
    induction d1 with
    | nil => exact (Dict.get_eq_none k d2).2 hk
    | cons kv d1 ih =>
      obtain ⟨k0, v0⟩ := kv
      rw [List.cons_append, Dict.get, Dict.get, ih]
  -- the argument of each parameter in the output call
  have hout : ∀ i p, a.params[i]? = some p →
      ∃ w, s.bound (acc.outArgs ++ ws) (acc.outKwargs ++ zs) i = some w ∧
        ParamOutput p (s.bound args kw i) w := by
    intro i p hp
    have hil := (List.getElem?_eq_some_iff.1 hp).1
    obtain ⟨w, h5, h6⟩ := hinv.out i p hil hp
    refine ⟨w, ?_, h5⟩
    obtain ⟨hn, -, -⟩ := param_at hd hp
    unfold Sig.bound
    by_cases hi : i < outLen s args
    · rw [if_pos hi] at h6
      rw [if_pos (by rw [List.length_append]; omega), List.getElem?_append_left (by omega)]
      exact h6
    · rw [if_neg hi] at h6
      rw [if_neg, if_pos (by omega), hn]
      · dsimp only [Option.bind]
        rw [hgapp]
        · exact h6
        · intro hz
          exact hznk _ hz ((mem_keyword _).2 ⟨i, by omega, hn⟩)
      · rw [List.length_append, hlen, hwl, hsl]
        unfold outLen at hi ⊢
        omega
  have hsur : s.surplus (acc.outArgs ++ ws) = ws := by
    unfold Sig.surplus
    by_cases hlt : args.length ≤ s.positional.length
    · have : ws = [] := by
        apply List.eq_nil_of_length_eq_zero
        rw [hwl, hsl]
        omega
      rw [this, List.append_nil]
      exact List.drop_eq_nil_of_le (by omega)
    · have : acc.outArgs.length = s.positional.length := by
        rw [hlen]
        unfold outLen
        omega
      rw [← this, List.drop_left]
  have hsurk : s.surplusKw (acc.outKwargs ++ zs) = zs := by
    unfold Sig.surplusKw
    rw [List.filter_append]
    have h5 : acc.outKwargs.filter (fun kv => decide (kv.1 ∉ s.keyword)) = [] := by
      rw [List.filter_eq_nil_iff]
      intro kv hkv
      simpa using hokeys kv.1 (List.mem_map.2 ⟨kv, hkv, rfl⟩)
    have h6 : zs.filter (fun kv => decide (kv.1 ∉ s.keyword)) = zs := by
      rw [List.filter_eq_self]
      intro kv hkv
      simpa using hznk kv.1 (List.mem_map.2 ⟨kv, hkv, rfl⟩)
    rw [h5, h6]
    rfl
  have hfew : s.star = false → s.surplus args = [] := by
    intro hs
    cases hx : s.surplus args with
    | nil => rfl
    | cons x xs =>
      have := hv2 hs 0 x (by rw [hx]; rfl)
      rw [h2] at this
      cases this
  have hknown : s.starStar = false → s.surplusKw kw = [] := by
    intro hs
    cases hx : s.surplusKw kw with
    | nil => rfl
    | cons x xs =>
      have := hk2 hs x.1 x.2 (by rw [hx]; exact List.mem_cons_self ..)
      rw [h3] at this
      cases this
  refine ⟨⟨hfew, hknown, ?_, ?_⟩, ⟨?_, ?_, ?_, ?_⟩, hout, ?_, ?_⟩
  · intro i name v ht
    have hl := (List.getElem?_eq_some_iff.1 ht.1).1
    exact hinv.once i name v (by omega) ht
  · intro i hi hbn
    have hi' : i < a.params.length := by omega
    obtain ⟨w, -, h6⟩ := hout i a.params[i] (List.getElem?_eq_getElem hi')
    rw [hbn] at h6
    obtain ⟨st0, -, h7⟩ := h6
    exact ⟨a.params[i], st0, w, List.getElem?_eq_getElem hi', h7⟩
  · intro hs
    rw [hsur]
    apply List.eq_nil_of_length_eq_zero
    rw [hwl, hfew hs]
    rfl
  · intro hs
    rw [hsurk]
    have := hknown hs
    rw [this] at hzk
    exact List.map_eq_nil_iff.1 hzk
  · intro i name v ht
    obtain ⟨t1, t2, t3, t4, t5⟩ := ht
    rw [List.length_append, hlen, hwl, hsl] at t4
    have hi : i < outLen s args := by
      unfold outLen at t4 ⊢
      omega
    rw [hgapp _ _ _ (fun hz => hznk _ hz ((mem_keyword _).2 ⟨i, t2, t1⟩))] at t5
    obtain ⟨j, _, h5, h6⟩ := hinv.keys name (List.mem_map.2 ⟨(name, v), mem_of_get t5, rfl⟩)
    have := hinj i name t1 j h6
    omega
  · intro i hi hbn
    have hi' : i < a.params.length := by omega
    obtain ⟨w, h5, -⟩ := hout i a.params[i] (List.getElem?_eq_getElem hi')
    rw [hbn] at h5
    cases h5
  · rw [hsur]
    exact hws
  · rw [hsurk]
    exact hzs

/-! ### Completeness -/

/-- Every validator of the call succeeds. -/
structure AllValid (a : Arguments α) (s : Sig) (args : List α) (kw : Dict α) : Prop where
  params : ∀ i p x, a.params[i]? = some p → s.bound args kw i = some x →
    ∀ st, ∃ w, (p.run x st).1 = .ok w
  defaults : ∀ i p, a.params[i]? = some p → s.bound args kw i = none →
    ∀ st, ∃ w, (p.dflt (some (.s p.name)) st).1 = .ok (some w)
  star : ∀ f x, a.varArgs = some f → x ∈ s.surplus args → ∀ st, ∃ w, (f x st).1 = .ok w
  starStar : ∀ f k x, a.varKw = .uniform (some f) → (k, x) ∈ s.surplusKw kw →
    ∀ st, ∃ w, (f x st).1 = .ok w

theorem chain_no_errs {a : Arguments α} {s : Sig} (hd : a.Describes s) {args : List α}
    {kw : Dict α} {input : α} (hv : AllValid a s args kw)
    (ho : ∀ i name v, ¬ s.Twice args kw i name v) {i : Nat} {ps : List (Param α)} {acc acc' : Acc α}
    (h : Chain args kw input i ps acc acc') (hp : a.params.drop i = ps) (h0 : acc.errs = []) :
    acc'.errs = [] := by
  induction h with
  | nil => exact h0
  | @cons i p ps acc1 acc2 acc3 h1 h2 ih =>
    have hp' : a.params[i]? = some p := by
      rw [← List.head?_drop, hp]
      rfl
    have hdrop : a.params.drop (i + 1) = ps := by
      rw [← List.tail_drop, hp]
      rfl
    refine ih hdrop ?_
    have hb := bound_eq hd args kw hp'
    obtain ⟨hn, hm1, hm2⟩ := param_at hd hp'
    cases h1 with
    | both hx hq =>
      exfalso
      unfold argValue at hx
      unfold kwValue at hq
      split at hx
      · split at hq
        · rename_i hm hk
          exact ho i p.name _ ⟨hn, hm2.1 hk, hm1.1 hm, (List.getElem?_eq_some_iff.1 hx).1, hq⟩
        · cases hq
      · cases hx
    | posErr hx hq hf hr =>
      rw [hx] at hb
      obtain ⟨w, hw⟩ := hv.params i p _ hp' hb _
      rw [hr] at hw
      cases hw
    | kwErr hx hq hf hr =>
      rw [hx, hq] at hb
      obtain ⟨w, hw⟩ := hv.params i p _ hp' hb _
      rw [hr] at hw
      cases hw
    | missing hx hq hf hr =>
      rw [hx, hq] at hb
      obtain ⟨w, hw⟩ := hv.defaults i p hp' hb _
      rw [hr] at hw
      cases hw
    | pos => exact h0
    | kw => exact h0
    | dfltKw => exact h0
    | dfltPos => exact h0

/-- **C35**, the other direction.  A call Python could make, whose arguments all validate, is
accepted. -/
theorem args_complete_partial (a : Arguments α) (s : Sig) (hd : a.Describes s)
    (input : α) (view : ArgsView α) (args : List α) (kw : Dict α) (st : VState α)
    (hin : a.asArgs input = .ok view) (hc : a.Call view args kw)
    (hb : st.validateByAliasOr a.byAlias = true ∨ st.validateByNameOr a.byName = true)
    (hbind : s.Binds a.HasDefault args kw) (hv : AllValid a s args kw) :
    ∃ out, (a.validate input st).1 = .ok out := by
  simp only [Arguments.validate, hin]
  rcases run_spec hd hc input { st with allowPartial := .ofBool false } hb with
    ⟨acc, ws, es2, d, es3, hch, hr, -, he2, -, -, he3, -⟩ | ⟨e, hr, ha⟩
  · rw [hr]
    have h1 := chain_no_errs hd hv hbind.once hch List.drop_zero rfl
    have h2 : es2 = [] := by
      cases hes : es2 with
      | nil => rfl
      | cons e es =>
        exfalso
        obtain ⟨j, x, h3, h4⟩ := he2 e (by rw [hes]; exact List.mem_cons_self ..)
        rcases h4 with ⟨hs, -⟩ | ⟨f, st0, ls, e0, hf, hfx, -⟩
        · rw [hbind.few hs] at h3
          simp at h3
        · obtain ⟨w, hw⟩ := hv.star f x hf (List.mem_of_getElem? h3) st0
          rw [hfx] at hw
          cases hw
    have h3 : es3 = [] := by
      cases hes : es3 with
      | nil => rfl
      | cons e es =>
        exfalso
        obtain ⟨k, x, h3, h4⟩ := he3 e (by rw [hes]; exact List.mem_cons_self ..)
        rcases h4 with ⟨hs, -⟩ | ⟨f, st0, ls, e0, hf, hfx, -⟩
        · rw [hbind.known hs] at h3
          cases h3
        · obtain ⟨vo, hvo, -⟩ := hd.starStar
          rw [hvo] at hf
          dsimp only [VarKw.validator] at hf
          obtain ⟨w, hw⟩ := hv.starStar f k x (by rw [hvo, hf]) h3 st0
          rw [hfx] at hw
          cases hw
    rw [h1, h2, h3]
    exact ⟨_, rfl⟩
  · exfalso
    rcases ha with ⟨i, p, st0, hp, -, hx⟩ | ⟨f, x, st0, hf, hx, hfx, -⟩ |
      ⟨f, k, x, st0, hf, hx, hfx, -⟩
    · rcases hx with ⟨x, hx, hfx, -⟩ | ⟨hx, hfx⟩
      · obtain ⟨w, hw⟩ := hv.params i p x hp hx st0
        rw [hfx] at hw
        cases hw
      · obtain ⟨w, hw⟩ := hv.defaults i p hp hx st0
        rw [hfx] at hw
        cases hw
    · obtain ⟨w, hw⟩ := hv.star f x hf hx st0
      rw [hfx] at hw
      cases hw
    · obtain ⟨w, hw⟩ := hv.starStar f k x hf hx st0
      rw [hfx] at hw
      cases hw

/-! ### Errors -/

/-- No default fails with errors of its own (see `args_default_error`). -/
def DefaultsPlain (a : Arguments α) : Prop :=
  ∀ p ∈ a.params, ∀ loc st ls, (p.dflt loc st).1 ≠ .error (.lineErrors ls)

/-- What goes into the errors of the loop over parameters, and what comes out. -/
theorem chain_errs {a : Arguments α} {s : Sig} (hd : a.Describes s) {args : List α}
    {kw : Dict α} {input : α} {k : Nat} {ps : List (Param α)} {acc acc' : Acc α}
    (h : Chain args kw input k ps acc acc') (hp : a.params.drop k = ps) :
    (∀ e ∈ acc.errs, e ∈ acc'.errs) ∧
    (∀ i name v, k ≤ i → s.Twice args kw i name v →
      .newWithLoc .multipleArgumentValues v (.s name) ∈ acc'.errs) ∧
    (∀ i p, k ≤ i → a.params[i]? = some p → s.bound args kw i = none →
      (∀ st w, (p.dflt (some (.s p.name)) st).1 ≠ .ok (some w)) →
      missingError p i input ∈ acc'.errs) ∧
    (∀ e ∈ acc'.errs, e ∈ acc.errs ∨
      (∃ i name v, s.Twice args kw i name v ∧
        e = .newWithLoc .multipleArgumentValues v (.s name)) ∨
      (∃ i p, a.params[i]? = some p ∧ s.bound args kw i = none ∧ e = missingError p i input ∧
        ∃ st, (p.dflt (some (.s p.name)) st).1 = .ok none) ∨
      (∃ i p x, a.params[i]? = some p ∧ s.bound args kw i = some x ∧
        ((i < s.positional.length ∧ i < args.length ∧ FromValidator (some p.run) x (.i i) e) ∨
          (¬ (i < s.positional.length ∧ i < args.length) ∧
            FromValidator (some p.run) x (.s p.name) e)))) := by
  induction h with
  | @nil i acc =>
    have hl : a.params.length ≤ i := List.drop_eq_nil_iff.1 hp
    refine ⟨fun _ h => h, ?_, ?_, fun _ h => Or.inl h⟩
    · intro j name v hj ht
      have := (List.getElem?_eq_some_iff.1 ht.1).1
      have := params_length hd
      omega
    · intro j p hj hpj
      have := (List.getElem?_eq_some_iff.1 hpj).1
      omega
  | @cons k p ps acc1 acc2 acc3 h1 h2 ih =>
    have hp' : a.params[k]? = some p := by
      rw [← List.head?_drop, hp]
      rfl
    have hdrop : a.params.drop (k + 1) = ps := by
      rw [← List.tail_drop, hp]
      rfl
    obtain ⟨i1, i2, i3, i4⟩ := ih hdrop
    have hb := bound_eq hd args kw hp'
    obtain ⟨hn, hm1, hm2⟩ := param_at hd hp'
    have hsub : ∀ e ∈ acc1.errs, e ∈ acc2.errs := by
      obtain ⟨es, hes⟩ := h1.errs
      intro e he
      rw [hes]
      exact List.mem_append_left _ he
    have htw : ∀ name v, s.Twice args kw k name v → name = p.name ∧
        (∃ x, argValue args p k = some x) ∧ kwValue kw p = some v := by
      intro name v ht
      obtain ⟨t1, t2, t3, t4, t5⟩ := ht
      rw [hn] at t1
      cases t1
      refine ⟨rfl, ⟨args[k], ?_⟩, ?_⟩
      · unfold argValue
        rw [if_pos (hm1.2 t3), List.getElem?_eq_getElem t4]
      · unfold kwValue
        rw [if_pos (hm2.2 t2)]
        exact t5
    have hav : ∀ x, argValue args p k = some x → k < args.length ∧ k < s.positional.length := by
      intro x hx
      unfold argValue at hx
      split at hx
      · rename_i hm
        exact ⟨(List.getElem?_eq_some_iff.1 hx).1, hm1.1 hm⟩
      · cases hx
    refine ⟨fun e he => i1 e (hsub e he), ?_, ?_, ?_⟩
    · intro i name v hki ht
      by_cases hik : i = k
      · subst hik
        obtain ⟨rfl, ⟨x, hx⟩, hq⟩ := htw name v ht
        refine i1 _ ?_
        cases h1
        case both hx' hq' =>
          rw [hq] at hq'
          cases hq'
          exact List.mem_append_right _ (List.mem_singleton.2 rfl)
        all_goals simp_all
      · exact i2 i name v (by omega) ht
    · intro i q hki hq hbn hdf
      by_cases hik : i = k
      · subst hik
        rw [hp'] at hq
        cases hq
        refine i1 _ ?_
        rw [hb] at hbn
        obtain ⟨hx0, hq0⟩ := Option.or_eq_none_iff.1 hbn
        cases h1
        case missing => exact List.mem_append_right _ (List.mem_singleton.2 rfl)
        case dfltKw hr _ => exact absurd hr (hdf _ _)
        case dfltPos hr _ => exact absurd hr (hdf _ _)
        all_goals simp_all
      · exact i3 i q (by omega) hq hbn hdf
    · intro e he
      rcases i4 e he with h | h
      rotate_left
      · exact Or.inr h
      cases h1 with
      | both hx hq =>
        rcases List.mem_append.1 h with h | h
        · exact Or.inl h
        · rw [List.mem_singleton] at h
          refine Or.inr (Or.inl ⟨k, p.name, _, ⟨hn, ?_, (hav _ hx).2, (hav _ hx).1, ?_⟩, h⟩)
          · unfold kwValue at hq
            split at hq
            · rename_i hm
              exact hm2.1 hm
            · cases hq
          · unfold kwValue at hq
            split at hq
            · exact hq
            · cases hq
      | posErr hx hq hf hr =>
        rcases List.mem_append.1 h with h | h
        · exact Or.inl h
        · obtain ⟨e0, h3, h4⟩ := List.mem_map.1 h
          rw [hx] at hb
          exact Or.inr (Or.inr (Or.inr ⟨k, p, _, hp', hb,
            Or.inl ⟨(hav _ hx).2, (hav _ hx).1, _, _, _, e0, rfl, hr, h3, h4.symm⟩⟩))
      | kwErr hx hq hf hr =>
        rcases List.mem_append.1 h with h | h
        · exact Or.inl h
        · obtain ⟨e0, h3, h4⟩ := List.mem_map.1 h
          rw [hx, hq] at hb
          refine Or.inr (Or.inr (Or.inr ⟨k, p, _, hp', hb,
            Or.inr ⟨?_, _, _, _, e0, rfl, hr, h3, h4.symm⟩⟩))
          rintro ⟨c1, c2⟩
          unfold argValue at hx
          rw [if_pos (hm1.2 c1), List.getElem?_eq_getElem c2] at hx
          cases hx
      | missing hx hq hf hr =>
        rcases List.mem_append.1 h with h | h
        · exact Or.inl h
        · rw [List.mem_singleton] at h
          rw [hx, hq] at hb
          exact Or.inr (Or.inr (Or.inl ⟨k, p, hp', hb, h, _, hr⟩))
      | pos => exact Or.inl h
      | kw => exact Or.inl h
      | dfltKw => exact Or.inl h
      | dfltPos => exact Or.inl h

/-- **C35**: when a call is rejected with a list of errors, every parameter given twice, every
missing parameter, every surplus positional argument and every unknown keyword argument is in
it. -/
theorem args_errors_reported_partial (a : Arguments α) (s : Sig) (hd : a.Describes s)
    (hdf : DefaultsPlain a)
    (input : α) (view : ArgsView α) (args : List α) (kw : Dict α) (st : VState α)
    (hin : a.asArgs input = .ok view) (hc : a.Call view args kw)
    (hb : st.validateByAliasOr a.byAlias = true ∨ st.validateByNameOr a.byName = true)
    (es : List (LineError α)) (h : (a.validate input st).1 = .error (.lineErrors es)) :
    (∀ i name v, s.Twice args kw i name v →
      .newWithLoc .multipleArgumentValues v (.s name) ∈ es) ∧
    (∀ i p, a.params[i]? = some p → s.bound args kw i = none → ¬ a.HasDefault i →
      (if i < s.posOnly.length then
        .newWithLoc .missingPositionalOnlyArgument input (.i i)
      else if i < s.positional.length then .newWithLoc .missingArgument input (.s p.name)
      else .newWithLoc .missingKeywordOnlyArgument input (.s p.name)) ∈ es) ∧
    (s.star = false → ∀ i x, s.positional.length ≤ i → args[i]? = some x →
      .newWithLoc .unexpectedPositionalArgument x (.i i) ∈ es) ∧
    (s.starStar = false → ∀ name x, (name, x) ∈ kw → name ∉ s.keyword →
      .newWithLoc .unexpectedKeywordArgument x (.s name) ∈ es) := by
  simp only [Arguments.validate, hin] at h
  rcases run_spec hd hc input { st with allowPartial := .ofBool false } hb with
    ⟨acc, ws, es2, d, es3, hch, hr, -, -, hv2, -, -, hk2⟩ | ⟨e, hr, ha⟩
  · rw [h] at hr
    unfold outcomeOf at hr
    split at hr
    · cases hr
    cases hr
    obtain ⟨-, h2, h3, -⟩ := chain_errs hd hch List.drop_zero
    refine ⟨?_, ?_, ?_, ?_⟩
    · intro i name v ht
      exact List.mem_append_left _ (List.mem_append_left _ (h2 i name v (Nat.zero_le _) ht))
    · intro i p hp hbn hnd
      refine List.mem_append_left _ (List.mem_append_left _ ?_)
      have := h3 i p (Nat.zero_le _) hp hbn (fun st w hw => hnd ⟨p, st, w, hp, hw⟩)
      obtain ⟨-, hm1, hm2⟩ := param_at hd hp
      unfold missingError at this
      have hpl := Sig.positional_length s
      cases hm : p.mode with
      | positionalOnly =>
        rw [hm] at this hm1 hm2
        rw [if_pos]
        · exact this
        · have : ¬ s.posOnly.length ≤ i := fun h => by cases hm2.2 h
          omega
      | positionalOrKeyword =>
        rw [hm] at this hm1 hm2
        have c1 := hm1.1 rfl
        have c2 := hm2.1 rfl
        rw [if_neg (by omega), if_pos c1]
        exact this
      | keywordOnly =>
        rw [hm] at this hm1 hm2
        have c1 : ¬ i < s.positional.length := fun h => by cases hm1.2 h
        rw [if_neg (by omega), if_neg c1]
        exact this
    · intro hs i x hi hx
      refine List.mem_append_left _ (List.mem_append_right _ ?_)
      have := hv2 hs (i - s.positional.length) x (by
        unfold Sig.surplus
        rw [List.getElem?_drop, show s.positional.length + (i - s.positional.length) = i by omega]
        exact hx)
      rw [show s.positional.length + (i - s.positional.length) = i by omega] at this
      exact this
    · intro hs name x hx hn
      refine List.mem_append_right _ (hk2 hs name x ?_)
      unfold Sig.surplusKw
      rw [List.mem_filter]
      exact ⟨hx, by simpa using hn⟩
  · exfalso
    rw [h] at hr
    cases hr
    rcases ha with ⟨i, p, st0, hp, -, hx⟩ | ⟨f, x, st0, hf, hx, hfx, hne⟩ |
      ⟨f, k, x, st0, hf, hx, hfx, hne⟩
    · rcases hx with ⟨x, hx, hfx, hne⟩ | ⟨hx, hfx⟩
      · exact hne _ rfl
      · exact hdf p (List.mem_of_getElem? hp) _ _ _ hfx
    · exact hne _ rfl
    · exact hne _ rfl

/-- **C35**: and there is nothing else in it than these and the errors of the validators, at the
place of their argument. -/
theorem args_errors_only_partial (a : Arguments α) (s : Sig) (hd : a.Describes s)
    (hdf : DefaultsPlain a)
    (input : α) (view : ArgsView α) (args : List α) (kw : Dict α) (st : VState α)
    (hin : a.asArgs input = .ok view) (hc : a.Call view args kw)
    (hb : st.validateByAliasOr a.byAlias = true ∨ st.validateByNameOr a.byName = true)
    (es : List (LineError α)) (h : (a.validate input st).1 = .error (.lineErrors es))
    (e : LineError α) (hmem : e ∈ es) :
    (∃ i name v, s.Twice args kw i name v ∧ e = .newWithLoc .multipleArgumentValues v (.s name)) ∨
    (∃ i p, a.params[i]? = some p ∧ s.bound args kw i = none ∧
      (∃ st, (p.dflt (some (.s p.name)) st).1 = .ok none) ∧
      e = if i < s.posOnly.length then
          .newWithLoc .missingPositionalOnlyArgument input (.i i)
        else if i < s.positional.length then .newWithLoc .missingArgument input (.s p.name)
        else .newWithLoc .missingKeywordOnlyArgument input (.s p.name)) ∨
    (∃ i x, s.star = false ∧ s.positional.length ≤ i ∧ args[i]? = some x ∧
      e = .newWithLoc .unexpectedPositionalArgument x (.i i)) ∨
    (∃ name x, s.starStar = false ∧ (name, x) ∈ kw ∧ name ∉ s.keyword ∧
      e = .newWithLoc .unexpectedKeywordArgument x (.s name)) ∨
    (∃ i p x, a.params[i]? = some p ∧ s.bound args kw i = some x ∧
      FromValidator (some p.run) x
        (if i < s.positional.length ∧ i < args.length then .i i else .s p.name) e) ∨
    (∃ i x, s.positional.length ≤ i ∧ args[i]? = some x ∧ FromValidator a.varArgs x (.i i) e) ∨
    (∃ name x, (name, x) ∈ s.surplusKw kw ∧ FromValidator a.varKw.validator x (.s name) e) := by
  simp only [Arguments.validate, hin] at h
  rcases run_spec hd hc input { st with allowPartial := .ofBool false } hb with
    ⟨acc, ws, es2, d, es3, hch, hr, -, he2, -, -, he3, -⟩ | ⟨e, hr, ha⟩
  · rw [h] at hr
    unfold outcomeOf at hr
    split at hr
    · cases hr
    cases hr
    obtain ⟨-, -, -, h4⟩ := chain_errs hd hch List.drop_zero
    rcases List.mem_append.1 hmem with hmem | hmem
    · rcases List.mem_append.1 hmem with hmem | hmem
      · rcases h4 e hmem with h | h | ⟨i, p, hp, hbn, hem, hst⟩ | ⟨i, p, x, hp, hbs, hx⟩
        · cases h
        · exact Or.inl h
        · refine Or.inr (Or.inl ⟨i, p, hp, hbn, hst, ?_⟩)
          obtain ⟨-, hm1, hm2⟩ := param_at hd hp
          rw [hem]
          unfold missingError
          have hpl := Sig.positional_length s
          cases hm : p.mode with
          | positionalOnly =>
            rw [hm] at hm2
            rw [if_pos]
            have : ¬ s.posOnly.length ≤ i := fun h => by cases hm2.2 h
            omega
          | positionalOrKeyword =>
            rw [hm] at hm1 hm2
            have c1 := hm1.1 rfl
            have c2 := hm2.1 rfl
            rw [if_neg (by omega), if_pos c1]
          | keywordOnly =>
            rw [hm] at hm1
            have c1 : ¬ i < s.positional.length := fun h => by cases hm1.2 h
            rw [if_neg (by omega), if_neg c1]
        · rcases hx with ⟨hl1, hl2, hx⟩ | ⟨hl, hx⟩
          · refine Or.inr (Or.inr (Or.inr (Or.inr (Or.inl ⟨i, p, x, hp, hbs, ?_⟩))))
            rw [if_pos ⟨hl1, hl2⟩]
            exact hx
          · refine Or.inr (Or.inr (Or.inr (Or.inr (Or.inl ⟨i, p, x, hp, hbs, ?_⟩))))
            rw [if_neg hl]
            exact hx
      · obtain ⟨j, x, h5, h6⟩ := he2 e hmem
        have h7 : args[s.positional.length + j]? = some x := by
          unfold Sig.surplus at h5
          rw [List.getElem?_drop] at h5
          exact h5
        rcases h6 with ⟨hs, h6⟩ | h6
        · exact Or.inr (Or.inr (Or.inl ⟨_, x, hs, by omega, h7, h6⟩))
        · exact Or.inr (Or.inr (Or.inr (Or.inr (Or.inr (Or.inl ⟨_, x, by omega, h7, h6⟩)))))
    · obtain ⟨k, x, h5, h6⟩ := he3 e hmem
      rcases h6 with ⟨hs, h6⟩ | h6
      · have h7 := List.mem_filter.1 h5
        exact Or.inr (Or.inr (Or.inr (Or.inl ⟨k, x, hs, h7.1, by simpa using h7.2, h6⟩)))
      · exact Or.inr (Or.inr (Or.inr (Or.inr (Or.inr (Or.inr ⟨k, x, h5, h6⟩)))))
  · exfalso
    rw [h] at hr
    cases hr
    rcases ha with ⟨i, p, st0, hp, -, hx⟩ | ⟨f, x, st0, hf, hx, hfx, hne⟩ |
      ⟨f, k, x, st0, hf, hx, hfx, hne⟩
    · rcases hx with ⟨x, hx, hfx, hne⟩ | ⟨hx, hfx⟩
      · exact hne _ rfl
      · exact hdf p (List.mem_of_getElem? hp) _ _ _ hfx
    · exact hne _ rfl
    · exact hne _ rfl

/-! ### Cases -/

/-- Strings as values; validation appends a mark. -/
def okV (mark : String) : Validator String String := fun x st => (.ok (x ++ mark), st)

def rejV : Validator String String := fun x st =>
  (.error (.lineErrors [.new (.other "bad") x]), st)

def noDflt : Option LocItem → VState String → ValResult String (Option String) × VState String :=
  fun _ st => (.ok none, st)

def someDflt (d : String) :
    Option LocItem → VState String → ValResult String (Option String) × VState String :=
  fun _ st => (.ok (some d), st)

def plainKeys (n : String) : KeyCollection := ⟨.simple (.ofStr n), none, none⟩

def strOps : PyOps String := ⟨fun _ => true, fun _ => false, fun _ _ => none, fun _ _ => .ok none⟩

def strKeys : KeyOps String := ⟨fun k => .ok k, fun k => .s k, fun k => some k⟩

def st0 : VState String := VState.new {} .init .off

/-- `def f(a, /, b, *args, c='d', **kwargs)`; the input text is ignored, the call is
`f('1', '2', '3', k='4')`. -/
def demo : Arguments String where
  params := [⟨.positionalOnly, "a", plainKeys "a", okV "a", noDflt⟩,
    ⟨.positionalOrKeyword, "b", plainKeys "b", okV "b", noDflt⟩,
    ⟨.keywordOnly, "c", plainKeys "c", okV "c", someDflt "d"⟩]
  varArgs := some (okV "*")
  varKw := .uniform (some (okV "**"))
  locByAlias := true
  extra := .forbid
  byAlias := none
  byName := none
  asArgs := fun _ => .ok (pyArgsView strOps id (some ["1", "2", "3"]) (some [("k", "4"), ("a", "5")]))
  keyOps := strKeys
  mkDict := fun _ => ""
  asDict := fun _ => none

def demoSig : Sig := ⟨["a"], ["b"], ["c"], true, true⟩

theorem demo_describes : demo.Describes demoSig where
  params := rfl
  distinct := by decide
  keys := by
    intro p hp
    simp only [demo, List.mem_cons, List.not_mem_nil, or_false] at hp
    rcases hp with rfl | rfl | rfl <;> rfl
  star := rfl
  starStar := ⟨_, rfl, rfl⟩
  forbid := rfl

theorem pyCall (a : Arguments String) (hk : a.keyOps = strKeys) (args : List String)
    (kw : Dict String) (hn : (kw.map Prod.fst).Nodup) :
    a.Call (pyArgsView strOps id (some args) (some kw)) args kw where
  args := rfl
  distinct := hn
  kwargs := by
    refine ⟨rfl, ?_, id, rfl, ?_⟩
    · intro name
      simp only [LookupKey.pyGetDictItem, LookupPath.ofStr]
      cases Dict.get name kw <;> rfl
    · intro n
      rw [hk]
      exact ⟨rfl, rfl⟩

theorem demo_explains : demo.Explains := by
  refine ⟨?_, ?_, ?_⟩
  · intro p hp x st h
    simp only [demo, List.mem_cons, List.not_mem_nil, or_false] at hp
    rcases hp with rfl | rfl | rfl <;> cases h
  · intro f hf x st h
    cases hf
    cases h
  · intro f hf x st h
    cases hf
    cases h

/-- The call and its output: `f('1a', '2b', '3*', c='d', k='4**', a='5**')`. -/
example : (demo.validate "" st0).1 =
    .ok (["1a", "2b", "3*"], [("c", "d"), ("k", "4**"), ("a", "5**")]) := by rfl

/-- `args_sound_partial` applies to it. -/
example : demoSig.bound (["1a", "2b", "3*"]) [("c", "d"), ("k", "4**"), ("a", "5**")] 2 =
    some "d" ∧ demoSig.Binds (fun _ => False) (["1a", "2b", "3*"])
      [("c", "d"), ("k", "4**"), ("a", "5**")] :=
  ⟨by rfl, (args_sound_partial demo demoSig demo_describes demo_explains "" _ _ _ st0 _ rfl
    (pyCall demo rfl _ _ (by decide)) (Or.inl rfl) _ _ rfl).2.1⟩

/-- `args_complete_partial` applies to it. -/
example : ∃ out, (demo.validate "" st0).1 = .ok out := by
  refine args_complete_partial demo demoSig demo_describes "" _ ["1", "2", "3"] [("k", "4"), ("a", "5")] st0
    rfl (pyCall demo rfl _ _ (by decide)) (Or.inl rfl) ?_ ?_
  · refine ⟨fun h => (by cases h), fun h => (by cases h), ?_, ?_⟩
    · rintro i name v ⟨h1, h2, h3, h4, h5⟩
      match i, h1, h2, h3 with
      | 1, h1, _, _ =>
        cases h1
        cases h5
      | i + 2, _, _, h3 =>
        simp [demoSig, Sig.positional] at h3
        omega
    · intro i hi hb
      match i, hi, hb with
      | 0, _, hb => exact absurd hb (by decide)
      | 1, _, hb => exact absurd hb (by decide)
      | 2, _, _ => exact ⟨_, st0, "d", rfl, rfl⟩
      | i + 3, hi, _ =>
        simp [demoSig, Sig.params] at hi
        omega
  · refine ⟨?_, ?_, ?_, ?_⟩
    · intro i p x hp _ st
      match i, hp with
      | 0, hp => cases hp; exact ⟨_, rfl⟩
      | 1, hp => cases hp; exact ⟨_, rfl⟩
      | 2, hp => cases hp; exact ⟨_, rfl⟩
    · intro i p hp hb st
      match i, hp, hb with
      | 0, _, hb => exact absurd hb (by decide)
      | 1, _, hb => exact absurd hb (by decide)
      | 2, hp, _ => cases hp; exact ⟨_, rfl⟩
    · intro f x hf _ st
      cases hf
      exact ⟨_, rfl⟩
    · intro f k x hf _ st
      cases hf
      exact ⟨_, rfl⟩

/-- `def g(a, /, b, *, c)` and the call `g('1', '2', '3', b='4', e='5')`. -/
def demoBad : Arguments String :=
  { demo with
    params := [⟨.positionalOnly, "a", plainKeys "a", rejV, noDflt⟩,
      ⟨.positionalOrKeyword, "b", plainKeys "b", okV "b", noDflt⟩,
      ⟨.keywordOnly, "c", plainKeys "c", okV "c", noDflt⟩]
    varArgs := none
    varKw := .uniform none
    asArgs := fun _ =>
      .ok (pyArgsView strOps id (some ["1", "2", "3"]) (some [("b", "4"), ("e", "5")])) }

/-- All that is wrong with the call is reported: the hypotheses of `args_errors_reported_partial` and
`args_errors_only_partial` can be met. -/
example : DefaultsPlain demoBad ∧
    demoBad.Describes ⟨["a"], ["b"], ["c"], false, false⟩ ∧
    (demoBad.validate "in" st0).1 = .error (.lineErrors [
      ⟨.other "bad", .list [.i 0], "1"⟩,
      ⟨.multipleArgumentValues, .list [.s "b"], "4"⟩,
      ⟨.missingKeywordOnlyArgument, .list [.s "c"], "in"⟩,
      ⟨.unexpectedPositionalArgument, .list [.i 2], "3"⟩,
      ⟨.unexpectedKeywordArgument, .list [.s "e"], "5"⟩]) := by
  refine ⟨?_, ?_, by rfl⟩
  · intro p hp loc st ls h
    simp only [demoBad, List.mem_cons, List.not_mem_nil, or_false] at hp
    rcases hp with rfl | rfl | rfl <;> cases h
  · exact ⟨rfl, by decide, by
      intro p hp
      simp only [demoBad, List.mem_cons, List.not_mem_nil, or_false] at hp
      rcases hp with rfl | rfl | rfl <;> rfl, rfl, ⟨_, rfl, rfl⟩, rfl⟩

/-! ### Where it goes wrong -/

/-- `def f(a, **kwargs)` where `a` has the alias `b`. -/
def aliased (args : Option (List String)) (kw : Dict String) : Arguments String :=
  { demo with
    params := [⟨.positionalOrKeyword, "a",
      ⟨.simple (.ofStr "a"), some (.simple (.ofStr "b")), none⟩, okV "!", noDflt⟩]
    varArgs := none
    varKw := .uniform (some (okV "**"))
    asArgs := fun _ => .ok (pyArgsView strOps id args (some kw)) }

/-- With an alias the property fails: given `b` (the alias of parameter `a`) and a surplus
keyword argument `a`, the surplus one overwrites the parameter, whose argument is lost. -/
theorem args_alias_collision :
    ((aliased none [("b", "1"), ("a", "2")]).validate "" st0).1 = .ok ([], [("a", "2**")]) := by rfl

/-- And given `a` by position and a surplus keyword argument `a`, the output gives parameter `a`
twice: the function cannot be called with it. -/
theorem args_alias_twice :
    ((aliased (some ["1"]) [("a", "2")]).validate "" st0).1 = .ok (["1!"], [("a", "2**")]) ∧
    ¬ (Sig.Binds ⟨[], ["a"], [], false, true⟩ (fun _ => True) ["1!"] [("a", "2**")]) :=
  ⟨by rfl, fun h => h.once 0 "a" "2**"
    ⟨rfl, Nat.zero_le _, Nat.zero_lt_one, Nat.zero_lt_one, by rfl⟩⟩

/-- A default that fails hides the errors collected before it: the first parameter is missing,
but only the error of the second one's default is reported. -/
theorem args_default_error :
    ({ demo with
        params := [⟨.keywordOnly, "a", plainKeys "a", okV "a", noDflt⟩,
          ⟨.keywordOnly, "b", plainKeys "b", okV "b",
            fun _ st => (.error (.lineErrors [.new (.other "bad default") "x"]), st)⟩]
        asArgs := fun _ => .ok (pyArgsView strOps id none (some [])) : Arguments String }.validate
      "" st0).1 = .error (.lineErrors [.new (.other "bad default") "x"]) := by rfl

/-- An argument rejected with an empty list of errors (a validator function raising a
`ValidationError` without line errors) is dropped, and the next one takes its place: `f('1', '2')`
becomes `f('2b')`. -/
theorem args_empty_error_shifts :
    ({ demo with
        params := [⟨.positionalOrKeyword, "a", plainKeys "a",
            fun _ st => (.error (.lineErrors []), st), noDflt⟩,
          ⟨.positionalOrKeyword, "b", plainKeys "b", okV "b", noDflt⟩]
        asArgs := fun _ => .ok (pyArgsView strOps id (some ["1", "2"]) none) : Arguments String
      }.validate "" st0).1 = .ok (["2b"], []) := by rfl

/-- The validated dict of unpacked keyword arguments overwrites a parameter if it has an entry of
that name: `f(a='1')` becomes `f(a='other')`. -/
theorem args_unpacked_overwrites :
    ({ demo with
        params := [⟨.positionalOrKeyword, "a", plainKeys "a", okV "!", noDflt⟩]
        varKw := .unpacked (okV "")
        asDict := fun _ => some [("a", "other")]
        asArgs := fun _ => .ok (pyArgsView strOps id none (some [("a", "1")])) : Arguments String
      }.validate "" st0).1 = .ok ([], [("a", "other")]) := by rfl

/-- With `extra` other than `forbid` an unexpected keyword argument is dropped without an error:
Python would refuse `f(a='1', z='2')`. -/
theorem args_extra_ignored :
    ({ demo with
        params := [⟨.positionalOrKeyword, "a", plainKeys "a", okV "!", noDflt⟩]
        varKw := .uniform none
        extra := .ignore
        asArgs := fun _ => .ok (pyArgsView strOps id none (some [("a", "1"), ("z", "2")]))
          : Arguments String
      }.validate "" st0).1 = .ok ([], [("a", "1!")]) := by rfl

end PC.Args
