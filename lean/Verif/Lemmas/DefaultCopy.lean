import Verif.Spec.DefaultCopy

namespace PC.Dflt

theorem Reach.trans {h : Heap} {a b c : Val} (h1 : Reach h a b) (h2 : Reach h b c) : Reach h a c := by
  induction h2 with
  | refl => exact h1
  | step _ ho hx ih => exact .step ih ho hx

theorem Reach.isIn {h : Heap} (hw : WF h) {v x : Val} (hv : v.In h) (hr : Reach h v x) : x.In h := by
  induction hr with
  | refl => exact hv
  | step _ ho hx _ =>
    rename_i x _ _
    cases x with
    | atom n => trivial
    | ref j => exact hw _ _ ho j hx

/-- If two heaps agree on what a value reaches in the first, it reaches the same. -/
theorem Reach.agree {h h' : Heap} {v : Val} (ha : ∀ i, Reach h v (.ref i) → h'[i]? = h[i]?) {x : Val} :
    Reach h' v x ↔ Reach h v x := by
  constructor
  · intro hr
    induction hr with
    | refl => exact .refl
    | step _ ho hx ih => rw [ha _ ih] at ho; exact .step ih ho hx
  · intro hr
    induction hr with
    | refl => exact .refl
    | step hr' ho hx ih => exact .step ih ((ha _ hr').trans ho) hx

theorem getElem?_append_old {h : Heap} {o : Obj} {i : Nat} (hi : i < h.length) : (h ++ [o])[i]? = h[i]? := by
  rw [List.getElem?_append_left hi]

theorem same_refl {h : Heap} (hw : WF h) {v : Val} (hv : v.In h) : Same h v h v := by
  refine ⟨fun x y => x = y ∧ x.In h, ⟨rfl, hv⟩, ?_⟩
  rintro x _ ⟨rfl, hx⟩
  cases x with
  | atom n => exact .inl ⟨n, rfl, rfl⟩
  | ref i =>
    right
    have hi : i < h.length := hx
    refine ⟨i, i, h[i], h[i], rfl, rfl, List.getElem?_eq_getElem hi, List.getElem?_eq_getElem hi, rfl, ?_⟩
    have : ∀ x ∈ (h[i]).items, x.In h := by
      intro x hx
      cases x with
      | atom n => trivial
      | ref j => exact hw i _ (List.getElem?_eq_getElem hi) j hx
    revert this
    generalize (h[i]).items = l
    intro hl
    induction l with
    | nil => exact .nil
    | cons a l ih => exact .cons ⟨rfl, hl a (by simp)⟩ (ih fun x hx => hl x (by simp [hx]))

/-- What a value looks like depends on what it reaches only. -/
theorem same_agree {h0 h : Heap} {v : Val} (ha : ∀ i, Reach h0 v (.ref i) → h[i]? = h0[i]?) {h' : Heap} {v' : Val}
    (hs : Same h v h' v') : Same h0 v h' v' := by
  obtain ⟨R, hR, hb⟩ := hs
  refine ⟨fun x y => R x y ∧ Reach h0 v x, ⟨hR, .refl⟩, ?_⟩
  rintro x y ⟨hxy, hx⟩
  rcases hb x y hxy with ⟨n, rfl, rfl⟩ | ⟨i, j, o, p, rfl, rfl, hi, hj, hk, hf⟩
  · exact .inl ⟨n, rfl, rfl⟩
  · have hi0 := (ha i hx).symm.trans hi
    refine .inr ⟨i, j, o, p, rfl, rfl, hi0, hj, hk, ?_⟩
    have hin : ∀ z ∈ o.items, Reach h0 v z := fun z hz => .step hx hi0 hz
    revert hf hin
    generalize o.items = l
    generalize p.items = l'
    intro hf hin
    induction hf with
    | nil => exact .nil
    | cons h1 _ ih => exact .cons ⟨h1, hin _ (by simp)⟩ (ih fun z hz => hin z (by simp [hz]))

/-- What holds between the default and the program all along. -/
structure Inv (h0 : Heap) (v : Val) (s : Heap × List Val) : Prop where
  wf : WF s.1
  roots : ∀ r ∈ s.2, r.In s.1
  isIn : v.In s.1
  agree : ∀ i, Reach h0 v (.ref i) → s.1[i]? = h0[i]?
  apart : Apart s.1 s.2 v

theorem Usable.isIn {h : Heap} {roots : List Val} (hw : WF h) (hr : ∀ r ∈ roots, r.In h) {x : Val} (hx : Usable h roots x) :
    x.In h := by
  rcases hx with ⟨n, rfl⟩ | ⟨r, hm, hx⟩
  · trivial
  · exact hx.isIn hw (hr r hm)

theorem inv_step {h0 : Heap} {w : WithDefault} (hs : w.copyDefault = true ∨ Frozen h0 w.default)
    {s t : Heap × List Val} {d : Option Val} (hi : Inv h0 w.default s) (hst : Step w s t d) : Inv h0 w.default t := by
  have hreach : ∀ {x}, Reach s.1 w.default x ↔ Reach h0 w.default x := Reach.agree hi.agree
  cases hst with
  | @alloc h roots o hu =>
    have hw := hi.wf; have hr := hi.roots; have hv := hi.isIn; have ha := hi.apart
    dsimp only at hw hr hv ha hreach ⊢
    have hwf : WF (h ++ [o]) := by
      intro i p hp j hj
      rw [List.length_append, List.length_singleton]
      by_cases hlt : i < h.length
      · rw [getElem?_append_old hlt] at hp
        exact Nat.lt_succ_of_lt (hw i p hp j hj)
      · have hpo : p = o := by
          rw [List.getElem?_append_right (by omega)] at hp
          have : i - h.length = 0 := by
            by_contra hc
            rw [List.getElem?_eq_none (by simp; omega)] at hp
            cases hp
          rw [this] at hp
          simpa using hp.symm
        subst hpo
        exact Nat.lt_succ_of_lt (Usable.isIn hw hr (hu _ hj))
    have hmono : ∀ {x : Val}, x.In h → x.In (h ++ [o]) := by
      intro x hx
      cases x with
      | atom n => trivial
      | ref j => exact Nat.lt_of_lt_of_le (show j < h.length from hx) (by simp)
    have hold : ∀ {r x : Val}, r.In h → Reach (h ++ [o]) r x → Reach h r x := by
      intro r x hr' hx
      refine (Reach.agree (h' := h ++ [o]) ?_).1 hx
      intro i hri
      exact getElem?_append_old (hri.isIn hw hr')
    have hagree : ∀ i, Reach h0 w.default (.ref i) → (h ++ [o])[i]? = h0[i]? := by
      intro i hx
      rw [getElem?_append_old ((hreach.2 hx).isIn hw hv)]
      exact hi.agree i hx
    refine ⟨hwf, ?_, hmono hv, hagree, ?_⟩
    · intro r hm
      rcases List.mem_cons.1 hm with rfl | hm
      · show h.length < (h ++ [o]).length
        simp
      · exact hmono (hr r hm)
    · rintro i p ⟨r, hm, hri⟩ hvi hp
      have hvi' : Reach h w.default (.ref i) := hold hv hvi
      have hlt : i < h.length := hvi'.isIn hw hv
      rw [getElem?_append_old hlt] at hp
      have key : Usable h roots (.ref i) := by
        rcases List.mem_cons.1 hm with rfl | hm
        · -- from the new object
          have : ∀ x, Reach (h ++ [o]) (.ref h.length) x → x = .ref h.length ∨ Usable h roots x := by
            intro x hx
            induction hx with
            | refl => exact .inl rfl
            | step _ ho hx ih =>
              rename_i k q y _
              rcases ih with e | e
              · injection e with e
                subst e
                rw [List.getElem?_append_right (Nat.le_refl _), Nat.sub_self] at ho
                have ho : o = q := by simpa using ho
                subst ho
                exact .inr (hu _ hx)
              · rcases e with ⟨n, e⟩ | ⟨r, hm, hr'⟩
                · cases e
                · have hlt := hr'.isIn hw (hr r hm)
                  rw [getElem?_append_old hlt] at ho
                  exact .inr (.inr ⟨r, hm, .step hr' ho hx⟩)
          rcases this _ hri with e | e
          · injection e with e; omega
          · exact e
        · exact .inr ⟨r, hm, hold (hr r hm) hri⟩
      rcases key with ⟨n, e⟩ | e
      · cases e
      · exact ha i p e hvi' hp
  | @write h roots i o items hri ho hm hu =>
    have hw := hi.wf; have hr := hi.roots; have hv := hi.isIn; have ha := hi.apart
    dsimp only at hw hr hv ha hreach ⊢
    have hni : ¬ Reach h w.default (.ref i) := by
      intro hc
      have := ha i o hri hc ho
      rw [hm] at this; cases this
    have hother : ∀ j, j ≠ i → (h.set i { o with items := items })[j]? = h[j]? := by
      intro j hj
      rw [List.getElem?_set_ne (Ne.symm hj)]
    have hself : (h.set i { o with items := items })[i]? = some { o with items := items } := by
      have hlt : i < h.length := by
        by_contra hc
        rw [List.getElem?_eq_none (by omega)] at ho; cases ho
      rw [List.getElem?_set_self hlt]
    have hmono : ∀ {x : Val}, x.In h → x.In (h.set i { o with items := items }) := by
      intro x hx
      cases x with
      | atom n => trivial
      | ref j => show j < (h.set i { o with items := items }).length; rw [List.length_set]; exact hx
    have hagr : ∀ j, Reach h w.default (.ref j) → (h.set i { o with items := items })[j]? = h[j]? := by
      intro j hj
      exact hother j (fun e => hni (e ▸ hj))
    refine ⟨?_, fun r hm => hmono (hr r hm), hmono hv, ?_, ?_⟩
    · intro j p hp k hk
      rw [List.length_set]
      by_cases hj : j = i
      · subst hj
        rw [hself] at hp
        injection hp with hp
        subst hp
        exact Usable.isIn hw hr (hu _ hk)
      · rw [hother j hj] at hp
        exact hw j p hp k hk
    · intro j hj
      rw [hagr j (hreach.2 hj)]
      exact hi.agree j hj
    · rintro j p ⟨r, hmr, hrj⟩ hvj hp
      have hvj' : Reach h w.default (.ref j) := (Reach.agree hagr).1 hvj
      rw [hagr j hvj'] at hp
      have : ∀ x, Reach (h.set i { o with items := items }) r x → Usable h roots x := by
        intro x hx
        induction hx with
        | refl => exact .inr ⟨r, hmr, .refl⟩
        | step _ ho' hx' ih =>
          rename_i k q y _
          by_cases hk : k = i
          · subst hk
            rw [hself] at ho'
            injection ho' with ho'
            subst ho'
            exact hu _ hx'
          · rw [hother k hk] at ho'
            rcases ih with ⟨n, e⟩ | ⟨r', hm', hr'⟩
            · cases e
            · exact .inr ⟨r', hm', .step hr' ho' hx'⟩
      rcases this _ hrj with ⟨n, e⟩ | e
      · cases e
      · exact ha j p e hvj' hp
  | @take h roots x hx =>
    refine ⟨hi.wf, ?_, hi.isIn, hi.agree, ?_⟩
    · intro r hm
      rcases List.mem_cons.1 hm with rfl | hm
      · exact Usable.isIn hi.wf hi.roots hx
      · exact hi.roots r hm
    · rintro i o ⟨r, hm, hr⟩ hv ho
      rcases List.mem_cons.1 hm with rfl | hm
      · rcases hx with ⟨n, rfl⟩ | ⟨r', hm', hr'⟩
        · exfalso
          have : ∀ y, Reach h (.atom n) y → y = .atom n := by
            intro y hy
            induction hy with
            | refl => rfl
            | step _ _ _ ih => cases ih
          cases this _ hr
        · exact hi.apart i o ⟨r', hm', hr'.trans hr⟩ hv ho
      · exact hi.apart i o ⟨r, hm, hr⟩ hv ho
  | @default h h' roots v hd =>
    cases hd with
    | copied hc hdc =>
      have hw := hi.wf; have hr := hi.roots; have hv := hi.isIn; have ha := hi.apart
      dsimp only at hw hr hv ha hreach ⊢
      have hmono : ∀ {x : Val}, x.In h → x.In h' := by
        intro x hx
        cases x with
        | atom n => trivial
        | ref j => exact Nat.lt_of_lt_of_le (show j < h.length from hx) hdc.grows
      have hold : ∀ {r x : Val}, r.In h → Reach h' r x → Reach h r x := by
        intro r x hr' hx
        refine (Reach.agree (h' := h') ?_).1 hx
        intro i hri
        exact hdc.old i (hri.isIn hw hr')
      refine ⟨hdc.wf, ?_, hmono hv, ?_, ?_⟩
      · intro r hm
        rcases List.mem_cons.1 hm with rfl | hm
        · exact hdc.isIn
        · exact hmono (hr r hm)
      · intro i hx
        rw [hdc.old i ((hreach.2 hx).isIn hw hv)]
        exact hi.agree i hx
      · rintro i o ⟨r, hm, hri⟩ hvi ho
        have hvi' := hold hv hvi
        rw [hdc.old i (hvi'.isIn hw hv)] at ho
        rcases List.mem_cons.1 hm with rfl | hm
        · exact hdc.fresh i o hri ho
        · exact ha i o ⟨r, hm, hold (hr r hm) hri⟩ hvi' ho
    | shared hc =>
      have hfz : Frozen h0 w.default := by
        rcases hs with e | e
        · rw [hc] at e; cases e
        · exact e
      refine ⟨hi.wf, ?_, hi.isIn, hi.agree, ?_⟩
      · intro r hm
        rcases List.mem_cons.1 hm with rfl | hm
        · exact hi.isIn
        · exact hi.roots r hm
      · rintro i o _ hv ho
        have := hreach.1 hv
        have ho' : h[i]? = h0[i]? := hi.agree i this
        exact hfz i o this (ho'.symm.trans ho)

theorem inv_run {h0 : Heap} {w : WithDefault} (hs : w.copyDefault = true ∨ Frozen h0 w.default)
    {s t : Heap × List Val} (hi : Inv h0 w.default s) (hr : Run w s t) : Inv h0 w.default t := by
  induction hr with
  | refl => exact hi
  | step _ hst ih => exact inv_step hs ih hst

end PC.Dflt
