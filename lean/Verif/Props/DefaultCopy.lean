import Verif.Lemmas.DefaultCopy

/-! C99: mutable defaults are not shared. -/

namespace PC.Dflt

/-- A default that cannot be hashed (a list, a dict, a tuple with a list in it, ...) or that has no mutable part: whatever the program
does with the defaults it was given and with everything else it can get at, in whatever order with whatever number of further
validations, (1) the stored default does not change, (2) every default handed out looks as the default did when the validator was
built, and (3) shares no mutable object with anything the program could get at before.  What is missing: defaults that can be
hashed though they have mutable parts, see `instance_default_shared`. -/
theorem default_isolated_partial {h0 : Heap} {v : Val} {w : WithDefault} (hb : Built h0 v w) {roots0 : List Val} (hw : WF h0)
    (hv : v.In h0) (hroots : ∀ r ∈ roots0, r.In h0) (hap : Apart h0 roots0 v) (hm : ¬ Hashable h0 v ∨ Frozen h0 v)
    {h : Heap} {roots : List Val} (hr : Run w (h0, roots0) (h, roots)) :
    (∀ i, Reach h0 v (.ref i) → h[i]? = h0[i]?) ∧
    ∀ (t : Heap × List Val) (d : Val), Step w (h, roots) t (some d) → Same h0 v t.1 d ∧
      ∀ (i : Nat) (o : Obj), Reach t.1 d (.ref i) → ReachAny h roots (.ref i) → t.1[i]? = some o → o.mutable = false := by
  obtain ⟨rfl, hc⟩ := hb
  have hs : w.copyDefault = true ∨ Frozen h0 w.default := hm.imp hc.2 id
  have hi := inv_run hs ⟨hw, hroots, hv, fun _ _ => rfl, hap⟩ hr
  refine ⟨hi.agree, ?_⟩
  intro t d hst
  have hi' := inv_step hs hi hst
  cases hst with
  | default hd =>
    cases hd with
    | copied hcp hdc =>
      refine ⟨same_agree hi.agree hdc.looks, ?_⟩
      rintro i o hdi ⟨r, hmr, hri⟩ ho
      have hlt : i < h.length := hri.isIn hi.wf (hi.roots r hmr)
      exact hdc.fresh i o hdi ((hdc.old i hlt).symm.trans ho)
    | shared hcp =>
      refine ⟨same_agree hi.agree (same_refl hi.wf hi.isIn), ?_⟩
      rintro i o hdi _ ho
      have hfz : Frozen h0 w.default := by
        rcases hs with e | e
        · rw [hcp] at e; cases e
        · exact e
      have hr0 : Reach h0 w.default (.ref i) := (Reach.agree hi.agree).1 hdi
      exact hfz i o hr0 ((hi.agree i hr0).symm.trans ho)

/-- The default `[1, []]` (objects 0 and 1), copied and then changed. -/
example : ∃ (h0 : Heap) (v : Val) (w : WithDefault), Built h0 v w ∧ WF h0 ∧ v.In h0 ∧ ¬ Hashable h0 v ∧ Apart h0 [] v ∧
    ∃ h roots, Run w (h0, []) (h, roots) ∧ h[2]? = some ⟨.list, []⟩ := by
  have hw : WF [⟨.list, [.atom 1, .ref 1]⟩, ⟨.list, []⟩] := by
    intro i o ho j hj
    match i with
    | 0 =>
      simp only [List.getElem?_cons_zero, Option.some.injEq] at ho
      subst ho
      simp at hj
      simp [hj]
    | 1 =>
      simp only [List.getElem?_cons_succ, List.getElem?_cons_zero, Option.some.injEq] at ho
      subst ho
      simp at hj
    | n + 2 => simp at ho
  have hnh : ¬ Hashable [⟨.list, [.atom 1, .ref 1]⟩, ⟨.list, []⟩] (.ref 0) := by
    intro hh
    cases hh with
    | «instance» ho hk => simp at ho; subst ho; cases hk
    | tuple ho hk _ => simp at ho; subst ho; cases hk
  let h' : Heap := [⟨.list, [.atom 1, .ref 1]⟩, ⟨.list, []⟩, ⟨.list, [.atom 1, .ref 3]⟩, ⟨.list, []⟩]
  have hdc : DeepCopy [⟨.list, [.atom 1, .ref 1]⟩, ⟨.list, []⟩] (.ref 0) h' (.ref 2) := by
    refine ⟨?_, by decide, ?_, show 2 < h'.length by decide, ?_, ?_⟩
    · intro i hi
      match i with
      | 0 => rfl
      | 1 => rfl
      | n + 2 => simp at hi; omega
    · intro i o ho j hj
      match i with
      | 0 => simp [h'] at ho; subst ho; simp at hj; subst hj; decide
      | 1 => simp [h'] at ho; subst ho; simp at hj
      | 2 => simp [h'] at ho; subst ho; simp at hj; subst hj; decide
      | 3 => simp [h'] at ho; subst ho; simp at hj
      | n + 4 => simp [h'] at ho
    · refine ⟨fun x y => (x = .atom 1 ∧ y = .atom 1) ∨ (x = .ref 0 ∧ y = .ref 2) ∨ (x = .ref 1 ∧ y = .ref 3), by simp, ?_⟩
      rintro x y (⟨rfl, rfl⟩ | ⟨rfl, rfl⟩ | ⟨rfl, rfl⟩)
      · exact .inl ⟨1, rfl, rfl⟩
      · exact .inr ⟨0, 2, _, _, rfl, rfl, rfl, rfl, rfl, by simp⟩
      · exact .inr ⟨1, 3, _, _, rfl, rfl, rfl, rfl, rfl, by simp⟩
    · intro i o hr ho
      have : ∀ x, Reach h' (.ref 2) x → x = .ref 2 ∨ x = .ref 3 ∨ x = .atom 1 := by
        intro x hx
        induction hx with
        | refl => simp
        | step _ ho hx ih =>
          rcases ih with e | e | e
          · injection e with e; subst e; simp [h'] at ho; subst ho; simp at hx; rcases hx with rfl | rfl <;> simp
          · injection e with e; subst e; simp [h'] at ho; subst ho; simp at hx
          · cases e
      rcases this _ hr with e | e | e
      · injection e with e; subst e; simp at ho
      · injection e with e; subst e; simp at ho
      · cases e
  refine ⟨_, .ref 0, ⟨.ref 0, true⟩, ⟨rfl, by simp [hnh]⟩, hw, show 0 < 2 by decide, hnh, ?_,
    h'.set 2 ⟨.list, []⟩, [.ref 2], ?_, rfl⟩
  · rintro i o ⟨r, hm, _⟩; cases hm
  · refine .step (.step .refl (.default (.copied rfl hdc))) (.write 2 ⟨.list, [.atom 1, .ref 3]⟩ [] ⟨_, by simp, .refl⟩ rfl rfl ?_)
    intro x hx; cases hx

/-- C99 fails for instances of ordinary classes, which are hashed by identity: the default is not copied.  Changing the default of one
validation changes that of the next, and they are the same object. -/
theorem instance_default_shared : ∃ (h0 : Heap) (v : Val) (w : WithDefault), Built h0 v w ∧ WF h0 ∧ v.In h0 ∧
    ∃ (h1 h2 : Heap) (r1 r2 : List Val), Step w (h0, []) (h1, r1) (some v) ∧ Run w (h1, r1) (h2, r2) ∧
      Step w (h2, r2) (h2, v :: r2) (some v) ∧ ¬ Same h0 v h2 v := by
  refine ⟨[⟨.instance, [.atom 1]⟩], .ref 0, ⟨.ref 0, false⟩, ⟨rfl, ?_⟩, ?_, show 0 < 1 by decide,
    [⟨.instance, [.atom 1]⟩], [⟨.instance, [.atom 2]⟩], [.ref 0], [.ref 0], .default (.shared rfl), ?_, .default (.shared rfl), ?_⟩
  · simp only [Bool.false_eq_true, false_iff, not_not]
    exact .instance rfl rfl
  · intro i o ho j hj
    match i with
    | 0 => simp at ho; subst ho; simp at hj
    | n + 1 => simp at ho
  · refine .step .refl (.write (w := ⟨.ref 0, false⟩) (h := [⟨.instance, [.atom 1]⟩]) 0 ⟨.instance, [.atom 1]⟩ [.atom 2]
      ⟨_, by simp, .refl⟩ rfl rfl ?_)
    intro x hx
    exact .inl ⟨2, by simpa using hx⟩
  · rintro ⟨R, hR, hb⟩
    rcases hb _ _ hR with ⟨n, e, _⟩ | ⟨i, j, o, p, e1, e2, ho, hp, _, hf⟩
    · cases e
    · injection e1 with e1; injection e2 with e2
      subst e1; subst e2
      simp at ho hp
      subst ho; subst hp
      cases hf with
      | cons h1 _ =>
        rcases hb _ _ h1 with ⟨n, e1, e2⟩ | ⟨i, j, o, p, e1, _⟩
        · injection e1 with e1; injection e2 with e2; omega
        · cases e1

end PC.Dflt
