import Verif.Spec.TagLookup
import Verif.Props.Literal
import Verif.Props.SerUnion

/-
Lemmas for C107.
-/

namespace PC.TagLookup
open PC.SerUnion PC.Lit

theorem lookup_buildFrom (str : α → Text) (keys : List α) (idx : Nat) (table : List (Text × Nat))
    (s : Text) (i : Nat) :
    (buildFrom str idx keys table).lookup s = some i ↔
      (∃ n, i = idx + n ∧ LastPrinting str keys s n) ∨
      ((∀ k ∈ keys, str k ≠ s) ∧ table.lookup s = some i) := by
  induction keys generalizing idx table with
  | nil => simp [buildFrom, LastPrinting]
  | cons k rest ih =>
    unfold buildFrom
    rw [ih]
    constructor
    · rintro (⟨n, rfl, k', h1, h2, h3⟩ | ⟨h1, h2⟩)
      · refine Or.inl ⟨n + 1, by omega, k', by simpa using h1, h2, ?_⟩
        intro j kj hj hkj
        cases j with
        | zero => omega
        | succ j => exact h3 j kj (by omega) (by simpa using hkj)
      · by_cases hk : str k = s
        · left
          rw [List.lookup_cons, hk] at h2
          simp only [beq_self_eq_true] at h2
          injection h2 with h2
          refine ⟨0, by omega, k, rfl, hk, ?_⟩
          intro j kj hj hkj
          cases j with
          | zero => omega
          | succ j => exact h1 kj (List.mem_of_getElem? (by simpa using hkj))
        · right
          have hb : (s == str k) = false := by
            simpa using fun h => hk h.symm
          rw [List.lookup_cons, hb] at h2
          refine ⟨?_, h2⟩
          intro k' hk'
          rcases List.mem_cons.1 hk' with rfl | hk'
          · exact hk
          · exact h1 k' hk'
    · rintro (⟨n, rfl, k', h1, h2, h3⟩ | ⟨h1, h2⟩)
      · cases n with
        | zero =>
          right
          simp only [List.getElem?_cons_zero, Option.some.injEq] at h1
          subst h1
          refine ⟨?_, ?_⟩
          · intro k' hk'
            obtain ⟨j, hj⟩ := List.getElem?_of_mem hk'
            exact h3 (j + 1) k' (by omega) (by simpa using hj)
          · rw [List.lookup_cons, h2]; simp
        | succ n =>
          left
          refine ⟨n, by omega, k', by simpa using h1, h2, ?_⟩
          intro j kj hj hkj
          exact h3 (j + 1) kj (by omega) (by simpa using hkj)
      · right
        refine ⟨fun k' hk' => h1 k' (List.mem_cons_of_mem _ hk'), ?_⟩
        have hb : (s == str k) = false := by
          simpa using fun h => h1 k (List.mem_cons_self ..) h.symm
        rw [List.lookup_cons, hb]; exact h2

theorem valIndex_sound {o : PyOps α} (lo : Lawful o) {keys : List α} {t : α} {i : Nat}
    (h : valIndex o keys t = some i) : ∃ k, keys[i]? = some k ∧ Matches o k t := by
  unfold valIndex at h
  cases hf : (Lookup.new o (keys.map fun k => (k, ()))).find o (.ofPy o t) with
  | error e => rw [hf] at h; cases h
  | ok r =>
    rw [hf] at h; dsimp only at h; subst h
    obtain ⟨kv, h1, h2⟩ := find_sound lo (inv_new lo _) hf
    rw [List.getElem?_map] at h1
    cases hk : keys[i]? with
    | none => rw [hk] at h1; cases h1
    | some k =>
      rw [hk] at h1
      simp only [Option.map_some, Option.some.injEq] at h1
      subst h1
      exact ⟨k, rfl, h2⟩

end PC.TagLookup
