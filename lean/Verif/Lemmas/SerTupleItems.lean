import Verif.Model.SerSchema

namespace PC.Infer

theorem mem_tupleSers {S : Type} {v : Option Nat} {ss : List S} {n : Nat} {s : S} (h : s ∈ tupleSers v ss n) : s ∈ ss := by
  unfold tupleSers at h
  cases v with
  | none => exact h
  | some v =>
    dsimp only at h
    simp only [List.mem_append] at h
    rcases h with (h | h) | h
    · exact List.mem_of_mem_take h
    · cases hv : ss[v]? with
      | none => rw [hv] at h; cases h
      | some s' =>
        rw [hv] at h
        rw [List.eq_of_mem_replicate h]
        exact List.mem_of_getElem? hv
    · exact List.mem_of_mem_drop h

end PC.Infer
