import Verif.Model.Bytes

namespace PC.Bytes

/-- What the proofs need of an alphabet: distinct symbols, none of them the padding. -/
structure Good (a : Alphabet) : Prop where
  val_sym : ∀ i, i < 64 → a.val (a.sym i) = some i
  sym_ne_pad : ∀ i, i < 64 → a.sym i ≠ pad

set_option maxRecDepth 100000 in
theorem good_urlSafe : Good urlSafe := ⟨by decide, by decide⟩

set_option maxRecDepth 100000 in
theorem good_standard : Good standard := ⟨by decide, by decide⟩

theorem sym_of_val {a : Alphabet} {b : UInt8} {i : Nat} (h : a.val b = some i) :
    i < 64 ∧ a.sym i = b := by
  unfold Alphabet.val at h
  refine ⟨?_, ?_⟩
  · have := List.mem_of_find?_eq_some h
    simpa using this
  · have := List.find?_some h
    simpa using this

theorem val_pad {a : Alphabet} (g : Good a) : a.val pad = none := by
  cases h : a.val pad with
  | none => rfl
  | some i =>
    obtain ⟨h1, h2⟩ := sym_of_val h
    exact absurd h2 (g.sym_ne_pad i h1)

theorem toNat_ofNat {n : Nat} (h : n < 256) : (UInt8.ofNat n).toNat = n := by
  rw [UInt8.toNat_ofNat']; omega

theorem byte_lt (x : UInt8) : x.toNat < 256 := x.toNat_lt

theorem ofNat_eq {n : Nat} {x : UInt8} (h : n = x.toNat) : UInt8.ofNat n = x := by
  subst h; exact UInt8.ofNat_toNat

/-- A list that with some padding added starts with something else than padding starts with it itself. -/
theorem peel {l rest : List UInt8} {s : UInt8} {j : Nat} (hs : s ≠ pad)
    (h : l ++ List.replicate j pad = s :: rest) :
    ∃ l', l = s :: l' ∧ l' ++ List.replicate j pad = rest := by
  cases l with
  | nil =>
    cases j with
    | zero => simp at h
    | succ j => rw [List.nil_append, List.replicate_succ] at h; cases h; exact absurd rfl hs
  | cons x l' => cases h; exact ⟨l', rfl, rfl⟩

/-- A list that with some padding added is nothing but padding. -/
theorem peel_pads {l : List UInt8} {j n : Nat} (h : l ++ List.replicate j pad = List.replicate n pad) :
    ∃ k, k ≤ n ∧ l = List.replicate k pad := by
  refine ⟨l.length, ?_, ?_⟩
  · have := congrArg List.length h; simp at this; omega
  · apply List.eq_replicate_iff.2
    refine ⟨rfl, fun b hb => ?_⟩
    have : b ∈ List.replicate n pad := h ▸ List.mem_append_left _ hb
    exact (List.mem_replicate.1 this).2

theorem suffix2 {a : Alphabet} (g : Good a) {v w k : Nat} (hv : v < 64) (hw : w < 64) (hk : k ≤ 2) (i : Nat) :
    suffixLoop a i (a.sym v :: a.sym w :: List.replicate k pad) 0 0 0 [] = .ok [v, w] := by
  match k, hk with
  | 0, _ => simp [suffixLoop, g.sym_ne_pad, g.val_sym, hv, hw]
  | 1, _ => simp [suffixLoop, g.sym_ne_pad, g.val_sym, hv, hw]
  | 2, _ => simp [suffixLoop, g.sym_ne_pad, g.val_sym, hv, hw, List.replicate]

theorem suffix3 {a : Alphabet} (g : Good a) {v w x k : Nat} (hv : v < 64) (hw : w < 64) (hx : x < 64)
    (hk : k ≤ 1) (i : Nat) :
    suffixLoop a i (a.sym v :: a.sym w :: a.sym x :: List.replicate k pad) 0 0 0 [] = .ok [v, w, x] := by
  match k, hk with
  | 0, _ => simp [suffixLoop, g.sym_ne_pad, g.val_sym, hv, hw, hx]
  | 1, _ => simp [suffixLoop, g.sym_ne_pad, g.val_sym, hv, hw, hx]

theorem suffix4 {a : Alphabet} (g : Good a) {v w x y : Nat} (hv : v < 64) (hw : w < 64) (hx : x < 64)
    (hy : y < 64) (i : Nat) :
    suffixLoop a i [a.sym v, a.sym w, a.sym x, a.sym y] 0 0 0 [] = .ok [v, w, x, y] := by
  simp [suffixLoop, g.sym_ne_pad, g.val_sym, hv, hw, hx, hy]

theorem decodeFrom_short (a : Alphabet) (l : List UInt8) (i : Nat) (h : l.length ≤ 4) :
    decodeFrom a l i = decodeSuffix a l i := by
  match l, h with
  | [], _ => rfl
  | [_], _ => rfl
  | [_, _], _ => rfl
  | [_, _, _], _ => rfl
  | [_, _, _, _], _ => rfl

theorem encode64_head (a : Alphabet) {bs : List UInt8} (h : bs ≠ []) :
    ∃ n rest, n < 64 ∧ encode64 a bs = a.sym n :: rest := by
  match bs, h with
  | [x], _ => exact ⟨_, _, by have := byte_lt x; omega, rfl⟩
  | [x, _], _ => exact ⟨_, _, by have := byte_lt x; omega, rfl⟩
  | x :: _ :: _ :: _, _ => exact ⟨_, _, by have := byte_lt x; omega, rfl⟩

theorem decodeFrom_encode {a : Alphabet} (g : Good a) : ∀ (bs l : List UInt8) (i j : Nat),
    l ++ List.replicate j pad = encode64 a bs → decodeFrom a l i = .ok bs
  | [], l, i, j, h => by
    have : l = [] := (List.append_eq_nil_iff.1 h).1
    subst this; rfl
  | [x], l, i, j, h => by
    have hx := byte_lt x
    have h1 : x.toNat / 4 < 64 := by omega
    have h2 : x.toNat % 4 * 16 < 64 := by omega
    obtain ⟨l1, rfl, k1⟩ := peel (g.sym_ne_pad _ h1) h
    obtain ⟨l2, rfl, k2⟩ := peel (g.sym_ne_pad _ h2) k1
    obtain ⟨k, hk, rfl⟩ := peel_pads (n := 2) k2
    rw [decodeFrom_short _ _ _ (by simp; omega)]
    simp only [decodeSuffix, suffix2 g h1 h2 hk]
    rw [if_pos (by omega), ofNat_eq (x := x) (by omega)]
  | [x, y], l, i, j, h => by
    have hx := byte_lt x
    have hy := byte_lt y
    have h1 : x.toNat / 4 < 64 := by omega
    have h2 : x.toNat % 4 * 16 + y.toNat / 16 < 64 := by omega
    have h3 : y.toNat % 16 * 4 < 64 := by omega
    obtain ⟨l1, rfl, k1⟩ := peel (g.sym_ne_pad _ h1) h
    obtain ⟨l2, rfl, k2⟩ := peel (g.sym_ne_pad _ h2) k1
    obtain ⟨l3, rfl, k3⟩ := peel (g.sym_ne_pad _ h3) k2
    obtain ⟨k, hk, rfl⟩ := peel_pads (n := 1) k3
    rw [decodeFrom_short _ _ _ (by simp; omega)]
    simp only [decodeSuffix, suffix3 g h1 h2 h3 hk]
    rw [if_pos (by omega), ofNat_eq (x := x) (by omega), ofNat_eq (x := y) (by omega)]
  | x :: y :: z :: rest, l, i, j, h => by
    have hx := byte_lt x
    have hy := byte_lt y
    have hz := byte_lt z
    have h1 : x.toNat / 4 < 64 := by omega
    have h2 : x.toNat % 4 * 16 + y.toNat / 16 < 64 := by omega
    have h3 : y.toNat % 16 * 4 + z.toNat / 64 < 64 := by omega
    have h4 : z.toNat % 64 < 64 := by omega
    obtain ⟨l1, rfl, k1⟩ := peel (g.sym_ne_pad _ h1) h
    obtain ⟨l2, rfl, k2⟩ := peel (g.sym_ne_pad _ h2) k1
    obtain ⟨l3, rfl, k3⟩ := peel (g.sym_ne_pad _ h3) k2
    obtain ⟨l4, rfl, k4⟩ := peel (g.sym_ne_pad _ h4) k3
    by_cases hr : rest = []
    · subst hr
      have : l4 = [] := (List.append_eq_nil_iff.1 k4).1
      subst this
      rw [decodeFrom_short _ _ _ (by simp)]
      simp only [decodeSuffix, suffix4 g h1 h2 h3 h4]
      rw [ofNat_eq (x := x) (by omega), ofNat_eq (x := y) (by omega), ofNat_eq (x := z) (by omega)]
    · obtain ⟨n, r, hn, he⟩ := encode64_head a hr
      obtain ⟨l5, hl, -⟩ := peel (g.sym_ne_pad _ hn) (k4.trans he)
      have ih := decodeFrom_encode g rest l4 (i + 4) j k4
      rw [hl] at ih ⊢
      simp only [decodeFrom, g.val_sym _ h1, g.val_sym _ h2, g.val_sym _ h3, g.val_sym _ h4, ih]
      rw [ofNat_eq (x := x) (by omega), ofNat_eq (x := y) (by omega), ofNat_eq (x := z) (by omega)]

theorem decodeSuffix_sound {a : Alphabet} (g : Good a) {l : List UInt8} {i : Nat} {bs : List UInt8}
    (hl : l.length ≤ 4) (h : decodeSuffix a l i = .ok bs) :
    ∃ j, l ++ List.replicate j pad = encode64 a bs := by
  have vp := val_pad g
  have key2 : ∀ {p q : UInt8} {v w : Nat}, a.val p = some v → a.val q = some w → w % 16 = 0 →
      encode64 a [UInt8.ofNat (v * 4 + w / 16)] = [p, q, pad, pad] := by
    intro p q v w hp hq hw
    obtain ⟨hv1, rfl⟩ := sym_of_val hp
    obtain ⟨hw1, rfl⟩ := sym_of_val hq
    simp only [encode64]
    rw [toNat_ofNat (by omega)]
    congr 2
    · congr 1; omega
    · congr 2; omega
  have key3 : ∀ {p q r : UInt8} {v w x : Nat}, a.val p = some v → a.val q = some w → a.val r = some x →
      x % 4 = 0 →
      encode64 a [UInt8.ofNat (v * 4 + w / 16), UInt8.ofNat (w % 16 * 16 + x / 4)] = [p, q, r, pad] := by
    intro p q r v w x hp hq hr hx
    obtain ⟨hv1, rfl⟩ := sym_of_val hp
    obtain ⟨hw1, rfl⟩ := sym_of_val hq
    obtain ⟨hx1, rfl⟩ := sym_of_val hr
    simp only [encode64]
    rw [toNat_ofNat (by omega), toNat_ofNat (by omega)]
    rw [show (v * 4 + w / 16) / 4 = v by omega,
      show (v * 4 + w / 16) % 4 * 16 + (w % 16 * 16 + x / 4) / 16 = w by omega,
      show (w % 16 * 16 + x / 4) % 16 * 4 = x by omega]
  have key4 : ∀ {p q r s : UInt8} {v w x y : Nat}, a.val p = some v → a.val q = some w → a.val r = some x →
      a.val s = some y →
      encode64 a [UInt8.ofNat (v * 4 + w / 16), UInt8.ofNat (w % 16 * 16 + x / 4),
        UInt8.ofNat (x % 4 * 64 + y)] = [p, q, r, s] := by
    intro p q r s v w x y hp hq hr hs
    obtain ⟨hv1, rfl⟩ := sym_of_val hp
    obtain ⟨hw1, rfl⟩ := sym_of_val hq
    obtain ⟨hx1, rfl⟩ := sym_of_val hr
    obtain ⟨hy1, rfl⟩ := sym_of_val hs
    simp only [encode64]
    rw [toNat_ofNat (by omega), toNat_ofNat (by omega), toNat_ofNat (by omega)]
    rw [show (v * 4 + w / 16) / 4 = v by omega,
      show (v * 4 + w / 16) % 4 * 16 + (w % 16 * 16 + x / 4) / 16 = w by omega,
      show (w % 16 * 16 + x / 4) % 16 * 4 + (x % 4 * 64 + y) / 64 = x by omega,
      show (x % 4 * 64 + y) % 64 = y by omega]
  have nop : ∀ {p : UInt8} {v : Nat}, a.val p = some v → p ≠ pad := by
    intro p v hp he; rw [he, vp] at hp; cases hp
  match l, hl with
  | [], _ => simp [decodeSuffix, suffixLoop] at h; subst h; exact ⟨0, rfl⟩
  | [p], _ =>
    simp only [decodeSuffix, suffixLoop] at h
    by_cases hp : p = pad
    · simp [-UInt8.ofNat_add, -UInt8.ofNat_mul, hp] at h
    · cases hv : a.val p with
      | none => simp [-UInt8.ofNat_add, -UInt8.ofNat_mul, hp, hv] at h
      | some v => simp [-UInt8.ofNat_add, -UInt8.ofNat_mul, hp, hv] at h
  | [p, q], _ =>
    simp only [decodeSuffix, suffixLoop] at h
    by_cases hp : p = pad
    · simp [-UInt8.ofNat_add, -UInt8.ofNat_mul, hp] at h
    cases hv : a.val p with
    | none => simp [-UInt8.ofNat_add, -UInt8.ofNat_mul, hp, hv] at h
    | some v =>
    by_cases hq : q = pad
    · simp [-UInt8.ofNat_add, -UInt8.ofNat_mul, hp, hv, hq] at h
    cases hw : a.val q with
    | none => simp [-UInt8.ofNat_add, -UInt8.ofNat_mul, hp, hv, hq, hw] at h
    | some w =>
    by_cases hs : w % 16 = 0
    · simp [-UInt8.ofNat_add, -UInt8.ofNat_mul, hp, hv, hq, hw, hs] at h
      subst h
      exact ⟨2, (key2 hv hw hs).symm⟩
    · simp [-UInt8.ofNat_add, -UInt8.ofNat_mul, hp, hv, hq, hw, hs] at h
  | [p, q, r], _ =>
    simp only [decodeSuffix, suffixLoop] at h
    by_cases hp : p = pad
    · simp [-UInt8.ofNat_add, -UInt8.ofNat_mul, hp] at h
    cases hv : a.val p with
    | none => simp [-UInt8.ofNat_add, -UInt8.ofNat_mul, hp, hv] at h
    | some v =>
    by_cases hq : q = pad
    · simp [-UInt8.ofNat_add, -UInt8.ofNat_mul, hp, hv, hq] at h
    cases hw : a.val q with
    | none => simp [-UInt8.ofNat_add, -UInt8.ofNat_mul, hp, hv, hq, hw] at h
    | some w =>
    by_cases hr : r = pad
    · by_cases hs : w % 16 = 0
      · simp [-UInt8.ofNat_add, -UInt8.ofNat_mul, hp, hv, hq, hw, hs, hr] at h
        subst h hr
        exact ⟨1, (key2 hv hw hs).symm⟩
      · simp [-UInt8.ofNat_add, -UInt8.ofNat_mul, hp, hv, hq, hw, hs, hr] at h
    cases hx : a.val r with
    | none => simp [-UInt8.ofNat_add, -UInt8.ofNat_mul, hp, hv, hq, hw, hr, hx] at h
    | some x =>
    by_cases hs : x % 4 = 0
    · simp [-UInt8.ofNat_add, -UInt8.ofNat_mul, hp, hv, hq, hw, hs, hr, hx] at h
      subst h
      exact ⟨1, (key3 hv hw hx hs).symm⟩
    · simp [-UInt8.ofNat_add, -UInt8.ofNat_mul, hp, hv, hq, hw, hs, hr, hx] at h
  | [p, q, r, s], _ =>
    simp only [decodeSuffix, suffixLoop] at h
    by_cases hp : p = pad
    · simp [-UInt8.ofNat_add, -UInt8.ofNat_mul, hp] at h
    cases hv : a.val p with
    | none => simp [-UInt8.ofNat_add, -UInt8.ofNat_mul, hp, hv] at h
    | some v =>
    by_cases hq : q = pad
    · simp [-UInt8.ofNat_add, -UInt8.ofNat_mul, hp, hv, hq] at h
    cases hw : a.val q with
    | none => simp [-UInt8.ofNat_add, -UInt8.ofNat_mul, hp, hv, hq, hw] at h
    | some w =>
    by_cases hr : r = pad
    · by_cases hsp : s = pad
      · by_cases hs : w % 16 = 0
        · simp [-UInt8.ofNat_add, -UInt8.ofNat_mul, hp, hv, hq, hw, hs, hr, hsp] at h
          subst h hr hsp
          exact ⟨0, (key2 hv hw hs).symm⟩
        · simp [-UInt8.ofNat_add, -UInt8.ofNat_mul, hp, hv, hq, hw, hs, hr, hsp] at h
      · simp [-UInt8.ofNat_add, -UInt8.ofNat_mul, hp, hv, hq, hw, hr, hsp] at h
    cases hx : a.val r with
    | none => simp [-UInt8.ofNat_add, -UInt8.ofNat_mul, hp, hv, hq, hw, hr, hx] at h
    | some x =>
    by_cases hsp : s = pad
    · by_cases hs : x % 4 = 0
      · simp [-UInt8.ofNat_add, -UInt8.ofNat_mul, hp, hv, hq, hw, hs, hr, hx, hsp] at h
        subst h hsp
        exact ⟨0, (key3 hv hw hx hs).symm⟩
      · simp [-UInt8.ofNat_add, -UInt8.ofNat_mul, hp, hv, hq, hw, hs, hr, hx, hsp] at h
    cases hy : a.val s with
    | none => simp [-UInt8.ofNat_add, -UInt8.ofNat_mul, hp, hv, hq, hw, hr, hx, hsp, hy] at h
    | some y =>
      simp [-UInt8.ofNat_add, -UInt8.ofNat_mul, hp, hv, hq, hw, hr, hx, hsp, hy] at h
      subst h
      exact ⟨0, (key4 hv hw hx hy).symm⟩

theorem decodeFrom_sound {a : Alphabet} (g : Good a) : ∀ (l : List UInt8) (i : Nat) (bs : List UInt8),
    decodeFrom a l i = .ok bs → ∃ j, l ++ List.replicate j pad = encode64 a bs
  | p :: q :: r :: s :: t :: rest, i, bs, h => by
    simp only [decodeFrom] at h
    cases hv : a.val p with
    | none => simp [-UInt8.ofNat_add, -UInt8.ofNat_mul, hv] at h
    | some v =>
    cases hw : a.val q with
    | none => simp [-UInt8.ofNat_add, -UInt8.ofNat_mul, hv, hw] at h
    | some w =>
    cases hx : a.val r with
    | none => simp [-UInt8.ofNat_add, -UInt8.ofNat_mul, hv, hw, hx] at h
    | some x =>
    cases hy : a.val s with
    | none => simp [-UInt8.ofNat_add, -UInt8.ofNat_mul, hv, hw, hx, hy] at h
    | some y =>
    cases hd : decodeFrom a (t :: rest) (i + 4) with
    | error e => simp [-UInt8.ofNat_add, -UInt8.ofNat_mul, hv, hw, hx, hy, hd] at h
    | ok bs' =>
      simp [-UInt8.ofNat_add, -UInt8.ofNat_mul, hv, hw, hx, hy, hd] at h
      subst h
      obtain ⟨j, hj⟩ := decodeFrom_sound g (t :: rest) (i + 4) bs' hd
      obtain ⟨hv1, rfl⟩ := sym_of_val hv
      obtain ⟨hw1, rfl⟩ := sym_of_val hw
      obtain ⟨hx1, rfl⟩ := sym_of_val hx
      obtain ⟨hy1, rfl⟩ := sym_of_val hy
      refine ⟨j, ?_⟩
      simp only [encode64, ← hj]
      rw [toNat_ofNat (by omega), toNat_ofNat (by omega), toNat_ofNat (by omega)]
      rw [show (v * 4 + w / 16) / 4 = v by omega,
        show (v * 4 + w / 16) % 4 * 16 + (w % 16 * 16 + x / 4) / 16 = w by omega,
        show (w % 16 * 16 + x / 4) % 16 * 4 + (x % 4 * 64 + y) / 64 = x by omega,
        show (x % 4 * 64 + y) % 64 = y by omega]
      rfl
  | [], i, bs, h => decodeSuffix_sound g (by simp) h
  | [_], i, bs, h => decodeSuffix_sound g (by simp) h
  | [_, _], i, bs, h => decodeSuffix_sound g (by simp) h
  | [_, _, _], i, bs, h => decodeSuffix_sound g (by simp) h
  | [_, _, _, _], i, bs, h => decodeSuffix_sound g (by simp) h

theorem encode64_length (a : Alphabet) : ∀ bs, (encode64 a bs).length % 4 = 0
  | [] => rfl
  | [_] => by simp [encode64]
  | [_, _] => by simp [encode64]
  | _ :: _ :: _ :: rest => by
    have := encode64_length a rest
    simp only [encode64, List.length_cons]; omega

/-- Every encoding consists of symbols and at most two of padding at the end. -/
theorem encode64_shape {a : Alphabet} : ∀ bs : List UInt8, ∃ (ns : List Nat) (k : Nat),
    k ≤ 2 ∧ (∀ n ∈ ns, n < 64) ∧ encode64 a bs = ns.map a.sym ++ List.replicate k pad
  | [] => ⟨[], 0, by omega, by simp, rfl⟩
  | [x] => ⟨[_, _], 2, by omega, by have := byte_lt x; simp; omega, rfl⟩
  | [x, y] => ⟨[_, _, _], 1, by omega, by have := byte_lt x; have := byte_lt y; simp; omega, rfl⟩
  | x :: y :: z :: rest => by
    obtain ⟨ns, k, hk, hns, he⟩ := encode64_shape (a := a) rest
    have := byte_lt x; have := byte_lt y; have := byte_lt z
    refine ⟨_ :: _ :: _ :: _ :: ns, k, hk, ?_, by rw [encode64, he]; rfl⟩
    intro n hn
    simp only [List.mem_cons] at hn
    rcases hn with rfl | rfl | rfl | rfl | hn
    · omega
    · omega
    · omega
    · omega
    · exact hns n hn

theorem badTrailing_none_of_code {a : Alphabet} (g : Good a) {l bs : List UInt8} {j : Nat}
    (h : l ++ List.replicate j pad = encode64 a bs) : badTrailing a l = none := by
  unfold badTrailing
  split
  · cases hl : l.getLast? with
    | none => rfl
    | some b =>
      simp only
      rw [if_neg]
      rintro ⟨hb, hv⟩
      obtain ⟨ns, k, -, hns, he⟩ := encode64_shape (a := a) bs
      have hm : b ∈ ns.map a.sym ++ List.replicate k pad := by
        rw [← he, ← h]; exact List.mem_append_left _ (List.mem_of_getLast? hl)
      rcases List.mem_append.1 hm with hm | hm
      · obtain ⟨n, hn, rfl⟩ := List.mem_map.1 hm
        rw [g.val_sym n (hns n hn)] at hv; cases hv
      · exact hb (List.mem_replicate.1 hm).2
  · rfl

theorem decode64_exact {a : Alphabet} (g : Good a) (l bs : List UInt8) :
    decode64 a l = .ok bs ↔ ∃ j, l ++ List.replicate j pad = encode64 a bs := by
  constructor
  · intro h
    unfold decode64 at h
    cases hb : badTrailing a l with
    | some b => rw [hb] at h; simp at h
    | none => rw [hb] at h; exact decodeFrom_sound g l 0 bs h
  · rintro ⟨j, h⟩
    unfold decode64
    rw [badTrailing_none_of_code g h]
    exact decodeFrom_encode g bs l 0 j h

/-! ### Falling back to the standard alphabet -/

set_option maxRecDepth 100000 in
theorem standard_sym : ∀ v, v < 64 →
    urlSafe.val (standard.sym v) = some v ∨
      (urlSafe.val (standard.sym v) = none ∧ (standard.sym v = 47 ∨ standard.sym v = 43)) := by decide

theorem standard_val {b : UInt8} {v : Nat} (h : standard.val b = some v) :
    urlSafe.val b = some v ∨ (urlSafe.val b = none ∧ (b = 47 ∨ b = 43)) := by
  obtain ⟨hv, rfl⟩ := sym_of_val h
  exact standard_sym v hv

/-- Either the same result or the error that triggers the second attempt. -/
def Falls {γ : Type} (r : γ) (x : Except DErr γ) : Prop :=
  x = .ok r ∨ ∃ i b, x = .error (.invalidByte i b) ∧ (b = 47 ∨ b = 43)

theorem suffixLoop_falls (i : Nat) : ∀ (l : List UInt8) (off pads first : Nat) (vals r : List Nat),
    suffixLoop standard i l off pads first vals = .ok r →
    Falls r (suffixLoop urlSafe i l off pads first vals)
  | [], _, _, _, _, _, h => by cases h; exact .inl rfl
  | b :: rest, off, pads, first, vals, r, h => by
    unfold suffixLoop at h ⊢
    by_cases hb : b = pad
    · rw [if_pos hb] at h ⊢
      by_cases ho : off < 2
      · rw [if_pos ho] at h; cases h
      · rw [if_neg ho] at h ⊢
        exact suffixLoop_falls i rest _ _ _ _ _ h
    · rw [if_neg hb] at h ⊢
      by_cases hp : pads > 0
      · rw [if_pos hp] at h; cases h
      · rw [if_neg hp] at h ⊢
        cases hv : standard.val b with
        | none => rw [hv] at h; cases h
        | some v =>
          rw [hv] at h
          rcases standard_val hv with hu | ⟨hu, hb'⟩
          · rw [hu]
            exact suffixLoop_falls i rest _ _ _ _ _ h
          · rw [hu]
            exact .inr ⟨_, _, rfl, hb'⟩

theorem decodeSuffix_falls {l bs : List UInt8} {i : Nat} (h : decodeSuffix standard l i = .ok bs) :
    Falls bs (decodeSuffix urlSafe l i) := by
  unfold decodeSuffix at h
  cases hs : suffixLoop standard i l 0 0 0 [] with
  | error e => rw [hs] at h; cases h
  | ok vals =>
    rw [hs] at h
    rcases suffixLoop_falls i _ _ _ _ _ _ hs with hu | ⟨k, b, hu, hb⟩
    · left
      unfold decodeSuffix
      rw [hu]
      match vals, h with
      | [], h => exact h
      | [_], h => exact h
      | [_, w], h =>
        simp only at h ⊢
        by_cases hw : w % 16 = 0
        · rw [if_pos hw] at h ⊢; exact h
        · rw [if_neg hw] at h; cases h
      | [_, _, x], h =>
        simp only at h ⊢
        by_cases hw : x % 4 = 0
        · rw [if_pos hw] at h ⊢; exact h
        · rw [if_neg hw] at h; cases h
      | _ :: _ :: _ :: _ :: _, h => exact h
    · right
      unfold decodeSuffix
      rw [hu]
      exact ⟨k, b, rfl, hb⟩

theorem decodeFrom_falls : ∀ (l : List UInt8) (i : Nat) (bs : List UInt8),
    decodeFrom standard l i = .ok bs → Falls bs (decodeFrom urlSafe l i)
  | p :: q :: r :: s :: t :: rest, i, bs, h => by
    simp only [decodeFrom] at h ⊢
    cases hv : standard.val p with
    | none => simp [hv] at h
    | some v =>
    cases hw : standard.val q with
    | none => simp [hv, hw] at h
    | some w =>
    cases hx : standard.val r with
    | none => simp [hv, hw, hx] at h
    | some x =>
    cases hy : standard.val s with
    | none => simp [hv, hw, hx, hy] at h
    | some y =>
    cases hd : decodeFrom standard (t :: rest) (i + 4) with
    | error e => simp [hv, hw, hx, hy, hd] at h
    | ok bs' =>
      simp only [hv, hw, hx, hy, hd] at h
      cases h
      rcases standard_val hv with h1 | ⟨h1, hb⟩
      · rcases standard_val hw with h2 | ⟨h2, hb⟩
        · rcases standard_val hx with h3 | ⟨h3, hb⟩
          · rcases standard_val hy with h4 | ⟨h4, hb⟩
            · simp only [h1, h2, h3, h4]
              rcases decodeFrom_falls (t :: rest) (i + 4) bs' hd with h5 | ⟨k, b, h5, hb⟩
              · rw [h5]; exact .inl rfl
              · rw [h5]; exact .inr ⟨k, b, rfl, hb⟩
            · simp only [h1, h2, h3, h4]; exact .inr ⟨_, _, rfl, hb⟩
          · simp only [h1, h2, h3]; exact .inr ⟨_, _, rfl, hb⟩
        · simp only [h1, h2]; exact .inr ⟨_, _, rfl, hb⟩
      · simp only [h1]; exact .inr ⟨_, _, rfl, hb⟩
  | [], _, _, h => decodeSuffix_falls h
  | [_], _, _, h => decodeSuffix_falls h
  | [_, _], _, _, h => decodeSuffix_falls h
  | [_, _, _], _, _, h => decodeSuffix_falls h
  | [_, _, _, _], _, _, h => decodeSuffix_falls h

theorem decode64_falls {l bs : List UInt8} (h : decode64 standard l = .ok bs) :
    Falls bs (decode64 urlSafe l) := by
  unfold decode64 at h ⊢
  cases hb : badTrailing standard l with
  | some b => rw [hb] at h; cases h
  | none =>
    rw [hb] at h
    cases hu : badTrailing urlSafe l with
    | none => exact decodeFrom_falls l 0 bs h
    | some b =>
      refine .inr ⟨_, _, rfl, ?_⟩
      unfold badTrailing at hb hu
      by_cases hl : l.length % 4 = 1
      · rw [if_pos hl] at hb hu
        cases hg : l.getLast? with
        | none => rw [hg] at hu; cases hu
        | some c =>
          rw [hg] at hb hu
          simp only at hb hu
          by_cases hc : c ≠ pad ∧ urlSafe.val c = none
          · rw [if_pos hc] at hu
            cases hu
            cases hv : standard.val b with
            | none => rw [if_pos ⟨hc.1, hv⟩] at hb; cases hb
            | some v =>
              rcases standard_val hv with h1 | ⟨-, h1⟩
              · rw [hc.2] at h1; cases h1
              · exact h1
          · rw [if_neg hc] at hu; cases hu
      · rw [if_neg hl] at hu; cases hu

theorem decodeEither_iff (l bs : List UInt8) :
    decodeEither l = .ok bs ↔ decode64 urlSafe l = .ok bs ∨ decode64 standard l = .ok bs := by
  constructor
  · intro h
    unfold decodeEither at h
    cases hu : decode64 urlSafe l with
    | ok x => rw [hu] at h; exact .inl h
    | error e =>
      rw [hu] at h
      cases e with
      | invalidByte i b =>
        simp only at h
        by_cases hb : b = 47 ∨ b = 43
        · rw [if_pos hb] at h; exact .inr h
        · rw [if_neg hb] at h; cases h
      | invalidLength n => cases h
      | invalidLastSymbol i b => cases h
  · rintro (h | h)
    · unfold decodeEither; rw [h]
    · unfold decodeEither
      rcases decode64_falls h with hu | ⟨i, b, hu, hb⟩
      · rw [hu]
      · rw [hu]; simp only; rw [if_pos hb, h]

/-! ### Hexadecimal digits -/

/-- ASCII lower case. -/
def lower (b : UInt8) : UInt8 := if 65 ≤ b.toNat ∧ b.toNat ≤ 90 then UInt8.ofNat (b.toNat + 32) else b

set_option maxRecDepth 100000 in
theorem hexVal_table : ∀ n, n < 256 → ∀ v, v < 16 →
    (hexVal (UInt8.ofNat n) = some v ↔ lower (UInt8.ofNat n) = hexDigit v) := by decide

theorem hexVal_lt {b : UInt8} {v : Nat} (h : hexVal b = some v) : v < 16 := by
  unfold hexVal at h
  split at h
  · cases h; omega
  · split at h
    · cases h; omega
    · split at h
      · cases h; omega
      · cases h

theorem hexVal_iff {b : UInt8} {v : Nat} (hv : v < 16) : hexVal b = some v ↔ lower b = hexDigit v := by
  have := hexVal_table b.toNat (byte_lt b) v hv
  rwa [UInt8.ofNat_toNat] at this

theorem hexPairs_iff : ∀ (l bs : List UInt8) (i : Nat), l.length % 2 = 0 →
    (hexPairs l i = .ok bs ↔ l.map lower = bs.flatMap hexByte)
  | [], bs, i, _ => by
    constructor
    · intro h; cases h; rfl
    · intro h
      cases bs with
      | nil => rfl
      | cons b bs => simp [hexByte] at h
  | [_], _, _, h => by simp at h
  | p :: q :: rest, bs, i, hl => by
    have hl' : rest.length % 2 = 0 := by simp only [List.length_cons] at hl; omega
    constructor
    · intro h
      simp only [hexPairs] at h
      cases hp : hexVal p with
      | none => simp [hp] at h
      | some v =>
      cases hq : hexVal q with
      | none => simp [hp, hq] at h
      | some w =>
      cases hr : hexPairs rest (i + 2) with
      | error e => simp [hp, hq, hr] at h
      | ok bs' =>
        simp only [hp, hq, hr] at h
        cases h
        have hv := hexVal_lt hp
        have hw := hexVal_lt hq
        have ih := (hexPairs_iff rest bs' (i + 2) hl').1 hr
        rw [List.map_cons, List.map_cons, ih, (hexVal_iff hv).1 hp, (hexVal_iff hw).1 hq]
        simp only [List.flatMap_cons, hexByte]
        rw [toNat_ofNat (by omega), show (v * 16 + w) / 16 = v by omega, show (v * 16 + w) % 16 = w by omega]
        rfl
    · intro h
      cases bs with
      | nil => simp at h
      | cons b bs =>
        have hb := byte_lt b
        simp only [List.map_cons, List.flatMap_cons, hexByte, List.cons_append, List.nil_append,
          List.cons.injEq] at h
        obtain ⟨h1, h2, h3⟩ := h
        simp only [hexPairs, (hexVal_iff (show b.toNat / 16 < 16 by omega)).2 h1,
          (hexVal_iff (show b.toNat % 16 < 16 by omega)).2 h2, (hexPairs_iff rest bs (i + 2) hl').2 h3]
        rw [ofNat_eq (x := b) (by omega)]

theorem hexBytes_length (bs : List UInt8) : (bs.flatMap hexByte).length % 2 = 0 := by
  induction bs with
  | nil => rfl
  | cons b bs ih => simp only [List.flatMap_cons, List.length_append, hexByte, List.length_cons,
      List.length_nil]; omega

theorem hexDecode_iff (l bs : List UInt8) :
    hexDecode l = .ok bs ↔ l.map lower = bs.flatMap hexByte := by
  unfold hexDecode
  by_cases h : l.length % 2 = 1
  · rw [if_pos h]
    constructor
    · intro h'; cases h'
    · intro h'
      have := hexBytes_length bs
      rw [← h', List.length_map] at this; omega
  · rw [if_neg h]
    exact hexPairs_iff l bs 0 (by omega)

theorem foldl_hex (bs acc : List UInt8) :
    bs.foldl (fun acc b => acc ++ hexByte b) acc = acc ++ bs.flatMap hexByte := by
  induction bs generalizing acc with
  | nil => simp
  | cons b bs ih => rw [List.foldl_cons, ih, List.flatMap_cons, List.append_assoc]

set_option maxRecDepth 100000 in
theorem lower_hexDigit : ∀ n, n < 16 → lower (hexDigit n) = hexDigit n := by decide

theorem lower_hexBytes (bs : List UInt8) : (bs.flatMap hexByte).map lower = bs.flatMap hexByte := by
  induction bs with
  | nil => rfl
  | cons b bs ih =>
    have := byte_lt b
    simp only [List.flatMap_cons, List.map_append, ih, hexByte, List.map_cons, List.map_nil]
    rw [lower_hexDigit _ (by omega), lower_hexDigit _ (by omega)]

/-! ### ASCII text -/

set_option maxRecDepth 100000 in
theorem encode_ascii_char : ∀ n, n < 128 →
    String.utf8EncodeChar (Char.ofNat n) = [UInt8.ofNat n] := by decide

theorem encode_asciiText (l : List UInt8) (h : ∀ b ∈ l, b.toNat < 128) :
    Trunc.encode (asciiText l) = l := by
  induction l with
  | nil => rfl
  | cons b l ih =>
    have h1 := encode_ascii_char b.toNat (h b List.mem_cons_self)
    have h2 := ih (fun c hc => h c (List.mem_cons_of_mem _ hc))
    unfold Trunc.encode asciiText at h2 ⊢
    rw [List.map_cons, List.flatMap_cons, h1, h2, UInt8.ofNat_toNat]
    rfl

set_option maxRecDepth 100000 in
theorem sym_ascii : ∀ n, n < 64 → (urlSafe.sym n).toNat < 128 := by decide

theorem encode64_ascii (bs : List UInt8) : ∀ b ∈ encode64 urlSafe bs, b.toNat < 128 := by
  intro b hb
  obtain ⟨ns, k, -, hns, he⟩ := encode64_shape (a := urlSafe) bs
  rw [he] at hb
  rcases List.mem_append.1 hb with hb | hb
  · obtain ⟨n, hn, rfl⟩ := List.mem_map.1 hb
    exact sym_ascii n (hns n hn)
  · rw [(List.mem_replicate.1 hb).2]; decide

set_option maxRecDepth 100000 in
theorem hexDigit_ascii : ∀ n, n < 16 → (hexDigit n).toNat < 128 := by decide

theorem hexBytes_ascii (bs : List UInt8) : ∀ b ∈ bs.flatMap hexByte, b.toNat < 128 := by
  intro b hb
  obtain ⟨c, -, hb⟩ := List.mem_flatMap.1 hb
  have := byte_lt c
  simp only [hexByte, List.mem_cons, List.not_mem_nil, or_false] at hb
  rcases hb with rfl | rfl
  · exact hexDigit_ascii _ (by omega)
  · exact hexDigit_ascii _ (by omega)

end PC.Bytes
