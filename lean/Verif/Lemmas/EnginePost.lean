import Verif.Lemmas.EngineAt
import Verif.Spec.Collections
import Verif.Spec.Conforms

/-
What a validator's outcome satisfies: outputs a predicate, line errors a relation between the input, the error's
location and the value the error reports.  One lemma for each combinator.
-/

namespace PC.Engine
open PC.Comb PC.Coll PC.Union PC.Fields PC.Lookup
variable {α : Type}

/-- The run's strictness is `m` and partial mode is off. -/
structure Keeps (m : Option Bool) (st : VState α) : Prop where
  strict : st.extra.strict = m
  off : st.allowPartial = .off

/-- An outcome: a value satisfying `C`, or at least one line error, all related to the input by `L`, or an exception. -/
def Out (C : α → Prop) (L : List LocItem → α → Prop) : ValResult α α → Prop
  | .ok y => C y
  | .error (.lineErrors es) => es ≠ [] ∧ ∀ e ∈ es, L e.loc.toPy e.input
  | .error (.internal _) => True
  | .error .omitted => False
  | .error .useDefault => False

/-- Every outcome of `v` satisfies `C` or `L`. -/
def Post (m : Option Bool) (C : α → Prop) (L : α → List LocItem → α → Prop) (v : Validator α α) : Prop :=
  ∀ a st, Keeps m st → Keeps m (v a st).2 ∧ Out C (L a) (v a st).1

variable {m : Option Bool} {C C' : α → Prop} {L L' : α → List LocItem → α → Prop}

theorem toPy_withOuter (e : LineError α) (x : LocItem) : (e.withOuterLocation x).loc.toPy = x :: e.loc.toPy := by
  obtain ⟨t, loc, i⟩ := e
  cases loc <;> simp [LineError.withOuterLocation, Location.withOuter, Location.newSome, Location.toPy]

theorem input_withOuter (e : LineError α) (x : LocItem) : (e.withOuterLocation x).input = e.input := rfl

theorem Out.new {t : ErrType} {a : α} {L : List LocItem → α → Prop} (h : L [] a) :
    Out C L (.error (.new t a)) := by
  refine ⟨List.cons_ne_nil _ _, fun e he => ?_⟩
  rw [List.mem_singleton] at he
  subst he
  exact h

theorem Out.newWithLoc {t : ErrType} {a : α} {x : LocItem} {L : List LocItem → α → Prop} (h : L [x] a) :
    Out C L (.error (.newWithLoc t a x)) := by
  refine ⟨List.cons_ne_nil _ _, fun e he => ?_⟩
  rw [List.mem_singleton] at he
  subst he
  exact h

theorem Out.imp {D : α → Prop} {L M : List LocItem → α → Prop} {r : ValResult α α} (h : Out C L r) (hC : ∀ y, C y → D y)
    (hL : ∀ p z, L p z → M p z) : Out D M r := by
  match r, h with
  | .ok y, h => exact hC y h
  | .error (.lineErrors es), h => exact ⟨h.1, fun e he => hL _ _ (h.2 e he)⟩
  | .error (.internal _), _ => trivial

theorem Out.imp_error {D : α → Prop} {M : List LocItem → α → Prop} {e : ValError α}
    (h : Out C M (.error e)) : Out D M (.error e) := by
  match e, h with
  | .lineErrors es, h => exact h
  | .internal _, _ => trivial

theorem Keeps.floor {st : VState α} (h : Keeps m st) (e : Exactness) : Keeps m (st.floorExactness e) := by
  unfold VState.floorExactness
  split <;> try exact h
  · split
    · exact ⟨h.1, h.2⟩
    · exact h
  · exact ⟨h.1, h.2⟩

theorem Keeps.setPartial {st : VState α} (h : Keeps m st) : Keeps m (setPartial .off false st) := ⟨h.1, rfl⟩

theorem post_leaf (l : Leaf α) (hC : ∀ x y ex, l.check (m.getD l.strict) x = .ok (y, ex) → C' y)
    (hhere : ∀ a, L' a [] a) : Post m C' L' l.validate := by
  intro a st h
  simp only [Leaf.validate, VState.strictOr, h.strict]
  cases hc : l.check (m.getD l.strict) a with
  | error t => exact ⟨h, Out.new (hhere a)⟩
  | ok p => exact ⟨h.floor _, hC _ _ _ hc⟩

theorem post_nullable {isNone : α → Bool} {noneV : α} {v : Validator α α} (h : Post m C L v) (h0 : C' noneV)
    (h1 : ∀ y, C y → C' y) (hL : ∀ a p z, L a p z → L' a p z) : Post m C' L' (nullable isNone noneV v) := by
  intro a st hk
  simp only [nullable]
  split
  · exact ⟨hk, h0⟩
  · exact ⟨(h a st hk).1, (h a st hk).2.imp h1 (hL a)⟩

/-! ### Lists -/

/-- The entries left to visit are items of the input at the positions they claim. -/
def Located {ι : Type} (items : List ι) (entries : List (Nat × Bool × ι)) : Prop :=
  ∀ x ∈ entries, items[x.1]? = some x.2.2 ∧ x.2.1 = false

theorem located_enumerate {ι : Type} (items : List ι) : Located items (enumerateLastPartial .off 0 items) := by
  have key : ∀ (xs : List ι) (k : Nat), ∀ x ∈ enumerateLastPartial .off k xs, k ≤ x.1 ∧
      xs[x.1 - k]? = some x.2.2 ∧ x.2.1 = false := by
    intro xs
    induction xs with
    | nil => intro k x h; simp [enumerateLastPartial] at h
    | cons a xs ih =>
      intro k x h
      simp only [enumerateLastPartial, List.mem_cons] at h
      rcases h with rfl | h
      · simp [PartialMode.isActive]
      · obtain ⟨h1, h2, h3⟩ := ih (k + 1) x h
        refine ⟨by omega, ?_, h3⟩
        have : x.1 - k = (x.1 - (k + 1)) + 1 := by omega
        rw [this, List.getElem?_cons_succ, h2]
  intro x h
  obtain ⟨_, h2, h3⟩ := key items 0 x h
  exact ⟨h2, h3⟩

theorem minLengthCheck_ok {input : α} {ft : String} {mn : Option Nat} {n : Nat}
    (h : minLengthCheck input ft mn n = .ok ()) : FitsMin mn n := by
  unfold minLengthCheck at h
  intro m hm
  subst hm
  by_cases hlt : n < m
  · simp [Option.filter, hlt] at h
  · omega

theorem minLengthCheck_err {input : α} {ft : String} {mn : Option Nat} {n : Nat} {e : ValError α}
    (h : minLengthCheck input ft mn n = .error e) : ∃ t, e = .new t input := by
  unfold minLengthCheck at h
  split at h
  · cases h; exact ⟨_, rfl⟩
  · cases h

theorem lengthCheck_ok {input : α} {ft : String} {mn mx : Option Nat} {n : Nat}
    (h : lengthCheck input ft mn mx n = .ok ()) : FitsMin mn n ∧ FitsMax mx n := by
  unfold lengthCheck at h
  constructor
  · intro m hm
    subst hm
    by_cases hlt : n < m
    · simp [Option.filter, hlt] at h
    · omega
  · intro m hm
    subst hm
    by_cases hlt : m < n
    · split at h
      · cases h
      · simp [Option.filter, hlt] at h
    · omega

theorem lengthCheck_err {input : α} {ft : String} {mn mx : Option Nat} {n : Nat} {e : ValError α}
    (h : lengthCheck input ft mn mx n = .error e) : ∃ t, e = .new t input := by
  unfold lengthCheck at h
  split at h
  · cases h; exact ⟨_, rfl⟩
  · split at h
    · cases h; exact ⟨_, rfl⟩
    · cases h

/-- The outcome of a loop that collects values and errors. -/
def LoopOut (Ok : List α → Prop) (L : List LocItem → α → Prop) : ValResult α (List α) → Prop
  | .ok ys => Ok ys
  | .error (.lineErrors es) => es ≠ [] ∧ ∀ e ∈ es, L e.loc.toPy e.input
  | .error (.internal _) => True
  | .error .omitted => False
  | .error .useDefault => False

/-- The errors collected so far are related to the input. -/
def Errs (L : List LocItem → α → Prop) (es : List (LineError α)) : Prop := ∀ e ∈ es, L e.loc.toPy e.input

theorem Errs.append {L : List LocItem → α → Prop} {es fs : List (LineError α)} (h : Errs L es) (h' : Errs L fs) :
    Errs L (es ++ fs) := by
  intro e he
  rcases List.mem_append.mp he with he | he
  · exact h e he
  · exact h' e he

theorem Errs.outer {M : List LocItem → α → Prop} {L : List LocItem → α → Prop} {es : List (LineError α)} {x : LocItem}
    (h : ∀ e ∈ es, M e.loc.toPy e.input) (hL : ∀ p z, M p z → L (x :: p) z) :
    Errs L (es.map (·.withOuterLocation x)) := by
  intro e he
  obtain ⟨e', he', rfl⟩ := List.mem_map.mp he
  rw [toPy_withOuter, input_withOuter]
  exact hL _ _ (h e' he')

theorem ne_nil_append_map {β γ : Type} {es : List γ} {fs : List β} {f : β → γ} (h : fs ≠ []) : es ++ fs.map f ≠ [] := by
  cases fs with
  | nil => exact absurd rfl h
  | cons => simp

theorem mlc_incr {c c' : MaxLengthCheck α} (h : c.incr = .ok c') :
    c'.maxLength = c.maxLength ∧ c'.input = c.input ∧
      (∀ k, (∀ mx, c.maxLength = some mx → k ≤ c.current ∧ c.current ≤ mx) →
        ∀ mx, c'.maxLength = some mx → k + 1 ≤ c'.current ∧ c'.current ≤ mx) := by
  unfold MaxLengthCheck.incr at h
  cases hm : c.maxLength with
  | none =>
    rw [hm] at h
    cases h
    exact ⟨hm, rfl, fun k _ mx hmx => (by rw [hm] at hmx; cases hmx)⟩
  | some mx0 =>
    rw [hm] at h
    dsimp only at h
    split at h
    · cases h
    · cases h
      refine ⟨rfl, rfl, fun k hk mx hmx => ?_⟩
      dsimp only at hmx ⊢
      cases hmx
      have := hk mx0 rfl
      omega

theorem mlc_incr_err {c : MaxLengthCheck α} {e : ValError α} (h : c.incr = .error e) : ∃ t, e = .new t c.input := by
  unfold MaxLengthCheck.incr at h
  split at h
  · split at h
    · cases h; exact ⟨_, rfl⟩
    · cases h
  · cases h

theorem post_vecLoop {v : Validator α α} (hv : Post m C L v) (ff : Bool) (a : α) (items : List (Except PyErr α))
    (M : List LocItem → α → Prop) (hhere : M [] a)
    (hiter : ∀ (i : Nat) e, items[i]? = some (.error e) → M [.i i] a)
    (hitem : ∀ (i : Nat) x p z, items[i]? = some (.ok x) → L x p z → M (.i i :: p) z) :
    ∀ (entries : List (Nat × Bool × Except PyErr α)) (mlc : MaxLengthCheck α) (out : List α)
      (errs : List (LineError α)) (st : VState α), Located items entries → mlc.input = a →
      (∀ mx, mlc.maxLength = some mx → out.length ≤ mlc.current ∧ mlc.current ≤ mx) → (∀ y ∈ out, C y) → Errs M errs →
      Keeps m st → Keeps m (vecLoop v .off ff entries mlc out errs st).state ∧
      LoopOut (fun ys => (∀ y ∈ ys, C y) ∧ FitsMax mlc.maxLength ys.length) M
        (vecLoop v .off ff entries mlc out errs st).result := by
  intro entries
  induction entries with
  | nil =>
    intro mlc out errs st _ hin hcur hout herr hk
    simp only [vecLoop]
    refine ⟨hk, ?_⟩
    cases errs with
    | nil => exact ⟨hout, fun mx hmx => (by have := hcur mx hmx; omega)⟩
    | cons e es => exact ⟨List.cons_ne_nil _ _, herr⟩
  | cons x rest ih =>
    intro mlc out errs st hloc hin hcur hout herr hk
    obtain ⟨i, last, item⟩ := x
    obtain ⟨hx, hl⟩ := hloc _ (List.mem_cons_self ..)
    dsimp only at hx hl
    subst hl
    have hrest : Located items rest := fun y hy => hloc y (List.mem_cons_of_mem _ hy)
    simp only [vecLoop]
    cases item with
    | error e =>
      refine ⟨hk.setPartial, ?_⟩
      subst hin
      exact ⟨List.cons_ne_nil _ _, fun e' he => (by
        rw [List.mem_singleton] at he; subst he; exact hiter i e hx)⟩
    | ok x =>
      dsimp only
      obtain ⟨k1, o1⟩ := hv x _ hk.setPartial
      generalize hr : v x (setPartial .off false st) = r at k1 o1
      obtain ⟨r, st1⟩ := r
      dsimp only at k1 o1 ⊢
      have hcount : ∀ (mlc1 : MaxLengthCheck α), mlc.incr = .ok mlc1 → mlc1.maxLength = mlc.maxLength ∧ mlc1.input = a ∧
          ∀ mx, mlc1.maxLength = some mx → out.length + 1 ≤ mlc1.current ∧ mlc1.current ≤ mx := by
        intro mlc1 h1
        obtain ⟨g1, g2, g3⟩ := mlc_incr h1
        exact ⟨g1, g2.trans hin, g3 out.length hcur⟩
      have hstop : ∀ e, mlc.incr = .error e →
          LoopOut (fun ys => (∀ y ∈ ys, C y) ∧ FitsMax mlc.maxLength ys.length) M (.error e) := by
        intro e he
        obtain ⟨t, rfl⟩ := mlc_incr_err he
        exact ⟨List.cons_ne_nil _ _, fun e' he => (by
          rw [List.mem_singleton] at he; subst he; rw [hin]; exact hhere)⟩
      match r, o1 with
      | .ok y, o1 =>
        dsimp only
        cases hm : mlc.incr with
        | error e => exact ⟨k1, hstop e hm⟩
        | ok mlc1 =>
          obtain ⟨g1, g2, g3⟩ := hcount mlc1 hm
          dsimp only
          rw [← g1]
          refine ih mlc1 (out ++ [y]) errs st1 hrest g2 (fun mx hmx => ?_) (fun w hw => ?_) herr k1
          · have := g3 mx hmx
            rw [List.length_append, List.length_singleton]
            exact this
          · rcases List.mem_append.mp hw with hw | hw
            · exact hout w hw
            · rw [List.mem_singleton.mp hw]; exact o1
      | .error (.lineErrors es), o1 =>
        dsimp only
        cases hm : mlc.incr with
        | error e => exact ⟨k1, hstop e hm⟩
        | ok mlc1 =>
          obtain ⟨g1, g2, g3⟩ := hcount mlc1 hm
          dsimp only
          simp only [Bool.false_eq_true, if_false]
          have he : Errs M (errs ++ es.map (·.withOuterLocation (.i i))) :=
            herr.append (Errs.outer o1.2 (fun p z h => hitem i x p z hx h))
          split
          · exact ⟨k1, ne_nil_append_map o1.1, he⟩
          · rw [← g1]
            exact ih mlc1 out _ st1 hrest g2 (fun mx hmx => (by have := g3 mx hmx; omega)) hout he k1
      | .error (.internal e), _ => exact ⟨k1, trivial⟩

theorem post_list (l : ListV α) (v : Validator α α) (hv : Post m C L v)
    (hC : ∀ ys, (∀ y ∈ ys, C y) → FitsMin l.minLength ys.length → FitsMax l.maxLength ys.length → C' (l.build ys))
    (hhere : ∀ a, L' a [] a)
    (herr : ∀ strict a e, l.asList strict a = .error e → Out C' (L' a) (.error e))
    (hiter : ∀ strict a seq ex (i : Nat) e, l.asList strict a = .ok (seq, ex) → seq.items[i]? = some (.error e) →
      L' a [.i i] a)
    (hitem : ∀ strict a seq ex (i : Nat) x p z, l.asList strict a = .ok (seq, ex) → seq.items[i]? = some (.ok x) →
      L x p z → L' a (.i i :: p) z) :
    Post m C' L' (ListV.validate { l with item := some v }) := by
  intro a st hk
  simp only [ListV.validate]
  cases hl : l.asList (st.strictOr l.strict) a with
  | error e => exact ⟨hk, herr _ _ _ hl⟩
  | ok q =>
    obtain ⟨seq, ex⟩ := q
    dsimp only [validateIterToVec]
    have hk2 := hk.floor ex
    rw [hk2.off]
    obtain ⟨h1, h2⟩ := post_vecLoop hv l.failFast a seq.items (L' a) (hhere a)
      (fun i e h => hiter _ _ _ _ i e hl h) (fun i x p z h hx => hitem _ _ _ _ i x p z hl h hx)
      (enumerateLastPartial .off 0 seq.items) (MaxLengthCheck.new l.maxLength "List" a seq.len) [] []
      (st.floorExactness ex) (located_enumerate _) rfl
      (fun mx hmx => ⟨Nat.le_refl _, Nat.zero_le _⟩) (fun y hy => (by cases hy)) (fun e he => (by cases he)) hk2
    generalize vecLoop v _ _ _ _ _ _ _ = run at h1 h2
    obtain ⟨res, st1, un⟩ := run
    dsimp only at h1 h2 ⊢
    match res, h2 with
    | .ok ys, h2 =>
      dsimp only
      cases hmn : minLengthCheck a "List" l.minLength ys.length with
      | error e =>
        obtain ⟨t, rfl⟩ := minLengthCheck_err hmn
        exact ⟨h1, Out.new (hhere a)⟩
      | ok u => exact ⟨h1, hC ys h2.1 (minLengthCheck_ok hmn) h2.2⟩
    | .error (.lineErrors es), h2 => exact ⟨h1, h2⟩
    | .error (.internal e), _ => exact ⟨h1, trivial⟩

/-! ### Sets -/

theorem add_ok {h : Hashing α} {s s' : List α} {x : α} (ha : h.add s x = .ok s') (hs : SetOk h s)
    (hC : ∀ y ∈ s, C y) (hx : C x) : SetOk h s' ∧ ∀ y ∈ s', C y := by
  unfold Hashing.add at ha
  cases hh : h.hashErr x with
  | some e => rw [hh] at ha; cases ha
  | none =>
    rw [hh] at ha
    dsimp only at ha
    split at ha
    · cases ha; exact ⟨hs, hC⟩
    · rename_i hany
      cases ha
      refine ⟨⟨fun y hy => ?_, ?_⟩, fun y hy => ?_⟩
      · rcases List.mem_append.mp hy with hy | hy
        · exact hs.1 y hy
        · rw [List.mem_singleton.mp hy]; exact hh
      · rw [List.pairwise_append]
        refine ⟨hs.2, List.pairwise_singleton _ _, fun y hy z hz => ?_⟩
        rw [List.mem_singleton.mp hz]
        cases hsame : h.same y x with
        | false => rfl
        | true => exact absurd (List.any_eq_true.mpr ⟨y, hy, hsame⟩) hany
      · rcases List.mem_append.mp hy with hy | hy
        · exact hC y hy
        · rw [List.mem_singleton.mp hy]; exact hx

theorem post_setLoop (hs : Hashing α) {v : Validator α α} (hv : Post m C L v) (hLhere : ∀ x, L x [] x) (ft : String)
    (mx : Option Nat) (ff : Bool) (a : α) (items : List (Except PyErr α)) (M : List LocItem → α → Prop) (hhere : M [] a)
    (hiter : ∀ (i : Nat) e, items[i]? = some (.error e) → M [.i i] a)
    (hitem : ∀ (i : Nat) x p z, items[i]? = some (.ok x) → L x p z → M (.i i :: p) z) :
    ∀ (entries : List (Nat × Bool × Except PyErr α)) (set : List α) (errs : List (LineError α)) (st : VState α),
      Located items entries → (∀ y ∈ set, C y) → SetOk hs set → FitsMax mx set.length → Errs M errs → Keeps m st →
      Keeps m (setLoop hs v a ft mx .off ff entries set errs st).state ∧
      LoopOut (fun ys => (∀ y ∈ ys, C y) ∧ SetOk hs ys ∧ FitsMax mx ys.length) M
        (setLoop hs v a ft mx .off ff entries set errs st).result := by
  intro entries
  induction entries with
  | nil =>
    intro set errs st _ hout hset hmx herr hk
    simp only [setLoop]
    refine ⟨hk, ?_⟩
    cases errs with
    | nil => exact ⟨hout, hset, hmx⟩
    | cons e es => exact ⟨List.cons_ne_nil _ _, herr⟩
  | cons x rest ih =>
    intro set errs st hloc hout hset hmx herr hk
    obtain ⟨i, last, item⟩ := x
    obtain ⟨hx, hl⟩ := hloc _ (List.mem_cons_self ..)
    dsimp only at hx hl
    subst hl
    have hrest : Located items rest := fun y hy => hloc y (List.mem_cons_of_mem _ hy)
    simp only [setLoop]
    cases item with
    | error e =>
      exact ⟨hk.setPartial, List.cons_ne_nil _ _, fun e' he => (by
        rw [List.mem_singleton] at he; subst he; exact hiter i e hx)⟩
    | ok x =>
      dsimp only
      have hadd : Keeps m (validateAdd hs v set x (setPartial .off false st)).2 ∧
          LoopOut (fun ys => (∀ y ∈ ys, C y) ∧ SetOk hs ys) (L x)
            (validateAdd hs v set x (setPartial .off false st)).1 := by
        simp only [validateAdd]
        obtain ⟨k1, o1⟩ := hv x _ hk.setPartial
        generalize v x (setPartial .off false st) = r at k1 o1
        obtain ⟨r, st1⟩ := r
        dsimp only at k1 o1 ⊢
        match r, o1 with
        | .ok y, o1 =>
          dsimp only
          cases ha : hs.add set y with
          | ok s' =>
            obtain ⟨g1, g2⟩ := add_ok ha hset hout o1
            exact ⟨k1, g2, g1⟩
          | error e =>
            obtain ⟨te, e⟩ := e
            dsimp only
            split
            · exact ⟨k1, List.cons_ne_nil _ _, fun e' he => (by
                rw [List.mem_singleton] at he; subst he; exact hLhere x)⟩
            · exact ⟨k1, trivial⟩
        | .error (.lineErrors es), o1 => exact ⟨k1, o1⟩
        | .error (.internal e), _ => exact ⟨k1, trivial⟩
      generalize validateAdd hs v set x (setPartial .off false st) = r at hadd
      obtain ⟨r, st1⟩ := r
      obtain ⟨k1, o1⟩ := hadd
      dsimp only at k1 o1 ⊢
      match r, o1 with
      | .ok set1, o1 =>
        dsimp only
        cases hf : mx.filter (· < set1.length) with
        | some mm =>
          exact ⟨k1, List.cons_ne_nil _ _, fun e' he => (by rw [List.mem_singleton] at he; subst he; exact hhere)⟩
        | none =>
          have hfit : FitsMax mx set1.length := by
            intro k hk
            subst hk
            by_cases hlt : k < set1.length
            · simp [Option.filter, hlt] at hf
            · omega
          dsimp only
          split
          · rename_i hc
            refine ⟨k1, ?_, herr⟩
            intro h
            subst h
            simp at hc
          · exact ih set1 errs st1 hrest o1.1 o1.2 hfit herr k1
      | .error (.lineErrors es), o1 =>
        dsimp only
        simp only [Bool.false_eq_true, if_false]
        have he : Errs M (errs ++ es.map (·.withOuterLocation (.i i))) :=
          herr.append (Errs.outer o1.2 (fun p z h => hitem i x p z hx h))
        split
        · exact ⟨k1, ne_nil_append_map o1.1, he⟩
        · exact ih set _ st1 hrest hout hset hmx he k1
      | .error (.internal e), _ => exact ⟨k1, trivial⟩

theorem post_set (s : SetV α) (v : Validator α α) (hv : Post m C L v) (hLhere : ∀ x, L x [] x)
    (hC : ∀ ys, (∀ y ∈ ys, C y) → SetOk s.hashing ys → FitsMin s.minLength ys.length → FitsMax s.maxLength ys.length →
      C' (s.build ys))
    (hhere : ∀ a, L' a [] a)
    (herr : ∀ strict a e, s.asSet strict a = .error e → Out C' (L' a) (.error e))
    (hiter : ∀ strict a seq ex (i : Nat) e, s.asSet strict a = .ok (seq, ex) → seq.items[i]? = some (.error e) →
      L' a [.i i] a)
    (hitem : ∀ strict a seq ex (i : Nat) x p z, s.asSet strict a = .ok (seq, ex) → seq.items[i]? = some (.ok x) →
      L x p z → L' a (.i i :: p) z) :
    Post m C' L' (SetV.validate { s with item := v }) := by
  intro a st hk
  simp only [SetV.validate]
  cases hl : s.asSet (st.strictOr s.strict) a with
  | error e => exact ⟨hk, herr _ _ _ hl⟩
  | ok q =>
    obtain ⟨seq, ex⟩ := q
    dsimp only [validateIterToSet]
    have hk2 := hk.floor ex
    rw [hk2.off]
    obtain ⟨h1, h2⟩ := post_setLoop s.hashing hv hLhere s.fieldType s.maxLength s.failFast a seq.items (L' a) (hhere a)
      (fun i e h => hiter _ _ _ _ i e hl h) (fun i x p z h hx => hitem _ _ _ _ i x p z hl h hx)
      (enumerateLastPartial .off 0 seq.items) [] [] (st.floorExactness ex) (located_enumerate _)
      (fun y hy => (by cases hy)) ⟨fun y hy => (by cases hy), List.Pairwise.nil⟩ (fun mx hmx => Nat.zero_le _)
      (fun e he => (by cases he)) hk2
    generalize setLoop s.hashing v _ _ _ _ _ _ _ _ _ = run at h1 h2
    obtain ⟨res, st1, un⟩ := run
    dsimp only at h1 h2 ⊢
    match res, h2 with
    | .ok ys, h2 =>
      dsimp only
      cases hmn : minLengthCheck a s.fieldType s.minLength ys.length with
      | error e =>
        obtain ⟨t, rfl⟩ := minLengthCheck_err hmn
        exact ⟨h1, Out.new (hhere a)⟩
      | ok u => exact ⟨h1, hC ys h2.1 h2.2.1 (minLengthCheck_ok hmn) h2.2.2⟩
    | .error (.lineErrors es), h2 => exact ⟨h1, h2⟩
    | .error (.internal e), _ => exact ⟨h1, trivial⟩

/-! ### Dicts -/

theorem mem_setItem {h : Hashing α} {x : α × α} : ∀ {d : List (α × α)} {k w : α}, x ∈ setItem h d k w →
    x ∈ d ∨ (x.2 = w ∧ (x.1 = k ∨ ∃ y ∈ d, y.1 = x.1)) := by
  intro d
  induction d with
  | nil =>
    intro k w hx
    simp only [setItem, List.mem_singleton] at hx
    subst hx
    exact .inr ⟨rfl, .inl rfl⟩
  | cons y d ih =>
    intro k w hx
    obtain ⟨k', w'⟩ := y
    simp only [setItem] at hx
    split at hx
    · rcases List.mem_cons.mp hx with rfl | hx
      · exact .inr ⟨rfl, .inr ⟨(k', w'), List.mem_cons_self .., rfl⟩⟩
      · exact .inl (List.mem_cons_of_mem _ hx)
    · rcases List.mem_cons.mp hx with rfl | hx
      · exact .inl (List.mem_cons_self ..)
      · rcases ih hx with h1 | ⟨h1, h2 | ⟨y, hy, h2⟩⟩
        · exact .inl (List.mem_cons_of_mem _ h1)
        · exact .inr ⟨h1, .inl h2⟩
        · exact .inr ⟨h1, .inr ⟨y, List.mem_cons_of_mem _ hy, h2⟩⟩

theorem setItem_ok {h : Hashing α} : ∀ {d : List (α × α)} {k w : α}, DictOk h d → h.hashErr k = none →
    DictOk h (setItem h d k w) := by
  intro d
  induction d with
  | nil =>
    intro k w _ hk
    refine ⟨fun x hx => ?_, List.pairwise_singleton _ _⟩
    rw [List.mem_singleton.mp hx]; exact hk
  | cons y d ih =>
    intro k w hd hk
    obtain ⟨k', w'⟩ := y
    have hd1 : DictOk h d := ⟨fun x hx => hd.1 x (List.mem_cons_of_mem _ hx), hd.2.tail⟩
    have hp := List.pairwise_cons.mp hd.2
    simp only [setItem]
    split
    · refine ⟨fun x hx => ?_, List.pairwise_cons.mpr ⟨fun x hx => hp.1 x hx, hp.2⟩⟩
      rcases List.mem_cons.mp hx with rfl | hx
      · exact hd.1 (k', w') (List.mem_cons_self ..)
      · exact hd1.1 x hx
    · rename_i hne
      obtain ⟨g1, g2⟩ := ih hd1 hk (w := w)
      refine ⟨fun x hx => ?_, List.pairwise_cons.mpr ⟨fun x hx => ?_, g2⟩⟩
      · rcases List.mem_cons.mp hx with rfl | hx
        · exact hd.1 (k', w') (List.mem_cons_self ..)
        · exact g1 x hx
      · rcases mem_setItem hx with h1 | ⟨_, h2 | ⟨y, hy, h2⟩⟩
        · exact hp.1 x h1
        · rw [h2]
          cases hs : h.same k' k with
          | false => rfl
          | true => exact absurd hs hne
        · rw [← h2]; exact hp.1 y hy

theorem post_dictLoop (d : DictV α) (kv vv : Validator α α) {Ck Cv : α → Prop} {Lk Lv : α → List LocItem → α → Prop}
    (hkv : Post m Ck Lk kv) (hvv : Post m Cv Lv vv) (a : α) (items : List (ValResult α (α × α)))
    (M : List LocItem → α → Prop) (hhere : M [] a)
    (hC : ∀ kvs, (∀ x ∈ kvs, Ck x.1 ∧ Cv x.2) → DictOk d.hashing kvs → FitsMin d.minLength kvs.length →
      FitsMax d.maxLength kvs.length → C' (d.build kvs))
    (herr : ∀ e, .error e ∈ items → Out C' M (.error e))
    (hkey : ∀ k w p z, .ok (k, w) ∈ items → Lk k p z → M (d.keyLoc k :: .s "[key]" :: p) z)
    (hvalue : ∀ k w p z, .ok (k, w) ∈ items → Lv w p z → M (d.keyLoc k :: p) z) :
    ∀ (entries : List (Nat × Bool × ValResult α (α × α))) (out : List (α × α)) (errs : List (LineError α))
      (st : VState α), Located items entries → (∀ x ∈ out, Ck x.1 ∧ Cv x.2) → DictOk d.hashing out → Errs M errs →
      Keeps m st →
      Keeps m (dictLoop { d with key := kv, value := vv } a .off entries out errs st).2 ∧
      Out C' M (dictLoop { d with key := kv, value := vv } a .off entries out errs st).1 := by
  intro entries
  induction entries with
  | nil =>
    intro out errs st _ hout hd herr hk
    simp only [dictLoop]
    cases errs with
    | nil =>
      simp only [List.isEmpty_nil, if_true]
      cases hl : lengthCheck a "Dictionary" d.minLength d.maxLength out.length with
      | error e =>
        obtain ⟨t, rfl⟩ := lengthCheck_err hl
        exact ⟨hk, Out.new hhere⟩
      | ok u => exact ⟨hk, hC out hout hd (lengthCheck_ok hl).1 (lengthCheck_ok hl).2⟩
    | cons e es => exact ⟨hk, List.cons_ne_nil _ _, herr⟩
  | cons x rest ih =>
    intro out errs st hloc hout hd herrs hk
    obtain ⟨i, last, item⟩ := x
    obtain ⟨hx, hl⟩ := hloc _ (List.mem_cons_self ..)
    dsimp only at hx hl
    subst hl
    have hmem := List.mem_of_getElem? hx
    have hrest : Located items rest := fun y hy => hloc y (List.mem_cons_of_mem _ hy)
    simp only [dictLoop]
    have hoff : Keeps m { st with allowPartial := .off } := ⟨hk.1, rfl⟩
    cases item with
    | error e => exact ⟨hoff, herr e hmem⟩
    | ok kw =>
      obtain ⟨k, w⟩ := kw
      dsimp only
      obtain ⟨k1, o1⟩ := hkv k _ hoff
      generalize kv k { st with allowPartial := .off } = rk at k1 o1
      obtain ⟨rk, st1⟩ := rk
      dsimp only at k1 o1 ⊢
      obtain ⟨k2, o2⟩ := hvv w _ k1.setPartial
      generalize vv w (setPartial .off false st1) = rv at k2 o2
      obtain ⟨rv, st2⟩ := rv
      dsimp only at k2 o2
      match rk, o1 with
      | .ok ko, o1 =>
        dsimp only
        match rv, o2 with
        | .ok wo, o2 =>
          dsimp only
          cases hh : d.hashing.hashErr ko with
          | some e =>
            obtain ⟨_, e⟩ := e
            exact ⟨k2, trivial⟩
          | none =>
            dsimp only
            refine ih (setItem d.hashing out ko wo) errs st2 hrest (fun x hx => ?_) (setItem_ok hd hh) herrs k2
            rcases mem_setItem hx with h1 | ⟨h1, h2 | ⟨y, hy, h2⟩⟩
            · exact hout x h1
            · rw [h1, h2]; exact ⟨o1, o2⟩
            · rw [h1, ← h2]; exact ⟨(hout y hy).1, o2⟩
        | .error (.lineErrors es), o2 =>
          dsimp only
          simp only [Bool.false_eq_true, if_false]
          exact ih out _ st2 hrest hout hd
            (herrs.append (Errs.outer o2.2 (fun p z h => hvalue k w p z hmem h))) k2
        | .error (.internal e), _ => exact ⟨k2, trivial⟩
      | .error (.lineErrors es), o1 =>
        dsimp only
        have he : Errs M (errs ++ es.map
            (fun e => (e.withOuterLocation (.s "[key]")).withOuterLocation (d.keyLoc k))) := by
          refine herrs.append ?_
          intro e he
          obtain ⟨e', he', rfl⟩ := List.mem_map.mp he
          rw [toPy_withOuter, toPy_withOuter, input_withOuter, input_withOuter]
          exact hkey k w _ _ hmem (o1.2 e' he')
        match rv, o2 with
        | .ok wo, o2 => exact ih out _ st2 hrest hout hd he k2
        | .error (.lineErrors es2), o2 =>
          dsimp only
          simp only [Bool.false_eq_true, if_false]
          exact ih out _ st2 hrest hout hd
            (he.append (Errs.outer o2.2 (fun p z h => hvalue k w p z hmem h))) k2
        | .error (.internal e), _ => exact ⟨k2, trivial⟩
      | .error (.internal e), _ => exact ⟨k1, trivial⟩

theorem post_dict (d : DictV α) (kv vv : Validator α α) {Ck Cv : α → Prop} {Lk Lv : α → List LocItem → α → Prop}
    (hkv : Post m Ck Lk kv) (hvv : Post m Cv Lv vv) (hhere : ∀ a, L' a [] a)
    (hC : ∀ kvs, (∀ x ∈ kvs, Ck x.1 ∧ Cv x.2) → DictOk d.hashing kvs → FitsMin d.minLength kvs.length →
      FitsMax d.maxLength kvs.length → C' (d.build kvs))
    (herr : ∀ strict a e, d.asDict strict a = .error e → Out C' (L' a) (.error e))
    (herr2 : ∀ strict a entries e, d.asDict strict a = .ok entries → .error e ∈ entries → Out C' (L' a) (.error e))
    (hkey : ∀ strict a entries k w p z, d.asDict strict a = .ok entries → .ok (k, w) ∈ entries → Lk k p z →
      L' a (d.keyLoc k :: .s "[key]" :: p) z)
    (hvalue : ∀ strict a entries k w p z, d.asDict strict a = .ok entries → .ok (k, w) ∈ entries → Lv w p z →
      L' a (d.keyLoc k :: p) z) :
    Post m C' L' (DictV.validate { d with key := kv, value := vv }) := by
  intro a st hk
  simp only [DictV.validate]
  cases hl : d.asDict (st.strictOr d.strict) a with
  | error e => exact ⟨hk, herr _ _ _ hl⟩
  | ok entries =>
    dsimp only
    rw [hk.off]
    exact post_dictLoop d kv vv hkv hvv a entries (L' a) (hhere a) hC (fun e h => herr2 _ _ _ e hl h)
      (fun k w p z h hx => hkey _ _ _ k w p z hl h hx) (fun k w p z h hx => hvalue _ _ _ k w p z hl h hx)
      (enumerateLastPartial .off 0 entries) [] [] st (located_enumerate _) (fun x hx => (by cases hx))
      ⟨fun x hx => (by cases hx), List.Pairwise.nil⟩ (fun e he => (by cases he)) hk

end PC.Engine
