import Verif.Spec.ModelClass
import Verif.Lemmas.Fields
import Verif.Props.Models

/-
C73: model instances as inputs, and the construction of model instances.  Partial; what goes wrong
otherwise is at the end.
-/

namespace PC.Cls
open PC.Lookup PC.Fields PC.Dc
variable {α : Type}

theorem construct_ne_same (m : ModelV α) (input : α) (fs : Option (List String)) (st : VState α) :
    (m.construct input fs st).1 ≠ .ok .same := by
  intro h
  unfold ModelV.construct at h
  cases hc : m.customInit.bind fun f => f input with
  | some r => cases r <;> (rw [hc] at h; cases h)
  | none =>
    rw [hc] at h
    dsimp only at h
    cases ha : (m.attrs ⟨[], none, []⟩ input fs st).1 with
    | error e => rw [ha] at h; cases h
    | ok i =>
      rw [ha] at h
      dsimp only at h
      cases hp : (m.callPostInit input i).1 <;> (rw [hp] at h; cases h)

theorem revalidate_ne_same (m : ModelV α) (i : Instance α) (st : VState α) :
    (m.revalidateInstance i st).1 ≠ .ok .same := by
  unfold ModelV.revalidateInstance
  cases m.data i with
  | error e => intro h; cases h
  | ok d => exact construct_ne_same m d _ st

/-- **C73**.  Exactly the instances of the class that are not to be revalidated are returned as they
are. -/
theorem model_instance_kept (m : ModelV α) (s : ModelSource α) (input : α) (st : VState α) :
    (m.validate s input st).1 = .ok .same ↔ Kept m.revalidate s := by
  unfold ModelV.validate Kept
  cases s with
  | exact i =>
    cases hr : m.revalidate <;> simp [Revalidate.should, revalidate_ne_same]
  | subclass i =>
    cases hr : m.revalidate <;> simp [Revalidate.should, revalidate_ne_same]
  | genericOrigin i => simp [revalidate_ne_same]
  | other => simp [construct_ne_same]

/-- **C73**.  For an instance that is returned as it is nothing is run. -/
theorem model_instance_kept_state (m : ModelV α) (s : ModelSource α) (input : α) (st : VState α)
    (h : Kept m.revalidate s) : m.validate s input st = (.ok .same, st) := by
  unfold ModelV.validate
  unfold Kept at h
  cases s with
  | exact i =>
    cases hr : m.revalidate <;> simp [Revalidate.should]
    exact absurd hr h
  | subclass i => rw [h]; rfl
  | genericOrigin i => exact h.elim
  | other => exact h.elim

theorem callPostInit_spec (m : ModelV α) (input : α) (i : Instance α)
    (h : (m.callPostInit input i).1 = .ok ()) :
    m.PostInit input i (m.callPostInit input i).2 := by
  unfold ModelV.callPostInit ModelV.PostInit at *
  cases hp : m.postInit with
  | none => rfl
  | some f => rw [hp] at h; exact Prod.ext h rfl

theorem construct_spec (m : ModelV α) (input : α) (fs : Option (List String)) (st : VState α)
    (hc : m.customInit = none) (r : Made α) (h : (m.construct input fs st).1 = .ok r) :
    ∃ before after, (m.attrs ⟨[], none, []⟩ input fs st).1 = .ok before ∧ r = .fresh after ∧
      m.PostInit input before after := by
  unfold ModelV.construct at h
  rw [hc] at h
  dsimp only [Option.bind] at h
  cases ha : (m.attrs ⟨[], none, []⟩ input fs st).1 with
  | error e => rw [ha] at h; cases h
  | ok i =>
    rw [ha] at h
    dsimp only at h
    cases hp : (m.callPostInit input i).1 with
    | error e => rw [hp] at h; cases h
    | ok u =>
      rw [hp] at h
      cases h
      exact ⟨i, _, rfl, rfl, callPostInit_spec m input i hp⟩

theorem attrs_plain (m : ModelV α) (old : Instance α) (input : α) (fs : Option (List String))
    (st : VState α) (hr : m.root = none) (i : Instance α)
    (h : (m.attrs old input fs st).1 = .ok i) :
    ∃ out, (m.inner input st).1 = .ok out ∧ i = ⟨out.dict, out.extra, fs.getD out.fieldsSet⟩ := by
  unfold ModelV.attrs at h
  rw [hr] at h
  dsimp only at h
  cases hi : (m.inner input st).1 with
  | error e => rw [hi] at h; cases h
  | ok out => rw [hi] at h; cases h; exact ⟨out, rfl, rfl⟩

/-- **C73**.  An input that is no instance makes a new instance with exactly the fields, extra items
and set of fields that the inner validator made of it, as left by `post_init`; and it does not count
as an exact match. -/
theorem model_new (m : ModelV α) (hm : m.Plain) (input : α) (st : VState α) (r : Made α)
    (h : (m.validate .other input st).1 = .ok r) :
    ∃ st' out after, NotExact st' ∧ st'.extra = st.extra ∧ (m.inner input st').1 = .ok out ∧
      r = .fresh after ∧ m.PostInit input ⟨out.dict, out.extra, out.fieldsSet⟩ after := by
  obtain ⟨before, after, ha, hr, hp⟩ := construct_spec m input none _ hm.1 r h
  obtain ⟨out, ho, rfl⟩ := attrs_plain m _ input none _ hm.2 before ha
  refine ⟨_, out, after, ?_, ?_, ho, hr, hp⟩
  · unfold NotExact VState.floorExactness
    split <;> simp_all
  · unfold VState.floorExactness
    split <;> simp

/-- **C73**.  An instance that is revalidated makes a new instance: its attributes, fields and extra
items together, are validated again; the set of fields is the one of the instance, whatever the
validation says. -/
theorem model_revalidated (m : ModelV α) (hm : m.Plain) (s : ModelSource α) (i : Instance α)
    (hs : Revalidated m.revalidate s i) (input : α) (st : VState α) (r : Made α)
    (h : (m.validate s input st).1 = .ok r) :
    ∃ d out after, Attributes i d ∧ (m.inner (m.mkDict d) st).1 = .ok out ∧
      r = .fresh after ∧ m.PostInit (m.mkDict d) ⟨out.dict, out.extra, i.fieldsSet⟩ after := by
  have h' : (m.revalidateInstance i st).1 = .ok r := by
    unfold ModelV.validate at h
    unfold Revalidated at hs
    cases s with
    | exact j =>
      obtain ⟨rfl, hr⟩ := hs
      rw [hr] at h
      exact h
    | subclass j =>
      obtain ⟨rfl, hr⟩ := hs
      cases hv : m.revalidate with
      | never => exact absurd hv hr
      | always => rw [hv] at h; exact h
      | subclassInstances => rw [hv] at h; exact h
    | genericOrigin j => subst hs; exact h
    | other => exact hs.elim
  unfold ModelV.revalidateInstance ModelV.data at h'
  rw [hm.2] at h'
  dsimp only at h'
  obtain ⟨before, after, ha, hr, hp⟩ := construct_spec m _ _ st hm.1 r h'
  obtain ⟨out, ho, rfl⟩ := attrs_plain m _ _ _ st hm.2 before ha
  refine ⟨_, out, after, ?_, ho, hr, hp⟩
  intro k
  unfold attributes
  cases hx : i.extra with
  | none => simp
  | some x =>
    dsimp only
    unfold Dict.update
    rw [Dict.get_foldl_set]
    rfl

/-- **C73**.  A root model: the root is what the root validator makes of the input (of the root, for
an instance that is revalidated), with `root` as name of the field; the set of fields is `{'root'}`
unless the input is `PydanticUndefined`. -/
theorem model_root (m : ModelV α) (hc : m.customInit = none) (root : Validator α α)
    (hroot : m.root = some root) (s : ModelSource α) (input data : α) (st : VState α) (r : Made α)
    (hd : (s = .other ∧ data = input) ∨
      ∃ i, Revalidated m.revalidate s i ∧ i.dict.get "root" = some data)
    (h : (m.validate s input st).1 = .ok r) :
    ∃ st' v after, st'.extra = { st.extra with fieldName := some "root" } ∧
      (root data st').1 = .ok v ∧ r = .fresh after ∧
      m.PostInit data ⟨[("root", v)], none, if m.isUndefined data then [] else ["root"]⟩ after := by
  have key : ∀ (fs : Option (List String)) (st0 : VState α), st0.extra = st.extra →
      (m.construct data fs st0).1 = .ok r → ∃ st' v after,
        st'.extra = { st.extra with fieldName := some "root" } ∧
        (root data st').1 = .ok v ∧ r = .fresh after ∧ m.PostInit data
          ⟨[("root", v)], none, if m.isUndefined data then [] else ["root"]⟩ after := by
    intro fs st0 he hk
    obtain ⟨before, after, ha, hr, hp⟩ := construct_spec m data fs st0 hc r hk
    unfold ModelV.attrs at ha
    rw [hroot] at ha
    unfold rebindExtra at ha
    dsimp only at ha
    cases hv : (root data { st0 with extra := { st0.extra with fieldName := some "root" } }).1 with
    | error e => rw [hv] at ha; cases ha
    | ok v =>
      rw [hv] at ha
      cases ha
      exact ⟨_, v, after, by rw [he], hv, hr, hp⟩
  rcases hd with ⟨rfl, rfl⟩ | ⟨i, hs, hg⟩
  · refine key none _ ?_ h
    unfold VState.floorExactness
    split <;> simp
  · have h' : (m.revalidateInstance i st).1 = .ok r := by
      unfold ModelV.validate at h
      unfold Revalidated at hs
      cases s with
      | exact j =>
        obtain ⟨rfl, hr⟩ := hs
        rw [hr] at h
        exact h
      | subclass j =>
        obtain ⟨rfl, hr⟩ := hs
        cases hv : m.revalidate with
        | never => exact absurd hv hr
        | always => rw [hv] at h; exact h
        | subclassInstances => rw [hv] at h; exact h
      | genericOrigin j => subst hs; exact h
      | other => exact hs.elim
    unfold ModelV.revalidateInstance ModelV.data at h'
    rw [hroot] at h'
    dsimp only at h'
    rw [hg] at h'
    exact key _ st rfl h'

/-- **C73**.  A class that overrides `__init__` is called with the items of an input that has
items, and its result is the result. -/
theorem model_custom_init (m : ModelV α) (f : α → Option (ValResult α α))
    (hf : m.customInit = some f) (input : α) (st : VState α) (x : ValResult α α)
    (hx : f input = some x) :
    (m.validate .other input st).1 = x.map .called := by
  unfold ModelV.validate ModelV.construct
  rw [hf]
  dsimp only [Option.bind]
  rw [hx]
  cases x <;> rfl

/-- **C73**.  `__init__` of an instance whose input is rejected leaves the instance as it was. -/
theorem model_init_rejected_keeps (m : ModelV α) (inst : Instance α) (input : α) (st : VState α)
    (hm : m.Plain) (e : ValError α) (h : (m.inner input st).1 = .error e) :
    (m.validateInit inst input st).1 = .error e ∧ (m.validateInit inst input st).2.1 = inst := by
  unfold ModelV.validateInit ModelV.attrs
  rw [hm.2]
  dsimp only
  rw [h]
  exact ⟨rfl, rfl⟩

/-- **C73**.  `__init__` of an instance makes the instance that validation of the same input would
make, whatever the instance was before. -/
theorem model_init_as_new (m : ModelV α) (hm : m.Plain) (inst i : Instance α) (input : α)
    (st : VState α) :
    ((m.validateInit inst input (st.floorExactness .strict)).1 = .ok () ∧
      (m.validateInit inst input (st.floorExactness .strict)).2.1 = i) ↔
    (m.validate .other input st).1 = .ok (.fresh i) := by
  unfold ModelV.validateInit ModelV.validate ModelV.construct ModelV.attrs
  rw [hm.1, hm.2]
  dsimp only [Option.bind]
  cases hi : (m.inner input (st.floorExactness .strict)).1 with
  | error e => simp
  | ok out =>
    dsimp only [Option.getD_none]
    cases hp : (m.callPostInit input ⟨out.dict, out.extra, out.fieldsSet⟩).1 with
    | error e => simp
    | ok u => simp

/-! ### Examples -/

namespace InstanceDemo
open PC.Fields.Demo

/-- A class with the fields `a` (alias `b`) and `c` (default 7). -/
def cls (r : Revalidate) (extra : ExtraBehavior) : ModelV V where
  inner := (model extra).validate
  root := none
  revalidate := r
  customInit := none
  postInit := none
  mkDict := fun d => .dict (d.map fun kv => (kv.1, match kv.2 with | .num n => n | _ => 0))
  isUndefined := fun _ => false

def ab (a c : Nat) (x : Option (Dict V)) (fs : List String) : Instance V :=
  ⟨[("a", .num a), ("c", .num c)], x, fs⟩

/-- The same class with a lookup by name, as with `validate_by_name`. -/
def byName (r : Revalidate) (extra : ExtraBehavior) : ModelV V :=
  { cls r extra with inner := ({ model extra with byAlias := some false, byName := some true } :
      ModelFields V).validate }

/-- A root model of numbers. -/
def rootCls (r : Revalidate) : ModelV V := { cls r .ignore with root := some num }

/-- A class whose `post_init` takes one from `a`, and refuses `a = 0`. -/
def withPost (extra : ExtraBehavior) : ModelV V :=
  { cls .never extra with
    postInit := some fun input i =>
      match i.dict.get "a" with
      | some (.num (n + 1)) => (.ok (), { i with dict := i.dict.set "a" (.num n) })
      | _ => (.error (.new (.other "value_error") input), i) }

theorem cls_plain (r : Revalidate) (extra : ExtraBehavior) : (cls r extra).Plain := ⟨rfl, rfl⟩

example : ((cls .subclassInstances .ignore).validate (.exact (ab 1 2 none [])) (.num 0) st).1 =
    .ok .same :=
  (model_instance_kept _ _ _ _).2 (by simp [Kept, cls])

example : ((cls .subclassInstances .ignore).validate (.subclass (ab 1 2 none [])) (.num 0) st).1 ≠
    .ok .same :=
  fun h => absurd ((model_instance_kept _ _ _ _).1 h) (by simp [Kept, cls])

example : (cls .never .ignore).validate (.subclass (ab 1 2 none [])) (.num 0) st = (.ok .same, st) :=
  model_instance_kept_state _ _ _ _ rfl

theorem new_run : ((withPost .ignore).validate .other (.dict [("b", 5)]) st).1 =
    .ok (.fresh (ab 4 7 none ["a"])) := by rfl

example : ∃ st' out after, NotExact st' ∧ st'.extra = st.extra ∧
    ((withPost .ignore).inner (.dict [("b", 5)]) st').1 = .ok out ∧
    Made.fresh (ab 4 7 none ["a"]) = .fresh after ∧
    (withPost .ignore).PostInit (.dict [("b", 5)]) ⟨out.dict, out.extra, out.fieldsSet⟩ after :=
  model_new (withPost .ignore) ⟨rfl, rfl⟩ _ _ _ new_run

/-- The extra item `x` is read and kept, and so is the set of fields of the instance. -/
theorem revalidated_run : ((byName .always .allow).validate
    (.exact (ab 5 6 (some [("x", .num 1)]) ["c"])) (.num 0) st).1 =
      .ok (.fresh (ab 5 6 (some [("x", .num 1)]) ["c"])) := by rfl

example : ∃ d out after, Attributes (ab 5 6 (some [("x", .num 1)]) ["c"]) d ∧
    ((byName .always .allow).inner ((byName .always .allow).mkDict d) st).1 = .ok out ∧
    Made.fresh (ab 5 6 (some [("x", .num 1)]) ["c"]) = .fresh after ∧
    (byName .always .allow).PostInit ((byName .always .allow).mkDict d)
      ⟨out.dict, out.extra, ["c"]⟩ after :=
  model_revalidated (byName .always .allow) ⟨rfl, rfl⟩
    (.exact (ab 5 6 (some [("x", .num 1)]) ["c"])) _ ⟨rfl, rfl⟩ _ _ _ revalidated_run

example : ∃ st' v after, st'.extra = { st.extra with fieldName := some "root" } ∧
    (num (.num 3) st').1 = .ok v ∧ Made.fresh ⟨[("root", .num 3)], none, ["root"]⟩ = .fresh after ∧
    (rootCls .always).PostInit (.num 3) ⟨[("root", v)], none, ["root"]⟩ after :=
  model_root (rootCls .always) rfl num rfl (.exact ⟨[("root", .num 3)], none, []⟩) (.num 0) (.num 3)
    st _ (.inr ⟨_, ⟨rfl, rfl⟩, rfl⟩) rfl

example : ∃ st' v after, st'.extra = { st.extra with fieldName := some "root" } ∧
    (num (.num 3) st').1 = .ok v ∧ Made.fresh ⟨[("root", .num 3)], none, ["root"]⟩ = .fresh after ∧
    (rootCls .always).PostInit (.num 3) ⟨[("root", v)], none, ["root"]⟩ after :=
  model_root (rootCls .always) rfl num rfl .other (.num 3) (.num 3) st _ (.inl ⟨rfl, rfl⟩) rfl

example : (({ cls .never .ignore with customInit := some fun v => match v with
      | .dict _ => some (.ok (V.str "made"))
      | _ => none } : ModelV V).validate .other (.dict []) st).1 = .ok (.called (.str "made")) :=
  model_custom_init _ _ rfl _ _ (.ok (V.str "made")) rfl

example : ((cls .never .ignore).validateInit (ab 1 2 none []) (.num 3) st).2.1 = ab 1 2 none [] :=
  (model_init_rejected_keeps (cls .never .ignore) _ _ _ ⟨rfl, rfl⟩ _ rfl).2

example : ((withPost .ignore).validateInit (ab 1 2 none []) (.dict [("b", 5)])
    (st.floorExactness .strict)).2.1 = ab 4 7 none ["a"] :=
  ((model_init_as_new (withPost .ignore) ⟨rfl, rfl⟩ _ _ _ _).2 new_run).2

/-! ### What goes wrong

Revalidation reads the attributes of an instance by the keys of an input: an instance with a field
that has an alias is rejected. -/

/-- Against **C73**: an instance that validation has just made is rejected if it is revalidated, as
its field `a` is looked up by its alias. -/
theorem revalidate_alias :
    ((cls .always .ignore).validate .other (.dict [("b", 5)]) st).1 =
      .ok (.fresh (ab 5 7 none ["a"])) ∧
    ((cls .always .ignore).validate (.exact (ab 5 7 none ["a"])) (.num 0) st).1 =
      .error (.lineErrors [⟨.missing, .list [.s "b"], .dict [("a", 5), ("c", 7)]⟩]) :=
  ⟨rfl, rfl⟩

/-- Against **C73**: the set of fields of a root model is not kept. -/
theorem revalidate_root_fields_set :
    ((rootCls .always).validate (.exact ⟨[("root", .num 3)], none, []⟩) (.num 0) st).1 =
      .ok (.fresh ⟨[("root", .num 3)], none, ["root"]⟩) := rfl

/-- Against **C73**: if `post_init` fails, the instance keeps the attributes that were set. -/
theorem init_post_init_failed :
    ((withPost .ignore).validateInit (ab 1 2 none []) (.dict [("b", 0)]) st).1 =
      .error (.new (.other "value_error") (.dict [("b", 0)])) ∧
    ((withPost .ignore).validateInit (ab 1 2 none []) (.dict [("b", 0)]) st).2.1 =
      ab 0 7 none ["a"] := ⟨rfl, rfl⟩

/-- Against **C73**: revalidation of an instance runs `post_init` on it a second time. -/
theorem revalidate_post_init :
    (({ withPost .ignore with revalidate := .always, inner := (byName .always .ignore).inner } :
      ModelV V).validate (.exact (ab 4 7 none ["a"])) (.num 0) st).1 =
      .ok (.fresh (ab 3 7 none ["a"])) := rfl

end InstanceDemo
end PC.Cls
