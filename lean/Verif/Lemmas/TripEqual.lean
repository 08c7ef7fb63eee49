import Verif.Lemmas.TripBack

/-
Values with the same document are equal.
-/

namespace PC.Trip
open PC.Infer (Json Text Opts)
open PC.Fields (Dict ExtraBehavior Instance)
open PC.Lookup (LookupKey KeyCollection LookupPath)
open PC.Engine

variable {α : Type} {T : Setting α} {o : Opts} {fl : Flags} {same : α → α → Prop}

/-- What is written for fields is under names that the fields are looked up by. -/
theorem fields_looked {ba bn : Bool} : ∀ {total : Bool} {set : Option (List String)} {fs : CoreFields α} {ds : Dict α}
    {es : List (Text × Json)} {n : Nat}, fs.KeysOk o ba bn → DataFields T o total set fs ds es n →
    ∀ e ∈ es, ¬ fs.Unlooked ba bn (String.ofList e.1)
  | _, _, _, _, _, _, _, .nil, e, he, _ => by cases he
  | _, _, .cons name keys r dflt alias sba s rest, _, _ :: _, _, hk, .written _ _ _ hs, e, he, hu => by
    simp only [CoreFields.KeysOk, CoreFields.Unlooked] at hk hu
    obtain ⟨_, ⟨ns, h1, h2, _⟩, h3⟩ := hk
    rcases List.mem_cons.mp he with rfl | he
    · exact hu.1 ns h1 h2
    · exact fields_looked h3 hs e he hu.2
  | _, _, .cons name keys r dflt alias sba s rest, _, _, _, hk, .omitted _ _ hs, e, he, hu => by
    simp only [CoreFields.KeysOk, CoreFields.Unlooked] at hk hu
    exact fields_looked hk.2.2 hs e he hu.2
  | _, _, .cons name keys _ _ alias sba s rest, _, _, _, hk, .absent hs, e, he, hu => by
    simp only [CoreFields.KeysOk, CoreFields.Unlooked] at hk hu
    exact fields_looked hk.2.2 hs e he hu.2
termination_by structural _ _ _ _ _ _ _ h => h

theorem free_unlooked {ba bn : Bool} {n : String} : ∀ (fs : CoreFields α), fs.Free n → fs.Unlooked ba bn n
  | .nil, _ => trivial
  | .cons name keys r dflt alias sba s rest, h => by
    simp only [CoreFields.Free] at h
    refine ⟨?_, free_unlooked rest h.2.2⟩
    rintro ns ⟨key, h1, h2⟩
    exact h.2.1 _ _ key ns h1 h2

theorem extras_free : ∀ {fs : CoreFields α} {xs : Dict α} {es : List (Text × Json)} {n : Nat}, DataExtras T o fs xs es n →
    ∀ e ∈ es, fs.Free (String.ofList e.1)
  | _, _, _, _, .nil, e, he => by cases he
  | _, _ :: _, _ :: _, _, .cons hf _ _ _ hs, e, he => by
    rcases List.mem_cons.mp he with rfl | he
    · simpa using hf
    · exact extras_free hs e he
termination_by structural _ _ _ _ h => h

theorem split_unique {β : Type} {P : β → Prop} : ∀ {a b a' b' : List β}, (∀ e ∈ a, P e) → (∀ e ∈ b, ¬ P e) →
    (∀ e ∈ a', P e) → (∀ e ∈ b', ¬ P e) → a ++ b = a' ++ b' → a = a' ∧ b = b'
  | [], b, [], b', _, _, _, _, h => ⟨rfl, h⟩
  | [], b, x :: a', b', _, hb, ha', _, h => by
    simp only [List.nil_append, List.cons_append] at h
    subst h
    exact absurd (ha' x (.head _)) (hb x (.head _))
  | x :: a, b, [], b', ha, _, _, hb', h => by
    simp only [List.nil_append, List.cons_append] at h
    subst h
    exact absurd (ha x (.head _)) (hb' x (.head _))
  | x :: a, b, y :: a', b', ha, hb, ha', hb', h => by
    simp only [List.cons_append, List.cons.injEq] at h
    obtain ⟨rfl, h⟩ := h
    obtain ⟨h1, h2⟩ := split_unique (fun e he => ha e (.tail _ he)) hb (fun e he => ha' e (.tail _ he)) hb' h
    exact ⟨by rw [h1], h2⟩

theorem extras_equal : ∀ {fs : CoreFields α} {xs ys : Dict α} {es : List (Text × Json)} {n m : Nat},
    DataExtras T o fs xs es n → DataExtras T o fs ys es m → EqualExtras T xs ys
  | _, _, _, _, _, _, .nil, h => by
    cases h
    exact ⟨rfl, fun i x y h => by simp at h⟩
  | _, (name, v) :: xs, ys, (_, d) :: es, _, _, .cons hf hv h hd hs, h' => by
    generalize ht : (name.toList, d) :: es = es' at h'
    cases h' with
    | nil => cases ht
    | @cons _ name' v' ys d' _ _ hf' hv' h2 hd' hs' =>
      simp only [List.cons.injEq, Prod.mk.injEq] at ht
      obtain ⟨⟨h3, rfl⟩, rfl⟩ := ht
      obtain rfl := String.toList_inj.mp h3
      obtain ⟨h4, h5⟩ := extras_equal hs hs'
      refine ⟨by simp [h4], fun i x y hx hy => ?_⟩
      cases i with
      | zero =>
        simp only [List.getElem?_cons_zero, Option.some.injEq] at hx hy
        subst hx
        subst hy
        exact ⟨d, h, h2⟩
      | succ i => exact h5 i x y (by simpa using hx) (by simpa using hy)
termination_by structural _ _ _ _ _ _ h => h

theorem dataEach_docs : ∀ {c : CoreItems α} {xs : List α} {ds : List Json} {n : Nat}, DataEach T o c xs ds n →
    c.length = ds.length
  | _, _, _, _, .nil => rfl
  | _, _, _, _, .cons _ hs => by simp only [CoreItems.length, List.length_cons, dataEach_docs hs]
termination_by structural _ _ _ _ h => h

mutual
theorem equal (hok : ∀ d, (T.defs d).Ok T fl o) (hex : ∀ d, (T.defs d).Exact T same o) : ∀ {s : Core α} {a b : α} {d : Json}
    {n m : Nat}, s.Ok T fl o → s.Exact T same o → Data T o s a d n → Data T o s b d m → Equal T same s a b
  | _, _, _, _, _, _, _, _, .any h _, h' => by
    cases h' with
    | any h2 _ => exact .any h h2
  | .leaf l s, _, _, _, _, _, _, he, .leaf hv hw, h' => by
    simp only [Core.Exact] at he
    cases h' with
    | leaf hv' hw' => exact .leaf (he _ _ _ hv hv' hw hw')
  | .nullable s, _, _, _, _, _, _, _, .null h, h' => by
    cases h' with
    | null h2 => exact .null h h2
    | nullable _ hn _ => exact absurd rfl hn
  | .nullable s, _, _, _, _, _, hk, he, .nullable h hd hs, h' => by
    simp only [Core.Ok, Core.Exact] at hk he
    cases h' with
    | null _ => exact absurd rfl hd
    | nullable _ _ hs' => exact .nullable (equal hok hex hk he hs hs')
  | .list .., _, _, _, _, _, hk, he, .list h hs _ _, h' => by
    simp only [Core.Ok, Core.Exact] at hk he
    cases h' with
    | list h2 hs' _ _ => exact .list h h2 (equalAll hok hex hk he hs hs')
  | .dict .., _, _, _, _, _, hk, he, .dict h hs _ _ _, h' => by
    simp only [Core.Ok, Core.Exact] at hk he
    cases h' with
    | dict h2 hs' _ _ _ => exact .dict h h2 (equalDict hok hex he.1 hk.2 he.2 hs hs')
  | .typedDict .., _, _, _, _, _, hk, he, .typedDict h _ hs, h' => by
    simp only [Core.Ok, Core.Exact] at hk he
    cases h' with
    | typedDict h2 _ hs' => exact .typedDict h h2 (equalFields hok hex _ _ hk.1 hk.2 he hs hs')
  | .model .., _, _, _, _, _, hk, he, .model h hx hi hs, h' => by
    simp only [Core.Ok, Core.Exact] at hk he
    cases h' with
    | model h2 _ hi' hs' => exact .model h h2 (equalFields hok hex _ _ hk.1 hk.2 he hs hs') hi hi'
    | modelExtra _ hx' => exact absurd hx' hx
  | .model _ cfg fs, _, _, .obj _, _, _, hk, he, .modelExtra h hx hi hs hxs _, h' => by
    simp only [Core.Ok, Core.Exact] at hk he
    generalize hd : Json.obj _ = d at h'
    cases h' with
    | model _ hx' => exact absurd hx hx'
    | modelExtra h2 _ hi' hs' hxs' _ =>
      simp only [Json.obj.injEq] at hd
      obtain ⟨rfl, rfl⟩ := split_unique
        (P := fun e => ¬ fs.Unlooked ((fl.byAlias.or cfg.byAlias).getD true) ((fl.byName.or cfg.byName).getD false)
          (String.ofList e.1))
        (fields_looked hk.1 hs) (fun e he h => h (free_unlooked fs (extras_free hxs e he)))
        (fields_looked hk.1 hs') (fun e he h => h (free_unlooked fs (extras_free hxs' e he))) hd
      exact .modelExtra h h2 (equalFields hok hex _ _ hk.1 hk.2 he hs hs') hi hi' (extras_equal hxs hxs')
  | .rootModel .., _, _, _, _, _, hk, he, .rootModel h hi hs, h' => by
    simp only [Core.Ok, Core.Exact] at hk he
    cases h' with
    | rootModel h2 hi' hs' => exact .rootModel h h2 hi hi' (equal hok hex hk he hs hs')
  | .ref r, _, _, _, _, _, _, _, .ref _ h, h' => by
    cases h' with
    | ref _ h2 => exact .ref (equal hok hex (hok r) (hex r) h h2)
  | .tuple .., _, _, _, _, _, hk, he, .tuple h hs _ _, h' => by
    simp only [Core.Ok, Core.Exact] at hk he
    cases h' with
    | tuple h2 hs' _ _ => exact .tuple h h2 (equalEach hok hex hk he hs hs')
  | .tupleVar .., _, _, .arr _, _, _, hk, he, .tupleVar h h1 h2 h3 _ _, h' => by
    simp only [Core.Ok, Core.Exact] at hk he
    generalize hd : Json.arr _ = d at h'
    cases h' with
    | tupleVar h' h1' h2' h3' _ _ =>
      simp only [Json.arr.injEq] at hd
      obtain ⟨rfl, hd2⟩ := List.append_inj hd ((dataEach_docs h1).symm.trans (dataEach_docs h1'))
      obtain ⟨rfl, rfl⟩ := List.append_inj' hd2 ((dataEach_docs h3).symm.trans (dataEach_docs h3'))
      exact .tupleVar h h' (equalEach hok hex hk.1 he.1 h1 h1') (equalAll hok hex hk.2.1 he.2.1 h2 h2')
        (equalEach hok hex hk.2.2 he.2.2 h3 h3')
termination_by structural _ _ _ _ _ _ _ _ h => h
theorem equalEach (hok : ∀ d, (T.defs d).Ok T fl o) (hex : ∀ d, (T.defs d).Exact T same o) : ∀ {s : CoreItems α}
    {xs ys : List α} {ds : List Json} {n m : Nat}, s.Ok T fl o → s.Exact T same o → DataEach T o s xs ds n →
    DataEach T o s ys ds m → EqualEach T same s xs ys
  | _, _, _, _, _, _, _, _, .nil, h' => by
    cases h'
    exact .nil
  | .cons _ _, _, _, _, _, _, hk, he, .cons h hs, h' => by
    simp only [CoreItems.Ok, CoreItems.Exact] at hk he
    cases h' with
    | cons h2 hs' => exact .cons (equal hok hex hk.1 he.1 h h2) (equalEach hok hex hk.2 he.2 hs hs')
termination_by structural _ _ _ _ _ _ _ _ h => h
theorem equalAll (hok : ∀ d, (T.defs d).Ok T fl o) (hex : ∀ d, (T.defs d).Exact T same o) : ∀ {s : Core α} {xs ys : List α}
    {ds : List Json} {n m : Nat}, s.Ok T fl o → s.Exact T same o → DataAll T o s xs ds n → DataAll T o s ys ds m →
    EqualAll T same s xs ys
  | _, _, _, _, _, _, _, _, .nil, h' => by
    cases h'
    exact .nil
  | _, _, _, _, _, _, hk, he, .cons h hs, h' => by
    cases h' with
    | cons h2 hs' => exact .cons (equal hok hex hk he h h2) (equalAll hok hex hk he hs hs')
termination_by structural _ _ _ _ _ _ _ _ h => h
theorem equalDict (hok : ∀ d, (T.defs d).Ok T fl o) (hex : ∀ d, (T.defs d).Exact T same o) : ∀ {kv : Engine.Leaf α}
    {ks : Infer.Leaf} {s : Core α} {xs ys : List (α × α)} {es : List (Text × Json)} {n m : Nat}, KeyExact T same kv ks →
    s.Ok T fl o → s.Exact T same o → DataDict T o kv ks s xs es n → DataDict T o kv ks s ys es m → EqualDict T same s xs ys
  | _, _, _, _, _, _, _, _, _, _, _, .nil, h' => by
    cases h'
    exact .nil
  | _, _, _, _, _, _, _, _, hke, hk, he, .cons ho ht h hs, h' => by
    cases h' with
    | cons ho' ht' h2 hs' => exact .cons (hke _ _ _ ho ho' ht ht') (equal hok hex hk he h h2) (equalDict hok hex hke hk he hs hs')
termination_by structural _ _ _ _ _ _ _ _ _ _ _ h => h
theorem equalFields (hok : ∀ d, (T.defs d).Ok T fl o) (hex : ∀ d, (T.defs d).Exact T same o) (ba bn : Bool) :
    ∀ {total : Bool} {set set' : Option (List String)} {fs : CoreFields α} {ds ds' : Dict α} {es : List (Text × Json)}
    {n m : Nat}, fs.KeysOk o ba bn → fs.Ok T fl o → fs.Exact T same o → DataFields T o total set fs ds es n →
    DataFields T o total set' fs ds' es m → EqualFields T same fs ds ds'
  | _, _, _, _, _, _, _, _, _, _, _, _, .nil, h' => by
    cases h'
    exact .nil
  | total, _, _, .cons name keys r dflt alias sba s rest, (_, v) :: ds, _, (_, d) :: es, _, _, hkey, hk, he, .written _ _ h hs, h' => by
    simp only [CoreFields.KeysOk, CoreFields.Ok, CoreFields.Exact] at hkey hk he
    obtain ⟨_, ⟨ns, _, hin, hun⟩, hkey⟩ := hkey
    generalize hes : (o.fieldKey (info name alias r sba), d) :: es = es' at h'
    cases h' with
    | written _ _ h2 hs' =>
      simp only [List.cons.injEq, Prod.mk.injEq] at hes
      obtain ⟨⟨_, rfl⟩, rfl⟩ := hes
      exact .both (equal hok hex hk.1 he.1 h h2) (equalFields hok hex ba bn hkey hk.2 he.2 hs hs')
    | omitted _ _ hs' =>
      subst hes
      exact absurd (hun _ hin) (fields_looked hkey hs' _ (.head _))
    | absent hs' =>
      subst hes
      exact absurd (hun _ hin) (fields_looked hkey hs' _ (.head _))
  | total, _, _, .cons name keys r dflt alias sba s rest, (_, v) :: ds, _, es, _, _, hkey, hk, he, .omitted _ hd hs, h' => by
    simp only [CoreFields.KeysOk, CoreFields.Ok, CoreFields.Exact] at hkey hk he
    obtain ⟨_, ⟨ns, _, hin, hun⟩, hkey⟩ := hkey
    cases h' with
    | written _ _ h2 hs' => exact absurd (hun _ hin) (fields_looked hkey hs _ (.head _))
    | omitted _ hd' hs' =>
      rw [hd] at hd'
      cases hd'
      exact .default hd (equalFields hok hex ba bn hkey hk.2 he.2 hs hs')
    | absent hs' => cases hd
  | _, _, _, .cons name keys _ _ alias sba s rest, ds, _, es, _, _, hkey, hk, he, .absent hs, h' => by
    simp only [CoreFields.KeysOk, CoreFields.Ok, CoreFields.Exact] at hkey hk he
    obtain ⟨_, ⟨ns, _, hin, hun⟩, hkey⟩ := hkey
    cases h' with
    | written _ _ h2 hs' => exact absurd (hun _ hin) (fields_looked hkey hs _ (.head _))
    | omitted _ hd' hs' => cases hd'
    | absent hs' => exact .neither (equalFields hok hex ba bn hkey hk.2 he.2 hs hs')
termination_by structural _ _ _ _ _ _ _ _ _ _ _ _ h => h
end

end PC.Trip
