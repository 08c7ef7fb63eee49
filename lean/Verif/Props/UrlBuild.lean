import Verif.Props.UrlSplit

/-
C69: the text that `Url.build` and `MultiHostUrl.build` make of their arguments.
-/

namespace PC.Url

/-- An optional piece with its mark in front. -/
def marked (mark : Char) : Option Text → Text
  | none => []
  | some t => mark :: t

/-- No character of `bad` occurs. -/
def Free (bad : List Char) (t : Text) : Prop := ∀ c ∈ t, c ∉ bad

/-- The credentials as written before the host. -/
def credText (username password : Option Text) : Text :=
  if username = none ∧ password = none then [] else username.getD [] ++ marked ':' password ++ ['@']

/-- The text of one host. -/
def hostText (h : HostParts) : Text := credText h.username h.password ++ h.host.getD [] ++ portText h.port

theorem display_eq (h : HostParts) : h.display = hostText h := by
  obtain ⟨u, p, t, n⟩ := h
  cases u <;> cases p <;> cases t <;> cases n <;> simp [HostParts.display, hostText, credText, marked, portText]

theorem pushRest_eq (url : Text) (path query fragment : Option Text) :
    pushRest url path query fragment = url ++ marked '/' path ++ marked '?' query ++ marked '#' fragment := by
  cases path <;> cases query <;> cases fragment <;> simp [pushRest, marked]

/-- **C69 (`Url.build`).** The text is scheme, `://`, the credentials and an `@` if there are any, host, `:` and port,
`/` and path, `?` and query, `#` and fragment, in this order, leaving out what is not given. -/
theorem buildUrl_exact (scheme host : Text) (username password : Option Text) (port : Option Nat)
    (path query fragment : Option Text) :
    buildUrl scheme host username password port path query fragment =
      scheme ++ "://".toList ++ credText username password ++ host ++ portText port ++ marked '/' path ++
        marked '?' query ++ marked '#' fragment := by
  simp only [buildUrl, pushRest_eq, display_eq, hostText, Option.getD_some]
  simp

/-- Arguments of `build` in which no piece contains a mark of a later one. -/
structure CleanArgs (scheme host : Text) (username password : Option Text) (path query : Option Text) : Prop where
  scheme : Free [':'] scheme
  username : ∀ u, username = some u → u ≠ [] ∧ Free [':', '@', '/', '?', '#'] u
  password : ∀ p, password = some p → Free ['@', '/', '?', '#'] p
  host : Free [':', '@', '/', '?', '#'] host
  path : ∀ p, path = some p → Free ['?', '#'] p
  query : ∀ q, query = some q → Free ['#'] q

theorem marked_inj {mark : Char} {a b : Option Text} (h : marked mark a = marked mark b) : a = b := by
  cases a <;> cases b <;> simp_all [marked]

theorem digits_inj {a b : Nat} (h : (toString a).toList = (toString b).toList) : a = b := by
  have ha : (toString a).toList = Nat.toDigits 10 a := Nat.toList_repr
  have hb : (toString b).toList = Nat.toDigits 10 b := Nat.toList_repr
  rw [ha, hb] at h
  have := congrArg (fun l => Nat.ofDigitChars 10 l 0) h
  simpa [Nat.ofDigitChars_ten_toDigits] using this

theorem portText_inj {a b : Option Nat} (h : portText a = portText b) : a = b := by
  cases a with
  | none => cases b with
    | none => rfl
    | some n => simp [portText] at h
  | some m => cases b with
    | none => simp [portText] at h
    | some n =>
      simp only [portText, List.cons.injEq, true_and] at h
      rw [digits_inj h]

theorem portText_free (p : Option Nat) : Free ['@', '/', '?', '#'] (portText p) := by
  cases p with
  | none => intro c hc; simp [portText] at hc
  | some n =>
    intro c hc
    simp only [portText] at hc
    cases hc with
    | head => decide
    | tail _ hc =>
      have hl : (toString n).toList = Nat.toDigits 10 n := Nat.toList_repr
      rw [hl] at hc
      have hd := Nat.isDigit_of_mem_toDigits (by decide) (by decide) hc
      intro hm
      simp only [List.mem_cons, List.not_mem_nil, or_false] at hm
      rcases hm with rfl | rfl | rfl | rfl <;> exact absurd hd (by decide)

theorem credText_free (username password : Option Text)
    (hu : ∀ u, username = some u → u ≠ [] ∧ Free [':', '@', '/', '?', '#'] u)
    (hp : ∀ p, password = some p → Free ['@', '/', '?', '#'] p) : Free ['/', '?', '#'] (credText username password) := by
  have hu' : Free ['@', '/', '?', '#'] (username.getD []) := by
    cases username with
    | none => intro c hc; simp at hc
    | some u =>
      intro c hc hm
      exact (hu u rfl).2 c hc (List.mem_cons_of_mem _ hm)
  have hp' : Free ['@', '/', '?', '#'] (marked ':' password) := by
    cases password with
    | none => intro c hc; simp [marked] at hc
    | some p =>
      intro c hc
      simp only [marked] at hc
      cases hc with
      | head => decide
      | tail _ hc => exact hp p rfl c hc
  intro c hc
  unfold credText at hc
  split at hc
  · simp at hc
  · rw [List.mem_append, List.mem_append] at hc
    rcases hc with (hc | hc) | hc
    · exact fun hm => hu' c hc (List.mem_cons_of_mem _ hm)
    · exact fun hm => hp' c hc (List.mem_cons_of_mem _ hm)
    · simp only [List.mem_cons, List.not_mem_nil, or_false] at hc
      subst hc; decide

theorem cred_inj {u u' p p' : Option Text} {b b' : Text}
    (hu : ∀ x, u = some x → x ≠ [] ∧ Free [':', '@', '/', '?', '#'] x) (hp : ∀ x, p = some x → Free ['@', '/', '?', '#'] x)
    (hu' : ∀ x, u' = some x → x ≠ [] ∧ Free [':', '@', '/', '?', '#'] x)
    (hp' : ∀ x, p' = some x → Free ['@', '/', '?', '#'] x)
    (hb : '@' ∉ b) (hb' : '@' ∉ b') (h : credText u p ++ b = credText u' p' ++ b') : u = u' ∧ p = p' ∧ b = b' := by
  have freeAt : ∀ (u p : Option Text), (∀ x, u = some x → x ≠ [] ∧ Free [':', '@', '/', '?', '#'] x) →
      (∀ x, p = some x → Free ['@', '/', '?', '#'] x) → ∀ c ∈ u.getD [] ++ marked ':' p, c ≠ '@' := by
    intro u p hu hp c hc
    rw [List.mem_append] at hc
    rcases hc with hc | hc
    · cases u with
      | none => simp at hc
      | some x => rintro rfl; exact (hu x rfl).2 _ hc (by decide)
    · cases p with
      | none => simp [marked] at hc
      | some x =>
        simp only [marked] at hc
        cases hc with
        | head => decide
        | tail _ hc => rintro rfl; exact hp x rfl _ hc (by decide)
  by_cases h1 : u = none ∧ p = none
  · by_cases h2 : u' = none ∧ p' = none
    · simp only [credText, if_pos h1, if_pos h2, List.nil_append] at h
      exact ⟨by rw [h1.1, h2.1], by rw [h1.2, h2.2], h⟩
    · exfalso
      simp only [credText, if_pos h1, if_neg h2, List.nil_append] at h
      exact hb (by rw [h]; simp)
  · by_cases h2 : u' = none ∧ p' = none
    · exfalso
      simp only [credText, if_neg h1, if_pos h2, List.nil_append] at h
      exact hb' (by rw [← h]; simp)
    · simp only [credText, if_neg h1, if_neg h2] at h
      have h' : (u.getD [] ++ marked ':' p) ++ ('@' :: b) = (u'.getD [] ++ marked ':' p') ++ ('@' :: b') := by
        simpa using h
      obtain ⟨e1, e2⟩ := split_unique (fun c => c ≠ '@') h' (freeAt u p hu hp) (freeAt u' p' hu' hp')
        (fun c hc hn => by simp at hc; exact hn hc.symm) (fun c hc hn => by simp at hc; exact hn hc.symm)
      have noColon : ∀ (u : Option Text), (∀ x, u = some x → x ≠ [] ∧ Free [':', '@', '/', '?', '#'] x) →
          ∀ c ∈ u.getD [], c ≠ ':' := by
        intro u hu c hc
        cases u with
        | none => simp at hc
        | some x => rintro rfl; exact (hu x rfl).2 _ hc (by decide)
      have headColon : ∀ (p : Option Text) c, (marked ':' p).head? = some c → ¬ c ≠ ':' := by
        intro p c hc
        cases p with
        | none => simp [marked] at hc
        | some x => simp [marked] at hc; exact fun hn => hn hc.symm
      obtain ⟨e3, e4⟩ := split_unique (fun c => c ≠ ':') e1 (noColon u hu) (noColon u' hu') (headColon p) (headColon p')
      refine ⟨?_, marked_inj e4, by simpa using e2⟩
      cases u with
      | none => cases u' with
        | none => rfl
        | some x => simp at e3; exact absurd e3 (hu' x rfl).1
      | some x => cases u' with
        | none => simp at e3; exact absurd e3 (hu x rfl).1
        | some y => simp at e3; rw [e3]

/-- **C69 (nothing is lost), the part that holds.** When no piece contains the marks of later ones and a user name is
not empty, the text determines every argument. The full statement, for all arguments, is false: nothing is escaped, see
`build_ambiguous`. -/
theorem build_injective_partial {scheme scheme' host host' : Text} {username username' password password' : Option Text}
    {port port' : Option Nat} {path path' query query' fragment fragment' : Option Text}
    (h : CleanArgs scheme host username password path query)
    (h' : CleanArgs scheme' host' username' password' path' query')
    (heq : buildUrl scheme host username password port path query fragment =
      buildUrl scheme' host' username' password' port' path' query' fragment') :
    scheme = scheme' ∧ host = host' ∧ username = username' ∧ password = password' ∧ port = port' ∧ path = path' ∧
      query = query' ∧ fragment = fragment' := by
  rw [buildUrl_exact, buildUrl_exact] at heq
  have e0 : scheme ++ (':' :: ("//".toList ++ ((credText username password ++ (host ++ portText port)) ++
      (marked '/' path ++ (marked '?' query ++ marked '#' fragment))))) =
      scheme' ++ (':' :: ("//".toList ++ ((credText username' password' ++ (host' ++ portText port')) ++
      (marked '/' path' ++ (marked '?' query' ++ marked '#' fragment'))))) := by
    simpa using heq
  have headIs : ∀ (x : Char) (l : Text) c, (x :: l).head? = some c → ¬ c ≠ x := by
    intro x l c hc hn
    simp at hc; exact hn hc.symm
  obtain ⟨e1, e2⟩ := split_unique (fun c => c ≠ ':') e0
    (fun c hc => by have := h.scheme c hc; simpa using this)
    (fun c hc => by have := h'.scheme c hc; simpa using this) (headIs ':' _) (headIs ':' _)
  simp only [List.cons.injEq, true_and, List.append_cancel_left_eq] at e2
  have authFree : ∀ {scheme host : Text} {username password : Option Text} (port : Option Nat) {path query : Option Text},
      CleanArgs scheme host username password path query →
      ∀ c ∈ credText username password ++ (host ++ portText port), c ∉ ['/', '?', '#'] := by
    intro scheme host username password port path query h c hc
    rw [List.mem_append, List.mem_append] at hc
    rcases hc with hc | hc | hc
    · exact credText_free _ _ h.username h.password c hc
    · exact fun hm => h.host c hc (List.mem_cons_of_mem _ (List.mem_cons_of_mem _ hm))
    · exact fun hm => portText_free port c hc (List.mem_cons_of_mem _ hm)
  have restHead : ∀ (path query fragment : Option Text) c,
      (marked '/' path ++ (marked '?' query ++ marked '#' fragment)).head? = some c → ¬ c ∉ ['/', '?', '#'] := by
    intro path query fragment c hc
    cases path <;> cases query <;> cases fragment <;> simp [marked] at hc <;> subst hc <;> decide
  obtain ⟨e3, e4⟩ := split_unique (fun c => c ∉ ['/', '?', '#']) e2 (authFree port h) (authFree port' h')
    (restHead _ _ _) (restHead _ _ _)
  have noAt : ∀ {scheme host : Text} {username password : Option Text} (port : Option Nat) {path query : Option Text},
      CleanArgs scheme host username password path query → '@' ∉ host ++ portText port := by
    intro scheme host username password port path query h hc
    rw [List.mem_append] at hc
    rcases hc with hc | hc
    · exact h.host _ hc (by decide)
    · exact portText_free port _ hc (by decide)
  obtain ⟨e5, e6, e7⟩ := cred_inj h.username h.password h'.username h'.password (noAt port h) (noAt port' h') e3
  have portHead : ∀ (p : Option Nat) c, (portText p).head? = some c → ¬ c ≠ ':' := by
    intro p c hc hn
    cases p with
    | none => simp [portText] at hc
    | some n => simp [portText] at hc; exact hn hc.symm
  obtain ⟨e8, e9⟩ := split_unique (fun c => c ≠ ':') e7
    (fun c hc => by rintro rfl; exact h.host _ hc (by decide))
    (fun c hc => by rintro rfl; exact h'.host _ hc (by decide)) (portHead _) (portHead _)
  have pathFree : ∀ {scheme host : Text} {username password : Option Text} {path query : Option Text},
      CleanArgs scheme host username password path query → ∀ c ∈ marked '/' path, c ∉ ['?', '#'] := by
    intro scheme host username password path query h c hc
    cases path with
    | none => simp [marked] at hc
    | some p =>
      simp only [marked] at hc
      cases hc with
      | head => decide
      | tail _ hc => exact h.path p rfl c hc
  have qHead : ∀ (query fragment : Option Text) c,
      (marked '?' query ++ marked '#' fragment).head? = some c → ¬ c ∉ ['?', '#'] := by
    intro query fragment c hc
    cases query <;> cases fragment <;> simp [marked] at hc <;> subst hc <;> decide
  obtain ⟨e10, e11⟩ := split_unique (fun c => c ∉ ['?', '#']) e4 (pathFree h) (pathFree h') (qHead _ _) (qHead _ _)
  have queryFree : ∀ {scheme host : Text} {username password : Option Text} {path query : Option Text},
      CleanArgs scheme host username password path query → ∀ c ∈ marked '?' query, c ≠ '#' := by
    intro scheme host username password path query h c hc
    cases query with
    | none => simp [marked] at hc
    | some q =>
      simp only [marked] at hc
      cases hc with
      | head => decide
      | tail _ hc => have := h.query q rfl c hc; simpa using this
  have fHead : ∀ (fragment : Option Text) c, (marked '#' fragment).head? = some c → ¬ c ≠ '#' := by
    intro fragment c hc hn
    cases fragment with
    | none => simp [marked] at hc
    | some f => simp [marked] at hc; exact hn hc.symm
  obtain ⟨e12, e13⟩ := split_unique (fun c => c ≠ '#') e11 (queryFree h) (queryFree h') (fHead _) (fHead _)
  exact ⟨e1, e8, e5, e6, portText_inj e9, marked_inj e10, marked_inj e12, marked_inj e13⟩

/-- **C69 is false without these conditions.** Nothing is escaped: the user name `u:p` without a password and the user
name `u` with the password `p` give the same text; and a user name `a/b` moves the host into the path. -/
theorem build_ambiguous :
    buildUrl "http".toList "h".toList (some "u:p".toList) none none none none none =
      buildUrl "http".toList "h".toList (some "u".toList) (some "p".toList) none none none none ∧
    buildUrl "http".toList "h".toList (some "a/b".toList) none none none none none =
      buildUrl "http".toList "a".toList none none none (some "b@h".toList) none none := by
  constructor <;> decide

/-! ### Several hosts -/

theorem pushHosts_spec (total : Nat) (hs : List HostParts) (index : Nat) (url : Text) (htot : index + hs.length = total) :
    pushHosts total hs index url =
      if hs.any HostParts.isEmpty then .error .emptyHost else .ok (url ++ joinComma (hs.map hostText)) := by
  induction hs generalizing index url with
  | nil => simp [pushHosts, joinComma]
  | cons h hs ih =>
    simp only [pushHosts]
    by_cases he : h.isEmpty = true
    · rw [if_pos he]
      simp [he]
    · rw [if_neg he]
      simp only [Bool.not_eq_true] at he
      have hany : (h :: hs).any HostParts.isEmpty = hs.any HostParts.isEmpty := by simp [he]
      rw [hany]
      simp only [List.length_cons] at htot
      rw [ih (index + 1) _ (by omega), display_eq]
      split
      · rfl
      · congr 1
        cases hs with
        | nil =>
          have : ¬ index ≠ total - 1 := by
            simp only [List.length_nil] at htot
            omega
          rw [if_neg this]
          simp [joinComma]
        | cons k ks =>
          have : index ≠ total - 1 := by
            simp only [List.length_cons] at htot
            omega
          rw [if_pos this]
          simp only [List.map_cons]
          have hj : joinComma (hostText h :: hostText k :: List.map hostText ks) =
              hostText h ++ ',' :: joinComma (hostText k :: List.map hostText ks) := rfl
          rw [hj]; simp

/-- **C69 (`MultiHostUrl.build`), the part that holds.** When every host has at least a host name, a password or a port,
the text is scheme, `://`, the hosts in order with commas between, and the rest as for a single URL. The full statement,
where a user name alone is enough as the error message says, is false: see `username_alone_refused`. -/
theorem buildMulti_exact_partial (scheme : Text) (hosts : List HostParts) (path query fragment : Option Text)
    (h : ∀ x ∈ hosts, x.host ≠ none ∨ x.password ≠ none ∨ x.port ≠ none) :
    buildMulti scheme (some hosts) path query fragment none none none none =
      .ok (scheme ++ "://".toList ++ joinComma (hosts.map hostText) ++ marked '/' path ++ marked '?' query ++
        marked '#' fragment) := by
  have hany : hosts.any HostParts.isEmpty = false := by
    rw [List.any_eq_false]
    intro x hx he
    simp only [HostParts.isEmpty, Bool.and_eq_true, Option.isNone_iff_eq_none] at he
    rcases h x hx with h | h | h
    · exact h he.1.1.1
    · exact h he.1.1.2
    · exact h he.2
  unfold buildMulti
  simp only [Option.isSome_some, Option.isSome_none, Bool.or_self, Bool.and_false, Bool.false_eq_true, if_false]
  rw [pushHosts_spec _ _ _ _ (by simp), hany]
  simp [pushRest_eq]

/-- **C69 (an empty host).** A host with nothing given is refused. -/
theorem buildMulti_empty_host (scheme : Text) (hosts : List HostParts) (path query fragment : Option Text)
    (x : HostParts) (hx : x ∈ hosts) (h : x = { username := none, password := none, host := none, port := none }) :
    buildMulti scheme (some hosts) path query fragment none none none none = .error .emptyHost := by
  have hany : hosts.any HostParts.isEmpty = true := by
    rw [List.any_eq_true]
    exact ⟨x, hx, by subst h; rfl⟩
  unfold buildMulti
  simp only [Option.isSome_some, Option.isSome_none, Bool.or_self, Bool.and_false, Bool.false_eq_true, if_false]
  rw [pushHosts_spec _ _ _ _ (by simp), hany]
  simp

/-- **C69 (one host).** With a host of its own the text is that of `Url.build`. -/
theorem buildMulti_single (scheme host : Text) (username password : Option Text) (port : Option Nat)
    (path query fragment : Option Text) :
    buildMulti scheme none path query fragment (some host) username password port =
      .ok (buildUrl scheme host username password port path query fragment) := by
  simp [buildMulti, buildUrl]

/-- **C69 (choice).** Hosts together with single values, or neither, are refused. -/
theorem buildMulti_choice (scheme : Text) (hosts : Option (List HostParts)) (path query fragment : Option Text)
    (host username password : Option Text) (port : Option Nat) :
    (hosts ≠ none → (host ≠ none ∨ username ≠ none ∨ password ≠ none ∨ port ≠ none) →
      buildMulti scheme hosts path query fragment host username password port = .error .both) ∧
    (hosts = none → host = none →
      buildMulti scheme hosts path query fragment host username password port = .error .neither) := by
  constructor
  · intro h1 h2
    cases hosts with
    | none => exact absurd rfl h1
    | some l => cases host <;> cases username <;> cases password <;> cases port <;> simp_all [buildMulti]
  · rintro rfl rfl
    simp [buildMulti]

/-- **C69 is false of a user name alone.** The message asks for one of 'host', 'username', 'password' or 'port'; a user
name alone is refused with this very message, a password alone is not. -/
theorem username_alone_refused :
    buildMulti "foo".toList (some [{ username := some "u".toList, password := none, host := none, port := none }])
      none none none none none none none = .error .emptyHost ∧
    buildMulti "foo".toList (some [{ username := none, password := some "p".toList, host := none, port := none }])
      none none none none none none none = .ok "foo://:p@".toList := ⟨rfl, rfl⟩

/-! ### The hypotheses are met -/

example : CleanArgs "https".toList "example.com".toList (some "me".toList) (some "s:t".toList) (some "a/b".toList)
    (some "q=1?".toList) := by
  refine ⟨by unfold Free; decide, ?_, ?_, by unfold Free; decide, ?_, ?_⟩
  · rintro u h; simp only [Option.some.injEq] at h; subst h; exact ⟨by decide, by unfold Free; decide⟩
  · rintro u h; simp only [Option.some.injEq] at h; subst h; unfold Free; decide
  · rintro u h; simp only [Option.some.injEq] at h; subst h; unfold Free; decide
  · rintro u h; simp only [Option.some.injEq] at h; subst h; unfold Free; decide

example : buildUrl "https".toList "example.com".toList (some "me".toList) (some "s:t".toList) (some 8000)
    (some "a/b".toList) (some "q=1?".toList) (some "f".toList) =
    "https://me:s:t@example.com:8000/a/b?q=1?#f".toList := by decide

example : buildMulti "db".toList (some [{ username := some "u".toList, password := none, host := some ['a'], port := none },
    { username := none, password := none, host := some ['b'], port := some 1 }]) (some "x".toList) none none none none none
    none = .ok "db://u@a,b:1/x".toList := rfl

end PC.Url
