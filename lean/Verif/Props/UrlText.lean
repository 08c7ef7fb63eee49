import Verif.Props.UrlValidator

/-
C67: the unicode form of a URL.  C68: the text of a multi-host URL, reading it back, and equality against hash.
-/

namespace PC.Url

/-! ### Labels -/

theorem splitOnChar_ne (sep : Char) (s : Text) : splitOnChar sep s ≠ [] := by
  induction s with
  | nil => simp [splitOnChar]
  | cons c cs ih =>
    simp only [splitOnChar]
    split
    · simp
    · split <;> simp

theorem dotted_cons (l : Text) (ls : List Text) (h : ls ≠ []) : dotted (l :: ls) = l ++ '.' :: dotted ls := by
  cases ls with
  | nil => exact absurd rfl h
  | cons k ks => rfl

theorem splitOnChar_append (a s : Text) (h : '.' ∉ a) :
    splitOnChar '.' (a ++ '.' :: s) = a :: splitOnChar '.' s := by
  induction a with
  | nil => simp [splitOnChar]
  | cons c cs ih =>
    have hc : c ≠ '.' := fun e => h (by rw [e]; simp)
    have hcs : '.' ∉ cs := fun e => h (List.mem_cons_of_mem _ e)
    simp only [List.cons_append, splitOnChar, beq_eq_false_iff_ne.2 hc, Bool.false_eq_true, if_false, ih hcs]

theorem splitOnChar_clean (a : Text) (h : '.' ∉ a) : splitOnChar '.' a = [a] := by
  induction a with
  | nil => rfl
  | cons c cs ih =>
    have hc : c ≠ '.' := fun e => h (by rw [e]; simp)
    have hcs : '.' ∉ cs := fun e => h (List.mem_cons_of_mem _ e)
    simp only [splitOnChar, beq_eq_false_iff_ne.2 hc, Bool.false_eq_true, if_false, ih hcs]

theorem splitOnChar_labels (d : Text) (labels : List Text) (h : Labels d labels) : splitOnChar '.' d = labels := by
  obtain ⟨h1, h2, h3⟩ := h
  subst h3
  induction labels with
  | nil => exact absurd rfl h1
  | cons l ls ih =>
    cases ls with
    | nil => exact splitOnChar_clean l (h2 l (by simp))
    | cons k ks =>
      rw [dotted_cons _ _ (by simp), splitOnChar_append _ _ (h2 l (by simp)),
        ih (by simp) (fun x hx => h2 x (List.mem_cons_of_mem _ hx))]

/-- Every domain has labels. -/
theorem labels_exist (d : Text) : ∃ labels, Labels d labels := by
  induction d with
  | nil => exact ⟨[[]], by simp, by simp, rfl⟩
  | cons c cs ih =>
    obtain ⟨labels, h1, h2, h3⟩ := ih
    by_cases hc : c = '.'
    · subst hc
      refine ⟨[] :: labels, by simp, ?_, by rw [dotted_cons _ _ h1, h3]; rfl⟩
      intro l hl
      cases hl with
      | head => simp
      | tail _ hl => exact h2 l hl
    · cases labels with
      | nil => exact absurd rfl h1
      | cons l ls =>
        refine ⟨(c :: l) :: ls, by simp, ?_, ?_⟩
        · intro k hk
          cases hk with
          | head =>
            intro hm
            cases hm with
            | head => exact hc rfl
            | tail _ hm => exact h2 l (by simp) hm
          | tail _ hk => exact h2 k (List.mem_cons_of_mem _ hk)
        · rw [← h3]
          cases ls <;> rfl

theorem decodeLoop_eq (dec : Text → Option Text) (chunks : List Text) (acc : Text) :
    decodeLoop dec chunks acc =
      (chunks.mapM (decodeLabel dec)).map (fun ds => acc ++ ds.flatMap (· ++ ['.'])) := by
  induction chunks generalizing acc with
  | nil => simp [decodeLoop]
  | cons c cs ih =>
    simp only [decodeLoop, List.mapM_cons]
    by_cases hp : punycodePrefix.isPrefixOf c = true
    · have hp' : "xn--".toList <+: c := List.isPrefixOf_iff_prefix.1 hp
      rw [if_pos hp]
      simp only [decodeLabel, if_pos hp']
      have hl : punycodePrefix.length = 4 := rfl
      rw [hl]
      cases dec (c.drop 4) with
      | none => rfl
      | some d =>
        dsimp only
        rw [ih]
        cases List.mapM (decodeLabel dec) cs with
        | none => rfl
        | some ds => simp
    · have hp' : ¬ "xn--".toList <+: c := fun h => hp (List.isPrefixOf_iff_prefix.2 h)
      rw [if_neg hp]
      simp only [decodeLabel, if_neg hp']
      rw [ih]
      cases List.mapM (decodeLabel dec) cs with
      | none => rfl
      | some ds => simp

theorem dropLast_dots (ds : List Text) (h : ds ≠ []) : (ds.flatMap (· ++ ['.'])).dropLast = dotted ds := by
  induction ds with
  | nil => exact absurd rfl h
  | cons d es ih =>
    cases es with
    | nil => simp [dotted]
    | cons e es =>
      rw [dotted_cons _ _ (by simp), ← ih (by simp), List.flatMap_cons]
      have hne : (e :: es).flatMap (· ++ ['.']) ≠ [] := by simp
      rw [List.dropLast_append_of_ne_nil hne]
      simp

theorem mapM_length {α β : Type} (f : α → Option β) (l : List α) (r : List β) (h : l.mapM f = some r) :
    r.length = l.length := by
  induction l generalizing r with
  | nil => simp at h; subst h; rfl
  | cons a as ih =>
    rw [List.mapM_cons] at h
    cases hf : f a with
    | none => rw [hf] at h; exact absurd h (by simp)
    | some b =>
      rw [hf] at h
      cases hm : as.mapM f with
      | none => rw [hm] at h; exact absurd h (by simp)
      | some bs =>
        rw [hm] at h
        simp only [bind, Option.bind, pure, Option.some.injEq] at h
        subst h
        simp [ih bs hm]

/-- **C67 (the host).** A domain is decoded label by label: each label with the prefix `xn--` is replaced by its
decoding, the others stay, and the dots stay; if a label cannot be decoded there is no decoding. -/
theorem decode_exact (dec : Text → Option Text) (d : Text) (labels : List Text) (h : Labels d labels) :
    decodePunycode dec d = (labels.mapM (decodeLabel dec)).map dotted := by
  unfold decodePunycode
  rw [splitOnChar_labels d labels h, decodeLoop_eq]
  cases hm : labels.mapM (decodeLabel dec) with
  | none => rfl
  | some ds =>
    have hne : ds ≠ [] := by
      intro he
      have := mapM_length _ _ _ hm
      rw [he] at this
      exact h.1 (List.length_eq_zero_iff.1 this.symm)
    simp [dropLast_dots ds hne]

theorem mapM_keep (dec : Text → Option Text) (labels : List Text) (h : ∀ l ∈ labels, ¬ "xn--".toList <+: l) :
    labels.mapM (decodeLabel dec) = some labels := by
  induction labels with
  | nil => rfl
  | cons l ls ih =>
    rw [List.mapM_cons, ih (fun x hx => h x (List.mem_cons_of_mem _ hx))]
    simp only [decodeLabel, if_neg (h l (by simp))]
    rfl

/-- The domain shown in the unicode form: decoded for special schemes, if it can be. -/
def shownDomain (dec : Text → Option Text) (scheme d : Text) (labels : List Text) : Text :=
  if schemaIsSpecial scheme then ((labels.mapM (decodeLabel dec)).map dotted).getD d else d

/-- **C67, the part that holds.** Without credentials, the unicode form is the text of the URL with its host decoded and
everything else unchanged. The full statement would hold with credentials too: see `unicode_wrong_with_credentials`. -/
theorem unicode_exact_partial (dec : Text → Option Text) (p : Parts) (d : Text) (labels : List Text)
    (hh : p.host = some (.domain d)) (hl : Labels d labels) (hu : p.userinfo = []) :
    unicodeUrl dec p = some ({ p with host := some (.domain (shownDomain dec p.scheme d labels)) } : Parts).asStr := by
  have hstr : ∀ x : Text, ({ p with host := some (.domain x) } : Parts).asStr =
      (p.scheme ++ "://".toList) ++ x ++ (portText p.port ++ p.path ++ p.tail) := by
    intro x; simp [Parts.asStr, Parts.authority, hu, Host.text]
  have hself : p.asStr = (p.scheme ++ "://".toList) ++ d ++ (portText p.port ++ p.path ++ p.tail) := by
    simp [Parts.asStr, Parts.authority, hu, Host.text, hh]
  unfold unicodeUrl
  simp only [hh]
  rw [hstr, hself]
  have hsplit := splitOnChar_labels d labels hl
  by_cases hs : schemaIsSpecial p.scheme = true
  · unfold shownDomain
    rw [if_pos hs]
    by_cases hp : isPunycodeDomain p.scheme d = true
    · rw [if_pos hp, decode_exact dec d labels hl]
      cases hm : labels.mapM (decodeLabel dec) with
      | none => rfl
      | some ds =>
        have h3 : blen p.scheme + 3 = blen (p.scheme ++ "://".toList) := by rw [blen_append]; rfl
        simp only [Option.map_some, Option.getD_some, h3]
        exact replaceRange_mid _ _ _ _
    · rw [if_neg hp]
      have hnone : ∀ l ∈ labels, ¬ "xn--".toList <+: l := by
        intro l hlm hpre
        apply hp
        unfold isPunycodeDomain
        rw [hs, hsplit, Bool.true_and, List.any_eq_true]
        exact ⟨l, hlm, List.isPrefixOf_iff_prefix.2 hpre⟩
      rw [mapM_keep dec labels hnone]
      simp [hl.2.2]
  · have hp : isPunycodeDomain p.scheme d = false := by
      unfold isPunycodeDomain
      simp only [Bool.not_eq_true] at hs
      rw [hs, Bool.false_and]
    rw [hp]
    unfold shownDomain
    rw [if_neg hs]
    simp

/-- **C67 (other hosts).** Without a domain the unicode form is the text of the URL. -/
theorem unicode_no_domain (dec : Text → Option Text) (p : Parts) (h : ∀ d, p.host ≠ some (.domain d)) :
    unicodeUrl dec p = some p.asStr := by
  unfold unicodeUrl
  cases hh : p.host with
  | none => rfl
  | some x =>
    cases x with
    | domain d => exact absurd hh (h d)
    | ip t => rfl

/-- **C67 (the host alone).** `unicode_host` shows the domain as the unicode form does, whenever it can be decoded. -/
theorem unicode_host_agrees (dec : Text → Option Text) (p : Parts) (d : Text) (labels : List Text)
    (hh : p.host = some (.domain d)) (hl : Labels d labels) (t : Text) (h : unicodeHost dec p = some t) :
    t = shownDomain dec p.scheme d labels := by
  unfold unicodeHost at h
  simp only [hh] at h
  have hsplit := splitOnChar_labels d labels hl
  by_cases hp : isPunycodeDomain p.scheme d = true
  · rw [if_pos hp, decode_exact dec d labels hl] at h
    have hs : schemaIsSpecial p.scheme = true := by
      unfold isPunycodeDomain at hp
      simp only [Bool.and_eq_true] at hp
      exact hp.1
    unfold shownDomain
    rw [if_pos hs, h]
    rfl
  · rw [if_neg hp] at h
    simp only [Option.some.injEq] at h
    subst h
    unfold shownDomain
    by_cases hs : schemaIsSpecial p.scheme = true
    · rw [if_pos hs]
      have hnone : ∀ l ∈ labels, ¬ "xn--".toList <+: l := by
        intro l hlm hpre
        apply hp
        unfold isPunycodeDomain
        rw [hs, hsplit, Bool.true_and, List.any_eq_true]
        exact ⟨l, hlm, List.isPrefixOf_iff_prefix.2 hpre⟩
      rw [mapM_keep dec labels hnone]
      simp [hl.2.2]
    · rw [if_neg hs]

/-- A decoder knowing one label. -/
def decA : Text → Option Text := fun t => if t = "4ca".toList then some ['ä'] else none

/-- `http://u@xn--4ca.de/`. -/
def credUrl : Parts where
  scheme := "http".toList
  userinfo := "u@".toList
  host := some (.domain "xn--4ca.de".toList)
  port := none
  path := ['/']
  tail := []

/-- **C67 is false with credentials.** The unicode form of `http://u@xn--4ca.de/` is `http://ä.dede/`: the range
replaced begins at the credentials, which are lost, and stops short of the end of the host. -/
theorem unicode_wrong_with_credentials :
    credUrl.asStr = "http://u@xn--4ca.de/".toList ∧ unicodeUrl decA credUrl = some "http://ä.dede/".toList ∧
      unicodeUrl decA credUrl ≠ some ({ credUrl with host := some (.domain "ä.de".toList) } : Parts).asStr := by
  refine ⟨by decide, by decide, by decide⟩

example : unicodeUrl decA { credUrl with userinfo := [], port := some 80 } = some "http://ä.de:80/".toList := by decide

/-- The hypotheses of `decode_exact`, `unicode_exact_partial` and `unicode_host_agrees`. -/
example : Labels "xn--4ca.de".toList ["xn--4ca".toList, "de".toList] ∧
    (["xn--4ca".toList, "de".toList].mapM (decodeLabel decA)).map dotted = some "ä.de".toList ∧
    unicodeHost decA credUrl = some "ä.de".toList :=
  ⟨⟨by decide, by decide, by decide⟩, by decide, by decide⟩

example : ∀ d, ({ credUrl with host := some (.ip "[::1]".toList) } : Parts).host ≠ some (.domain d) := by
  intro d h; simp at h

/-! ### Multi-host URLs -/

theorem joinComma_cons (t : Text) (ts : List Text) (h : ts ≠ []) : joinComma (t :: ts) = t ++ ',' :: joinComma ts := by
  cases ts with
  | nil => exact absurd rfl h
  | cons k ks => rfl

theorem joinComma_hostList (ts : List Text) (h : ts ≠ []) : joinComma ts ++ [','] = hostList ts := by
  induction ts with
  | nil => exact absurd rfl h
  | cons t ts ih =>
    cases ts with
    | nil => simp [joinComma, hostList]
    | cons k ks =>
      rw [joinComma_cons _ _ (by simp), hostList_cons, ← ih (by simp)]
      simp

theorem extraHosts_eq (pre suf : Text) (as : List Text) :
    extraHosts (blen pre) (blen suf) (as.map (fun a => pre ++ a ++ suf)) = some as := by
  induction as with
  | nil => rfl
  | cons a as ih =>
    simp only [List.map_cons, extraHosts]
    have : blen (pre ++ a ++ suf) - blen suf = blen pre + blen a := by
      rw [blen_append, blen_append]; omega
    rw [this, slice_mid, ih]
    rfl

/-- **C68 (text).** If the text of each URL of a multi-host URL is scheme, `://`, an authority, path and the rest, and
the URLs of the leading hosts have no path but the slash of special schemes, then the text of the whole is scheme,
`://`, all the authorities in order with commas between, and path and rest of the reference URL. -/
theorem multi_text (textOf : Parts → Option Text) (auth : Parts → Text) (m : Multi Parts) (es : List Parts)
    (he : m.extraUrls = some es) (hne : es ≠ [])
    (href : textOf m.refUrl = some (m.refUrl.scheme ++ "://".toList ++ auth m.refUrl ++ m.refUrl.path ++ m.refUrl.tail))
    (hex : ∀ e ∈ es, HostOnly m.refUrl.scheme e ∧
      textOf e = some (e.scheme ++ "://".toList ++ auth e ++ e.path ++ e.tail)) :
    multiText textOf m = some (m.refUrl.scheme ++ "://".toList ++ hostList (es.map auth) ++ auth m.refUrl ++
      m.refUrl.path ++ m.refUrl.tail) := by
  have hoff : blen m.refUrl.scheme + 3 = blen (m.refUrl.scheme ++ "://".toList) := by rw [blen_append]; rfl
  generalize hpre : m.refUrl.scheme ++ "://".toList = pre at *
  have hsuf : ∃ suf : Text, (if schemaIsSpecial m.refUrl.scheme then ['/'] else []) = suf ∧
      (if schemaIsSpecial m.refUrl.scheme then 1 else 0) = blen suf := by
    cases schemaIsSpecial m.refUrl.scheme with
    | true => exact ⟨['/'], rfl, by decide⟩
    | false => exact ⟨[], rfl, rfl⟩
  obtain ⟨suf, hs1, hs2⟩ := hsuf
  have hmap : es.mapM textOf = some ((es.map auth).map (fun a => pre ++ a ++ suf)) := by
    clear hne he
    induction es with
    | nil => rfl
    | cons e es ih =>
      obtain ⟨⟨h1, h2, h3, h4⟩, h5⟩ := hex e (by simp)
      rw [List.mapM_cons, h5, ih (fun x hx => hex x (List.mem_cons_of_mem _ hx))]
      simp only [bind, Option.bind, pure, List.map_cons, Option.some.injEq, List.cons.injEq, and_true]
      rw [h1, hpre, h3, h4, hs1]
      simp
  unfold multiText
  rw [he]
  simp only [href, hoff, hs2, hmap]
  have e1 : pre ++ auth m.refUrl ++ m.refUrl.path ++ m.refUrl.tail =
      pre ++ (auth m.refUrl ++ m.refUrl.path ++ m.refUrl.tail) := by simp
  rw [e1, insertStr_mid]
  dsimp only
  rw [extraHosts_eq]
  dsimp only
  rw [List.append_assoc, insertStr_mid]
  have hj := joinComma_hostList (es.map auth) (by simpa using hne)
  rw [← hj]
  simp

/-- **C68 (`str`).** The text of a multi-host URL lists all its hosts, with credentials and ports, in order. -/
theorem multiStr_exact (m : Multi Parts) (es : List Parts) (he : m.extraUrls = some es) (hne : es ≠ [])
    (href : m.refUrl.host.isSome = true) (hex : ∀ e ∈ es, HostOnly m.refUrl.scheme e) :
    multiStr m = some (m.refUrl.scheme ++ "://".toList ++ hostList (es.map Parts.authority) ++ m.refUrl.authority ++
      m.refUrl.path ++ m.refUrl.tail) := by
  have hstr : ∀ p : Parts, p.host.isSome = true →
      some p.asStr = some (p.scheme ++ "://".toList ++ p.authority ++ p.path ++ p.tail) := by
    intro p hp
    unfold Parts.asStr
    cases hh : p.host with
    | none => rw [hh] at hp; exact absurd hp (by simp)
    | some x => rfl
  exact multi_text _ Parts.authority m es he hne (hstr _ href) (fun e hm => ⟨hex e hm, hstr e (hex e hm).2.1⟩)

/-- The authority without credentials as it is shown in the unicode form. -/
def shownAuthority (dec : Text → Option Text) (p : Parts) : Text :=
  (match p.host with
    | some (.domain d) => shownDomain dec p.scheme d (splitOnChar '.' d)
    | some (.ip t) => t
    | none => []) ++ portText p.port

/-- **C68 (`unicode_string`), the part that holds.** Without credentials in any of the URLs, the unicode form lists the
decoded hosts in order. With credentials it is wrong as for a single URL (`unicode_wrong_with_credentials`). -/
theorem multiUnicode_exact_partial (dec : Text → Option Text) (m : Multi Parts) (es : List Parts)
    (he : m.extraUrls = some es) (hne : es ≠ []) (href : m.refUrl.host.isSome = true) (hru : m.refUrl.userinfo = [])
    (hex : ∀ e ∈ es, HostOnly m.refUrl.scheme e ∧ e.userinfo = []) :
    multiUnicode dec m = some (m.refUrl.scheme ++ "://".toList ++ hostList (es.map (shownAuthority dec)) ++
      shownAuthority dec m.refUrl ++ m.refUrl.path ++ m.refUrl.tail) := by
  have hu : ∀ p : Parts, p.host.isSome = true → p.userinfo = [] →
      unicodeUrl dec p = some (p.scheme ++ "://".toList ++ shownAuthority dec p ++ p.path ++ p.tail) := by
    intro p hp hui
    cases hh : p.host with
    | none => rw [hh] at hp; exact absurd hp (by simp)
    | some x =>
      cases x with
      | domain d =>
        obtain ⟨labels, hl⟩ := labels_exist d
        rw [unicode_exact_partial dec p d labels hh hl hui]
        simp [Parts.asStr, Parts.authority, shownAuthority, hui, Host.text, hh, splitOnChar_labels d labels hl]
      | ip t =>
        rw [unicode_no_domain dec p (by intro d hd; rw [hh] at hd; simp at hd)]
        simp [Parts.asStr, Parts.authority, shownAuthority, hui, Host.text, hh]
  exact multi_text _ (shownAuthority dec) m es he hne (hu _ href hru)
    (fun e hm => ⟨(hex e hm).1, hu e (hex e hm).1.2.1 (hex e hm).2⟩)

/-- **C68 (reading back).** A multi-host URL is recovered from its text - so it survives pickling and copying through
its text - provided that the library reads back the text of each single URL, and that no authority contains a comma, a
slash or another character ending the authority. -/
theorem multi_roundtrip (lib : UrlLib Parts) (m : Multi Parts) (es : List Parts) (he : m.extraUrls = some es)
    (hne : es ≠ []) (hsch : m.refUrl.scheme ≠ []) (hschc : ∀ c ∈ m.refUrl.scheme, SchemeChar c)
    (href : m.refUrl.host.isSome = true) (hex : ∀ e ∈ es, HostOnly m.refUrl.scheme e)
    (hclean : ∀ p, p = m.refUrl ∨ p ∈ es →
      p.authority ≠ [] ∧ (∀ c ∈ p.authority, c ∉ [',', '/', '\\', '?', '#']) ∧ lib.hasHost p = true)
    (htail : ∀ c, (m.refUrl.path ++ m.refUrl.tail).head? = some c → c ∈ ['/', '?', '#'])
    (hreadRef : lib.parse m.refUrl.asStr = .ok m.refUrl)
    (hreadEx : ∀ e ∈ es, lib.parse (e.scheme ++ "://".toList ++ e.authority) = .ok e) :
    ∃ t, multiStr m = some t ∧ parseMultihostUrl lib false t = .ok m := by
  refine ⟨_, multiStr_exact m es he hne href hex, ?_⟩
  have hnotEnds : ∀ c, c ∉ [',', '/', '\\', '?', '#'] → c ≠ ',' ∧ ¬ Ends m.refUrl.scheme c := by
    intro c hc
    simp only [List.mem_cons, List.not_mem_nil, or_false, not_or] at hc
    obtain ⟨c1, c2, c3, c4, c5⟩ := hc
    refine ⟨c1, ?_⟩
    rintro (h | h | h | ⟨h, -⟩) <;> contradiction
  have s : Shape (m.refUrl.scheme ++ "://".toList ++ hostList (es.map Parts.authority) ++ m.refUrl.authority ++
      m.refUrl.path ++ m.refUrl.tail) [] m.refUrl.scheme "//".toList (es.map Parts.authority) m.refUrl.authority
      (m.refUrl.path ++ m.refUrl.tail) := by
    refine ⟨by simp, by simp, hsch, hschc, by decide, ?_, ?_, ?_, ?_⟩
    · intro c hc
      cases es with
      | nil => exact absurd rfl hne
      | cons e es =>
        obtain ⟨a1, a2, -⟩ := hclean e (Or.inr (by simp))
        cases ha : e.authority with
        | nil => exact absurd ha a1
        | cons d ds =>
          rw [List.map_cons, hostList_cons, ha] at hc
          simp only [List.cons_append, List.append_assoc, List.head?_cons, Option.some.injEq] at hc
          subst hc
          have := a2 d (by rw [ha]; simp)
          simp only [List.mem_cons, List.not_mem_nil, or_false, not_or] at this
          exact ⟨this.2.1, this.2.2.1⟩
    · intro h hh c hc
      obtain ⟨e, hem, rfl⟩ := List.mem_map.1 hh
      exact hnotEnds c ((hclean e (Or.inr hem)).2.1 c hc)
    · intro c hc
      exact hnotEnds c ((hclean _ (Or.inl rfl)).2.1 c hc)
    · intro c hc
      have := htail c hc
      simp only [List.mem_cons, List.not_mem_nil, or_false] at this
      rcases this with h | h | h
      · exact Or.inl h
      · exact Or.inr (Or.inl h)
      · exact Or.inr (Or.inr (Or.inl h))
  rw [multihost_exact lib false s]
  have hrefText : m.refUrl.asStr = [] ++ m.refUrl.scheme ++ [':'] ++ "//".toList ++ m.refUrl.authority ++
      (m.refUrl.path ++ m.refUrl.tail) := by
    unfold Parts.asStr
    cases hh : m.refUrl.host with
    | none => rw [hh] at href; exact absurd href (by simp)
    | some x => simp
  refine ⟨?_, ⟨by simp, by rw [← hrefText]; exact hreadRef, by simp⟩, Or.inr ⟨by simpa using hne,
    (hclean _ (Or.inl rfl)).2.2, es, he, by simp, ?_⟩⟩
  · intro hm
    obtain ⟨e, hem, h0⟩ := List.mem_map.1 hm
    exact (hclean e (Or.inr hem)).1 h0
  · intro i h u hi hu
    rw [List.getElem?_map, hu] at hi
    simp only [Option.map_some, Option.some.injEq] at hi
    subst hi
    have hmem := List.mem_of_getElem? hu
    refine ⟨⟨by simp, ?_, by simp⟩, (hclean u (Or.inr hmem)).2.2⟩
    have := hreadEx u hmem
    rw [(hex u hmem).1] at this
    simpa using this

/-! ### Equality and hash -/

/-- **C68 (single URLs).** Equal URLs have the same text, hence the same hash. -/
theorem url_eq_same_text (a b : Parts) (h : urlEq a b = true) : a.asStr = b.asStr := by
  simpa [urlEq] using h

/-- `foo://b/p` and `foo://a`, the two URLs of `foo://a,b/p`; and `foo://a,b/p` as one URL, whose host is `a,b`. -/
def fooB : Parts where
  scheme := "foo".toList
  userinfo := []
  host := some (.domain ['b'])
  port := none
  path := "/p".toList
  tail := []

/-- `foo://a`. -/
def fooA : Parts := { fooB with host := some (.domain ['a']), path := [] }

/-- `foo://a,b/p` as a single URL. -/
def fooAB : Parts := { fooB with host := some (.domain "a,b".toList) }

/-- A library reading these three texts. -/
def fooLib : UrlLib Parts := { toy with
  parse := fun t =>
    if t = fooB.asStr then .ok fooB
    else if t = fooA.asStr then .ok fooA
    else if t = fooAB.asStr then .ok fooAB
    else .error 0 }

/-- No settings. -/
def plain : Cfg where
  strict := false
  maxLength := none
  allowedSchemes := none
  hostRequired := false
  defaultHost := none
  defaultPort := none
  defaultPath := none

/-- **C68 is false of equality and hash.** `MultiHostUrl('foo://a,b/p')` and `MultiHostUrl(Url('foo://a,b/p'))` are
equal, but what is hashed differs (and so do their hosts). -/
theorem multi_equal_but_hashed_differently :
    ∃ x y, validateMulti fooLib (fun _ => none) plain none (textIn "foo://a,b/p") = .ok (.fresh x) ∧
      validateMulti fooLib (fun _ => none) plain none { text := fun _ => none, kind := .url fooAB } = .ok (.fresh y) ∧
      multiEq (fun _ => none) x y = true ∧ hashInput x ≠ hashInput y :=
  ⟨{ refUrl := fooB, extraUrls := some [fooA] }, { refUrl := fooAB, extraUrls := none }, rfl, rfl, by decide, by decide⟩

/-- **C68 (hash), the part that holds.** Multi-host URLs with no extra hosts, and whose single URLs are shown as they
are (the unicode form is the text), are equal exactly when the same is hashed. -/
theorem multi_hash_single_partial (dec : Text → Option Text) (a b : Parts) (ha : unicodeUrl dec a = some a.asStr)
    (hb : unicodeUrl dec b = some b.asStr) :
    multiEq dec { refUrl := a, extraUrls := none } { refUrl := b, extraUrls := none } = true ↔
      hashInput { refUrl := a, extraUrls := none } = hashInput { refUrl := b, extraUrls := none } := by
  simp [multiEq, multiUnicode, multiText, ha, hb, hashInput]

/-- **C68 (hash).** The extra hosts take part in the hash: multi-host URLs with the same scheme of which the same is
hashed are shown as the same text. -/
theorem multi_hash_same_text (x y : Multi Parts) (hs : x.refUrl.scheme = y.refUrl.scheme)
    (h : hashInput x = hashInput y) : multiStr x = multiStr y := by
  obtain ⟨a, xs⟩ := x
  obtain ⟨b, ys⟩ := y
  simp only [hashInput, Prod.mk.injEq] at h
  obtain ⟨h1, h2⟩ := h
  have texts : ∀ l : List Parts, l.mapM (fun p => some p.asStr) = some (l.map Parts.asStr) := by
    intro l
    induction l with
    | nil => rfl
    | cons p ps ih => simp [List.mapM_cons, ih]
  cases xs with
  | none =>
    cases ys with
    | none => simp [multiStr, multiText, h1]
    | some ys => simp at h2
  | some xs =>
    cases ys with
    | none => simp at h2
    | some ys =>
      simp only [Option.map_some, Option.some.injEq] at h2
      dsimp only at hs
      simp only [multiStr, multiText, texts, h1, h2, hs]

example : ∃ x y : Multi Parts, x.refUrl.scheme = y.refUrl.scheme ∧ hashInput x = hashInput y ∧
    x.extraUrls.isSome = true :=
  ⟨{ refUrl := fooB, extraUrls := some [fooA] }, { refUrl := fooB, extraUrls := some [fooA] }, rfl, rfl, rfl⟩

example : multiStr { refUrl := fooB, extraUrls := some [fooA] } = some "foo://a,b/p".toList := by decide

/-- The hypotheses of `multiStr_exact`, `multiUnicode_exact_partial` and `multi_roundtrip`. -/
example : HostOnly fooB.scheme fooA ∧ fooA.userinfo = [] ∧ fooB.host.isSome = true ∧
    (∀ p, p = fooB ∨ p ∈ [fooA] →
      p.authority ≠ [] ∧ (∀ c ∈ p.authority, c ∉ [',', '/', '\\', '?', '#']) ∧ fooLib.hasHost p = true) ∧
    fooLib.parse fooB.asStr = .ok fooB ∧ fooLib.parse (fooA.scheme ++ "://".toList ++ fooA.authority) = .ok fooA := by
  refine ⟨⟨rfl, rfl, rfl, by decide⟩, rfl, rfl, ?_, rfl, rfl⟩
  intro p hp
  rcases hp with rfl | hp
  · exact ⟨by decide, by decide, rfl⟩
  · simp only [List.mem_cons, List.not_mem_nil, or_false] at hp
    subst hp
    exact ⟨by decide, by decide, rfl⟩

example : unicodeUrl (fun _ => none) fooAB = some fooAB.asStr := by decide

end PC.Url
