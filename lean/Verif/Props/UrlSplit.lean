import Verif.Lemmas.Url

/-
C47: a multi-host URL is split at the commas of its authority and nowhere else.
-/

namespace PC.Url

variable {U : Type}

/-! ### Parsing one URL -/

theorem noteViolation_fold (l : List Violation) (acc : Option Nat) :
    l.foldl noteViolation acc = none ↔ acc = none ∧ ∀ v ∈ l, v = .embeddedCredentials := by
  induction l generalizing acc with
  | nil => simp
  | cons v vs ih =>
    rw [List.foldl_cons, ih]
    cases v <;> simp [noteViolation]

/-- **C47 (one URL).** A text is accepted exactly when it is not empty, the library parses it and, in strict mode, the
library reports no violation but the one about credentials. -/
theorem parseUrl_ok_iff (lib : UrlLib U) (strict : Bool) (url : Text) (u : U) :
    parseUrl lib strict url = .ok u ↔ Accepts lib strict url u := by
  unfold parseUrl Accepts
  cases url with
  | nil => simp
  | cons c cs =>
    simp only [List.isEmpty_cons, Bool.false_eq_true, if_false, ne_eq, reduceCtorEq, not_false_eq_true, true_and]
    cases strict with
    | false =>
      simp only [Bool.false_eq_true, if_false, false_implies, and_true]
      cases lib.parse (c :: cs) <;> simp
    | true =>
      simp only [if_true, true_implies]
      cases hp : lib.parse (c :: cs) with
      | error e => simp
      | ok v =>
        dsimp only
        cases hv : (lib.violations (c :: cs)).foldl noteViolation none with
        | none =>
          have := ((noteViolation_fold _ _).1 hv).2
          simp only [Except.ok.injEq]
          exact ⟨fun h => ⟨h, this⟩, fun h => h.1⟩
        | some n =>
          simp only [reduceCtorEq, false_iff]
          rintro ⟨-, h⟩
          have := (noteViolation_fold (lib.violations (c :: cs)) none).2 ⟨rfl, h⟩
          rw [hv] at this; exact absurd this (by simp)

theorem parseUrl_no_panic (lib : UrlLib U) (strict : Bool) (url : Text) : parseUrl lib strict url ≠ .error .panic := by
  unfold parseUrl
  split
  · simp
  · split
    · split
      · split <;> simp
      · simp
    · split <;> simp

/-! ### Readings -/

theorem schemeChar_gt_space {c : Char} (h : SchemeChar c) : ¬ c ≤ ' ' := by
  intro hle
  have h' := (isSchemeChar_iff c).2 h
  simp only [isSchemeChar, Bool.or_eq_true, Bool.and_eq_true, decide_eq_true_eq, beq_iff_eq] at h'
  rcases h' with ((((h | h) | h) | h) | h) | h
  · exact absurd (Char.le_trans h.1 hle) (by decide)
  · exact absurd (Char.le_trans h.1 hle) (by decide)
  · exact absurd (Char.le_trans h.1 hle) (by decide)
  · subst h; exact absurd hle (by decide)
  · subst h; exact absurd hle (by decide)
  · subst h; exact absurd hle (by decide)

theorem not_schemeChar_colon' : ¬ SchemeChar ':' := by
  rw [← isSchemeChar_iff]; decide

/-- **C47 (a reading exists).** Every text beginning with a scheme has a reading. -/
theorem shape_exists (url : Text) (h : HasScheme url) :
    ∃ space scheme slashes hosts last tail, Shape url space scheme slashes hosts last tail := by
  obtain ⟨space, scheme, rest, h1, h2, h3, h4⟩ := h
  obtain ⟨slashes, body, e1, e2, e3⟩ := takeWhile_split (fun c => c == '/' || c == '\\') rest
  obtain ⟨hosts, last, tail, f1, f2, f3, f4⟩ := splitHosts (schemaIsSpecial (scheme.map asciiLower)) body
  refine ⟨space, scheme, slashes, hosts, last, tail, ?_, h2, h3, h4, ?_, ?_, ?_, ?_, ?_⟩
  · rw [h1, e1, f1]; simp
  · intro c hc; simpa using e2 c hc
  · intro c hc; simpa using e3 c (by rw [f1]; exact hc)
  · intro g hg c hc
    obtain ⟨a, b⟩ := f2 g hg c hc
    exact ⟨a, fun he => by rw [(stops_iff scheme c).2 he] at b; exact absurd b (by simp)⟩
  · intro c hc
    obtain ⟨a, b⟩ := f3 c hc
    exact ⟨a, fun he => by rw [(stops_iff scheme c).2 he] at b; exact absurd b (by simp)⟩
  · intro c hc; exact (stops_iff scheme c).1 (f4 c hc)

theorem split_unique (p : Char → Prop) {a b a' b' : Text} (h : a ++ b = a' ++ b') (ha : ∀ c ∈ a, p c)
    (ha' : ∀ c ∈ a', p c) (hb : ∀ c, b.head? = some c → ¬ p c) (hb' : ∀ c, b'.head? = some c → ¬ p c) :
    a = a' ∧ b = b' := by
  induction a generalizing a' with
  | nil =>
    cases a' with
    | nil => exact ⟨rfl, h⟩
    | cons c cs =>
      exfalso
      simp only [List.nil_append] at h
      exact hb c (by rw [h]; rfl) (ha' c (by simp))
  | cons c cs ih =>
    cases a' with
    | nil =>
      exfalso
      simp only [List.nil_append] at h
      exact hb' c (by rw [← h]; rfl) (ha c (by simp))
    | cons d ds =>
      simp only [List.cons_append, List.cons.injEq] at h
      obtain ⟨rfl, h⟩ := h
      obtain ⟨e1, e2⟩ := ih h (fun x hx => ha x (List.mem_cons_of_mem _ hx)) (fun x hx => ha' x (List.mem_cons_of_mem _ hx))
      exact ⟨by rw [e1], e2⟩

theorem hosts_unique (p : Char → Prop) (hosts hosts' : List Text) (last last' tail tail' : Text)
    (hcomma : ¬ p ',')
    (h : hostList hosts ++ last ++ tail = hostList hosts' ++ last' ++ tail')
    (h1 : ∀ g ∈ hosts, ∀ c ∈ g, c ≠ ',' ∧ ¬ p c) (h2 : ∀ c ∈ last, c ≠ ',' ∧ ¬ p c)
    (h3 : ∀ c, tail.head? = some c → p c)
    (h1' : ∀ g ∈ hosts', ∀ c ∈ g, c ≠ ',' ∧ ¬ p c) (h2' : ∀ c ∈ last', c ≠ ',' ∧ ¬ p c)
    (h3' : ∀ c, tail'.head? = some c → p c) : hosts = hosts' ∧ last = last' ∧ tail = tail' := by
  induction hosts generalizing hosts' with
  | nil =>
    simp only [hostList, List.flatMap_nil, List.nil_append] at h
    cases hosts' with
    | nil =>
      simp only [List.flatMap_nil, List.nil_append] at h
      obtain ⟨e1, e2⟩ := split_unique (fun c => c ≠ ',' ∧ ¬ p c) h h2 h2' (fun c hc hn => hn.2 (h3 c hc))
        (fun c hc hn => hn.2 (h3' c hc))
      exact ⟨rfl, e1, e2⟩
    | cons g gs =>
      exfalso
      have h' : last ++ tail = g ++ (',' :: (hostList gs ++ last' ++ tail')) := by
        rw [h]; simp [hostList]
      obtain ⟨-, e2⟩ := split_unique (fun c => c ≠ ',' ∧ ¬ p c) h' h2 (h1' g (by simp))
        (fun c hc hn => hn.2 (h3 c hc)) (fun c hc hn => by simp at hc; exact hn.1 hc.symm)
      exact hcomma (h3 ',' (by rw [e2]; rfl))
  | cons f fs ih =>
    cases hosts' with
    | nil =>
      exfalso
      have h' : f ++ (',' :: (hostList fs ++ last ++ tail)) = last' ++ tail' := by
        have : hostList [] ++ last' ++ tail' = last' ++ tail' := by simp [hostList]
        rw [← this, ← h]; simp [hostList]
      obtain ⟨-, e2⟩ := split_unique (fun c => c ≠ ',' ∧ ¬ p c) h' (h1 f (by simp)) h2'
        (fun c hc hn => by simp at hc; exact hn.1 hc.symm) (fun c hc hn => hn.2 (h3' c hc))
      exact hcomma (h3' ',' (by rw [← e2]; rfl))
    | cons g gs =>
      have h' : f ++ (',' :: (hostList fs ++ last ++ tail)) = g ++ (',' :: (hostList gs ++ last' ++ tail')) := by
        rw [hostList_cons, hostList_cons] at h
        simpa using h
      obtain ⟨e1, e2⟩ := split_unique (fun c => c ≠ ',' ∧ ¬ p c) h' (h1 f (by simp)) (h1' g (by simp))
        (fun c hc hn => by simp at hc; exact hn.1 hc.symm) (fun c hc hn => by simp at hc; exact hn.1 hc.symm)
      simp only [List.cons.injEq, true_and] at e2
      obtain ⟨e3, e4, e5⟩ := ih gs e2 (fun x hx => h1 x (List.mem_cons_of_mem _ hx))
        (fun x hx => h1' x (List.mem_cons_of_mem _ hx))
      exact ⟨by rw [e1, e3], e4, e5⟩

/-- **C47 (a reading is unique).** No text has two readings. -/
theorem shape_unique {url space space' scheme scheme' slashes slashes' : Text} {hosts hosts' : List Text}
    {last last' tail tail' : Text} (s : Shape url space scheme slashes hosts last tail)
    (s' : Shape url space' scheme' slashes' hosts' last' tail') :
    space = space' ∧ scheme = scheme' ∧ slashes = slashes' ∧ hosts = hosts' ∧ last = last' ∧ tail = tail' := by
  have hhead : ∀ (sch rest : Text), sch ≠ [] → (∀ c ∈ sch, SchemeChar c) →
      ∀ c, (sch ++ rest).head? = some c → ¬ c ≤ ' ' := by
    intro sch rest hne hs c hc
    cases sch with
    | nil => exact absurd rfl hne
    | cons d ds =>
      simp only [List.cons_append, List.head?_cons, Option.some.injEq] at hc
      subst hc
      exact schemeChar_gt_space (hs d (by simp))
  have e : space ++ (scheme ++ (':' :: (slashes ++ (hostList hosts ++ last ++ tail)))) =
      space' ++ (scheme' ++ (':' :: (slashes' ++ (hostList hosts' ++ last' ++ tail')))) := by
    have h1 := s.text
    have h2 := s'.text
    rw [h1] at h2
    simpa using h2
  obtain ⟨e1, e⟩ := split_unique (fun c => c ≤ ' ') e s.space_chars s'.space_chars
    (hhead _ _ s.scheme_ne s.scheme_chars) (hhead _ _ s'.scheme_ne s'.scheme_chars)
  have hcol : ∀ (rest : Text) (c : Char), (':' :: rest).head? = some c → ¬ SchemeChar c := by
    intro rest c hc
    simp only [List.head?_cons, Option.some.injEq] at hc
    subst hc; exact not_schemeChar_colon'
  obtain ⟨e2, e⟩ := split_unique SchemeChar e s.scheme_chars s'.scheme_chars (hcol _) (hcol _)
  simp only [List.cons.injEq, true_and] at e
  obtain ⟨e3, eh⟩ := split_unique (fun c => c = '/' ∨ c = '\\') e s.slash_chars s'.slash_chars
    (fun c hc hn => by
      rcases hn with h | h
      · exact (s.slash_all c hc).1 h
      · exact (s.slash_all c hc).2 h)
    (fun c hc hn => by
      rcases hn with h | h
      · exact (s'.slash_all c hc).1 h
      · exact (s'.slash_all c hc).2 h)
  subst e2
  have hcomma : ¬ Ends scheme ',' := by
    rintro (h | h | h | ⟨h, -⟩) <;> exact absurd h (by decide)
  obtain ⟨e4, e5, e6⟩ := hosts_unique (Ends scheme) _ _ _ _ _ _ hcomma eh s.hosts_clean s.last_clean s.tail_ends
    s'.hosts_clean s'.last_clean s'.tail_ends
  exact ⟨e1, rfl, e3, e4, e5, e6⟩

/-- A reading of a text with credentials, ports and a comma in the path. -/
theorem sample_shape : Shape " Http://u:p@a:1,b/x,y".toList " ".toList "Http".toList "//".toList
    ["u:p@a:1".toList] "b".toList "/x,y".toList := by
  have hs : Special "Http".toList := by unfold Special; decide
  refine ⟨by decide, by decide, by decide, ?_, by decide, by decide, ?_, ?_, ?_⟩
  · intro c hc
    have : ∀ c ∈ "Http".toList, isSchemeChar c = true := by decide
    exact (isSchemeChar_iff c).1 (this c hc)
  · intro h hh c hc
    have : ∀ h ∈ ["u:p@a:1".toList], ∀ c ∈ h, c ≠ ',' ∧ c ≠ '/' ∧ c ≠ '?' ∧ c ≠ '#' ∧ c ≠ '\\' := by decide
    obtain ⟨h0, h1, h2, h3, h4⟩ := this h hh c hc
    exact ⟨h0, by rintro (h | h | h | ⟨h, -⟩) <;> contradiction⟩
  · intro c hc
    have : ∀ c ∈ "b".toList, c ≠ ',' ∧ c ≠ '/' ∧ c ≠ '?' ∧ c ≠ '#' ∧ c ≠ '\\' := by decide
    obtain ⟨h0, h1, h2, h3, h4⟩ := this c hc
    exact ⟨h0, by rintro (h | h | h | ⟨h, -⟩) <;> contradiction⟩
  · intro c hc
    have : c = '/' := by simpa using hc.symm
    exact Or.inl this

/-! ### The split -/

theorem parse_of_shape (lib : UrlLib U) (strict : Bool) {url space scheme slashes : Text} {hosts : List Text}
    {last tail : Text} (s : Shape url space scheme slashes hosts last tail) :
    parseMultihostUrl lib strict url =
      if [] ∈ hosts then .error .emptyHost
      else assemble lib strict (space ++ scheme ++ [':'] ++ slashes) hosts (last ++ tail) := by
  have hne : url ≠ [] := by
    intro h
    have := s.text
    rw [h] at this
    simp at this
  have hempty : url.isEmpty = false := by cases url <;> simp_all
  have hsp : skipSpace url 0 = (scheme ++ ':' :: (slashes ++ (hostList hosts ++ last ++ tail)), blen space) := by
    have e : url = space ++ (scheme ++ ':' :: (slashes ++ (hostList hosts ++ last ++ tail))) := by
      rw [s.text]; simp
    rw [e, skipSpace_append _ _ _ s.space_chars]
    · simp
    · intro c hc
      cases hs : scheme with
      | nil => exact absurd hs s.scheme_ne
      | cons d ds =>
        rw [hs] at hc
        simp only [List.cons_append, List.head?_cons, Option.some.injEq] at hc
        subst hc
        exact schemeChar_gt_space (s.scheme_chars d (by rw [hs]; simp))
  have hsc : scanScheme (blen space) (scheme ++ ':' :: (slashes ++ (hostList hosts ++ last ++ tail))) (blen space) =
      some (blen space + blen scheme, slashes ++ (hostList hosts ++ last ++ tail), blen space + blen scheme + 1) :=
    scanScheme_append _ _ _ _ s.scheme_chars (by have := blen_pos s.scheme_ne; omega)
  have hsl : slice url (blen space) (blen space + blen scheme) = some scheme := by
    have e : url = space ++ scheme ++ (':' :: (slashes ++ (hostList hosts ++ last ++ tail))) := by
      rw [s.text]; simp
    rw [e]; exact slice_mid _ _ _
  have hsk := skipSlashes_append slashes (hostList hosts ++ last ++ tail) (blen space + blen scheme + 1) s.slash_chars
    s.slash_all
  have hpos : blen space + blen scheme + 1 + blen slashes = blen (space ++ scheme ++ [':'] ++ slashes) := by
    rw [blen_append, blen_append, blen_append]; rfl
  rw [hpos] at hsk
  have hto : sliceTo url (blen (space ++ scheme ++ [':'] ++ slashes)) = some (space ++ scheme ++ [':'] ++ slashes) := by
    have e : url = (space ++ scheme ++ [':'] ++ slashes) ++ (hostList hosts ++ last ++ tail) := by
      rw [s.text]; simp
    rw [e]; exact sliceTo_append _ _
  have hstop : ∀ c, (¬ Ends scheme c) → stops (schemaIsSpecial (scheme.map asciiLower)) c = false := by
    intro c hc
    cases h : stops (schemaIsSpecial (scheme.map asciiLower)) c with
    | false => rfl
    | true => exact absurd ((stops_iff scheme c).1 h) hc
  have hscan := scanHosts_all url (schemaIsSpecial (scheme.map asciiLower)) hosts last tail
    (space ++ scheme ++ [':'] ++ slashes) [] (by rw [s.text]; simp)
    (fun h hh c hc => ⟨(s.hosts_clean h hh c hc).1, hstop c (s.hosts_clean h hh c hc).2⟩)
    (fun c hc => ⟨(s.last_clean c hc).1, hstop c (s.last_clean c hc).2⟩)
    (fun c hc => (stops_iff scheme c).2 (s.tail_ends c hc))
  unfold parseMultihostUrl
  rw [hempty]
  simp only [Bool.false_eq_true, if_false, hsp, hsc, hsl, hsk, hto, hscan]
  by_cases hin : [] ∈ hosts
  · rw [if_pos hin, if_pos hin]
  · rw [if_neg hin, if_neg hin]
    dsimp only
    have hfrom : sliceFrom url (blen (space ++ scheme ++ [':'] ++ slashes ++ hostList hosts)) = some (last ++ tail) := by
      have e : url = (space ++ scheme ++ [':'] ++ slashes ++ hostList hosts) ++ (last ++ tail) := by
        rw [s.text]; simp
      rw [e]; exact sliceFrom_append _ _
    rw [hfrom]
    simp

theorem parseExtras_ok_iff (lib : UrlLib U) (strict : Bool) (pre : Text) (hosts : List Text) (us : List U) :
    parseExtras lib strict pre hosts = .ok us ↔
      us.length = hosts.length ∧
        ∀ (i : Nat) h u, hosts[i]? = some h → us[i]? = some u → parseUrl lib strict (pre ++ h) = .ok u := by
  induction hosts generalizing us with
  | nil =>
    simp only [parseExtras, Except.ok.injEq, List.length_nil]
    constructor
    · rintro rfl; exact ⟨rfl, by simp⟩
    · rintro ⟨h, -⟩; exact (List.length_eq_zero_iff.1 h).symm
  | cons h hs ih =>
    simp only [parseExtras]
    constructor
    · intro hp
      cases hu : parseUrl lib strict (pre ++ h) with
      | error e => rw [hu] at hp; exact absurd hp (by simp)
      | ok u =>
        rw [hu] at hp
        dsimp only at hp
        cases hr : parseExtras lib strict pre hs with
        | error e => rw [hr] at hp; exact absurd hp (by simp)
        | ok us' =>
          rw [hr] at hp
          simp only [Except.ok.injEq] at hp
          subst hp
          obtain ⟨h1, h2⟩ := (ih us').1 hr
          refine ⟨by simp [h1], ?_⟩
          intro i g v hg hv
          cases i with
          | zero =>
            simp only [List.getElem?_cons_zero, Option.some.injEq] at hg hv
            subst hg; subst hv; exact hu
          | succ i =>
            simp only [List.getElem?_cons_succ] at hg hv
            exact h2 i g v hg hv
    · rintro ⟨hl, hall⟩
      cases us with
      | nil => simp at hl
      | cons u us' =>
        have hu := hall 0 h u rfl rfl
        have hr := (ih us').2 ⟨by simpa using hl, fun i g v hg hv => hall (i + 1) g v (by simpa using hg) (by simpa using hv)⟩
        rw [hu, hr]

/-- **C47.** For a text read as `space scheme : slashes host, ..., last tail` the result is exactly this: no host
before the last may be empty; the last host together with everything after the authority makes the reference URL;
each host before it is parsed with the same beginning (space, scheme, slashes) and nothing after it, in order; when
there are such hosts every URL must have a host, otherwise there are no extra URLs at all. Commas in path, query or
fragment are part of `tail` and never split. -/
theorem multihost_exact (lib : UrlLib U) (strict : Bool) {url space scheme slashes : Text} {hosts : List Text}
    {last tail : Text} (s : Shape url space scheme slashes hosts last tail) (m : Multi U) :
    parseMultihostUrl lib strict url = .ok m ↔
      [] ∉ hosts ∧
      Accepts lib strict (space ++ scheme ++ [':'] ++ slashes ++ last ++ tail) m.refUrl ∧
      ((hosts = [] ∧ m.extraUrls = none) ∨
        (hosts ≠ [] ∧ lib.hasHost m.refUrl = true ∧
          ∃ us, m.extraUrls = some us ∧ us.length = hosts.length ∧
            ∀ (i : Nat) h u, hosts[i]? = some h → us[i]? = some u →
              Accepts lib strict (space ++ scheme ++ [':'] ++ slashes ++ h) u ∧ lib.hasHost u = true)) := by
  rw [parse_of_shape lib strict s]
  by_cases hin : [] ∈ hosts
  · rw [if_pos hin]
    simp only [reduceCtorEq, false_iff]
    exact fun h => h.1 hin
  rw [if_neg hin]
  rw [← parseUrl_ok_iff]
  have hassoc : space ++ scheme ++ [':'] ++ slashes ++ last ++ tail
      = space ++ scheme ++ [':'] ++ slashes ++ (last ++ tail) := by simp
  rw [hassoc]
  generalize space ++ scheme ++ [':'] ++ slashes = pre
  unfold assemble
  cases hr : parseUrl lib strict (pre ++ (last ++ tail)) with
  | error e => simp
  | ok r =>
    dsimp only
    cases hosts with
    | nil =>
      obtain ⟨mr, me⟩ := m
      simp only [List.isEmpty_nil, if_true, Except.ok.injEq, Multi.mk.injEq, List.not_mem_nil, not_false_eq_true,
        true_and, ne_eq, not_true_eq_false, false_and, or_false]
      exact ⟨fun h => ⟨h.1, h.2.symm⟩, fun h => ⟨h.1, h.2.symm⟩⟩
    | cons h hs =>
      simp only [List.isEmpty_cons, Bool.false_eq_true, if_false, reduceCtorEq, false_and, ne_eq, not_false_eq_true,
        true_and, false_or, Except.ok.injEq]
      cases hh : lib.hasHost r with
      | false =>
        simp only [Bool.not_false, if_true, reduceCtorEq, false_iff]
        rintro ⟨-, rfl, h2, -⟩
        rw [hh] at h2; exact absurd h2 (by simp)
      | true =>
        simp only [Bool.not_true, Bool.false_eq_true, if_false]
        cases hx : parseExtras lib strict pre (h :: hs) with
        | error e =>
          simp only [reduceCtorEq, false_iff]
          rintro ⟨-, -, -, us, -, hl, hall⟩
          have := (parseExtras_ok_iff lib strict pre (h :: hs) us).2
            ⟨hl, fun i g v hg hv => (parseUrl_ok_iff _ _ _ _).2 (hall i g v hg hv).1⟩
          rw [hx] at this; exact absurd this (by simp)
        | ok us =>
          obtain ⟨hl, hall⟩ := (parseExtras_ok_iff lib strict pre (h :: hs) us).1 hx
          dsimp only
          cases ha : us.any (fun u => !lib.hasHost u) with
          | true =>
            simp only [if_true, reduceCtorEq, false_iff]
            rintro ⟨-, -, -, us', -, hl', hall'⟩
            have hsame := (parseExtras_ok_iff lib strict pre (h :: hs) us').2
              ⟨hl', fun i g v hg hv => (parseUrl_ok_iff _ _ _ _).2 (hall' i g v hg hv).1⟩
            rw [hx] at hsame
            simp only [Except.ok.injEq] at hsame
            subst hsame
            obtain ⟨u, hu, hnot⟩ := List.any_eq_true.1 ha
            obtain ⟨i, hi⟩ := List.getElem?_of_mem hu
            have hib : i < (h :: hs).length := by
              rw [← hl]; exact (List.getElem?_eq_some_iff.1 hi).1
            have := (hall' i _ u (List.getElem?_eq_getElem hib) hi).2
            rw [this] at hnot; exact absurd hnot (by simp)
          | false =>
            simp only [Bool.false_eq_true, if_false, Except.ok.injEq]
            constructor
            · rintro rfl
              refine ⟨hin, rfl, hh, us, rfl, hl, ?_⟩
              intro i g v hg hv
              refine ⟨(parseUrl_ok_iff _ _ _ _).1 (hall i g v hg hv), ?_⟩
              have := List.any_eq_false.1 ha v (List.mem_of_getElem? hv)
              simpa using this
            · rintro ⟨-, hr', -, us', he, hl', hall'⟩
              have hsame := (parseExtras_ok_iff lib strict pre (h :: hs) us').2
                ⟨hl', fun i g v hg hv => (parseUrl_ok_iff _ _ _ _).2 (hall' i g v hg hv).1⟩
              rw [hx] at hsame
              simp only [Except.ok.injEq] at hsame
              subst hsame
              obtain ⟨mr, me⟩ := m
              simp only at hr' he
              subst hr'; subst he
              rfl

/-- **C47 (an empty host).** A comma with nothing before it, within the authority, is always an error. -/
theorem multihost_empty (lib : UrlLib U) (strict : Bool) {url space scheme slashes : Text} {hosts : List Text}
    {last tail : Text} (s : Shape url space scheme slashes hosts last tail) (h : [] ∈ hosts) :
    parseMultihostUrl lib strict url = .error .emptyHost := by
  rw [parse_of_shape lib strict s, if_pos h]

/-- **C47 (one host).** Without a comma in the authority the text is parsed as it is, as for a single URL. -/
theorem multihost_single (lib : UrlLib U) (strict : Bool) {url space scheme slashes last tail : Text}
    (s : Shape url space scheme slashes [] last tail) (u : U) :
    parseMultihostUrl lib strict url = .ok { refUrl := u, extraUrls := none } ↔ parseUrl lib strict url = .ok u := by
  rw [multihost_exact lib strict s, parseUrl_ok_iff]
  have e : space ++ scheme ++ [':'] ++ slashes ++ last ++ tail = url := by rw [s.text]; simp [hostList]
  rw [e]
  simp

/-- **C47 (no scheme).** A text that does not begin with a scheme is refused. -/
theorem multihost_no_scheme (lib : UrlLib U) (strict : Bool) (url : Text) (h : ¬ HasScheme url) :
    parseMultihostUrl lib strict url = .error (if url = [] then .empty else .relative) := by
  unfold parseMultihostUrl
  cases url with
  | nil => rfl
  | cons c cs =>
    simp only [List.isEmpty_cons, Bool.false_eq_true, if_false, reduceCtorEq]
    obtain ⟨sp, rest, h1, h2, h3⟩ := takeWhile_split (fun c => decide (c ≤ ' ')) (c :: cs)
    have hsk := skipSpace_append sp rest 0 (fun c hc => by simpa using h2 c hc) (fun c hc => by simpa using h3 c hc)
    rw [← h1] at hsk
    rw [hsk]
    dsimp only
    cases hsc : scanScheme (0 + blen sp) rest (0 + blen sp) with
    | none => rfl
    | some r =>
      exfalso
      obtain ⟨sch, tl, g1, g2, g3⟩ := scanScheme_some _ _ _ _ hsc
      apply h
      refine ⟨sp, sch, tl, by rw [h1, g1]; simp, (fun c hc => by simpa using h2 c hc), ?_, g2⟩
      rintro rfl
      simp only [blen] at g3
      omega

/-- **C47 (no panic).** Whatever the text, no slice falls inside a character. -/
theorem multihost_no_panic (lib : UrlLib U) (strict : Bool) (url : Text) :
    parseMultihostUrl lib strict url ≠ .error .panic := by
  by_cases h : HasScheme url
  · obtain ⟨space, scheme, slashes, hosts, last, tail, s⟩ := shape_exists url h
    rw [parse_of_shape lib strict s]
    split
    · simp
    · generalize space ++ scheme ++ [':'] ++ slashes = pre
      have hx : ∀ hosts, parseExtras lib strict pre hosts ≠ .error .panic := by
        intro hosts
        induction hosts with
        | nil => simp [parseExtras]
        | cons g gs ih =>
          simp only [parseExtras]
          cases hp : parseUrl lib strict (pre ++ g) with
          | error e =>
            dsimp only
            intro hh
            simp only [Except.error.injEq] at hh
            exact parseUrl_no_panic lib strict _ (by rw [hp, hh])
          | ok u =>
            dsimp only
            cases hq : parseExtras lib strict pre gs with
            | error e =>
              dsimp only
              intro hh
              simp only [Except.error.injEq] at hh
              exact ih (by rw [hq, hh])
            | ok us => simp
      unfold assemble
      cases hp : parseUrl lib strict (pre ++ (last ++ tail)) with
      | error e =>
        dsimp only
        intro hh
        simp only [Except.error.injEq] at hh
        exact parseUrl_no_panic lib strict _ (by rw [hp, hh])
      | ok r =>
        dsimp only
        split
        · simp
        · split
          · simp
          · cases hq : parseExtras lib strict pre hosts with
            | error e =>
              dsimp only
              intro hh
              simp only [Except.error.injEq] at hh
              exact hx hosts (by rw [hq, hh])
            | ok us =>
              dsimp only
              split <;> simp
  · rw [multihost_no_scheme lib strict url h]
    split <;> simp

/-! ### The hypotheses are met -/

/-- A library that accepts every text and returns it. -/
def echo : UrlLib Text where
  parse t := .ok t
  violations _ := [.embeddedCredentials]
  hasHost t := t.length > 5
  scheme _ := "http".toList
  port _ := none
  path _ := []
  asStr t := t
  setHost t _ := .ok t
  setPort t _ := some t
  setPath t _ := t

example : parseMultihostUrl echo true " Http://u:p@a:1,b/x,y".toList =
    .ok { refUrl := " Http://b/x,y".toList, extraUrls := some [" Http://u:p@a:1".toList] } := rfl

example : parseMultihostUrl echo false "http://é,b".toList =
    .ok { refUrl := "http://b".toList, extraUrls := some ["http://é".toList] } := rfl

/-- The hypothesis of `multihost_exact` and `shape_unique` holds of a text with credentials and
a comma in the path; that of `multihost_no_scheme` of a text without a scheme. -/
example : Shape " Http://u:p@a:1,b/x,y".toList " ".toList "Http".toList "//".toList
    ["u:p@a:1".toList] "b".toList "/x,y".toList := sample_shape

example : HasScheme " Http://u:p@a:1,b/x,y".toList :=
  ⟨" ".toList, "Http".toList, "//u:p@a:1,b/x,y".toList, by decide, by decide, by decide, sample_shape.scheme_chars⟩

example : ¬ HasScheme "//a,b".toList := by
  rintro ⟨sp, sch, rest, h1, h2, h3, h4⟩
  cases sp with
  | cons c cs =>
    simp at h1
    have := h2 c (by simp)
    rw [← h1.1] at this
    exact absurd this (by decide)
  | nil =>
    cases sch with
    | nil => exact h3 rfl
    | cons c cs =>
      simp at h1
      have := h4 c (by simp)
      rw [← h1.1, ← isSchemeChar_iff] at this
      exact absurd this (by decide)

/-- Backslashes end the authority of special schemes only. -/
example : parseMultihostUrl echo false "http://a\\,b".toList =
    .ok { refUrl := "http://a\\,b".toList, extraUrls := none } := rfl

example : parseMultihostUrl echo false "postgres://a\\,b".toList =
    .ok { refUrl := "postgres://b".toList, extraUrls := some ["postgres://a\\".toList] } := rfl

example : parseMultihostUrl echo false "http://a,,b".toList = .error .emptyHost := rfl

end PC.Url
