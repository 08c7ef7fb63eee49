import Verif.Model.Url

/-
What the properties say about URLs, stated on texts, apart from the code.
-/

namespace PC.Url

/-- Letters, digits, `+`, `-` and `.`. -/
def SchemeChar (c : Char) : Prop := c.isAlphanum = true ∨ c = '+' ∨ c = '-' ∨ c = '.'

/-- The schemes of the WHATWG URL standard in which a backslash is a slash. -/
def Special (scheme : Text) : Prop :=
  scheme.map Char.toLower ∈
    ["http".toList, "https".toList, "ws".toList, "wss".toList, "ftp".toList, "file".toList]

/-- The characters that end the list of hosts. -/
def Ends (scheme : Text) (c : Char) : Prop := c = '/' ∨ c = '?' ∨ c = '#' ∨ (c = '\\' ∧ Special scheme)

/-- Each host followed by a comma. -/
def hostList (hosts : List Text) : Text := hosts.flatMap (· ++ [','])

/-- The reading of a text as `space scheme : slashes host, host, ..., last tail`: the hosts are what stands between the
slashes and the first character ending the list of hosts, cut at every comma. -/
structure Shape (url space scheme slashes : Text) (hosts : List Text) (last tail : Text) : Prop where
  text : url = space ++ scheme ++ [':'] ++ slashes ++ hostList hosts ++ last ++ tail
  space_chars : ∀ c ∈ space, c ≤ ' '
  scheme_ne : scheme ≠ []
  scheme_chars : ∀ c ∈ scheme, SchemeChar c
  slash_chars : ∀ c ∈ slashes, c = '/' ∨ c = '\\'
  slash_all : ∀ c, (hostList hosts ++ last ++ tail).head? = some c → c ≠ '/' ∧ c ≠ '\\'
  hosts_clean : ∀ h ∈ hosts, ∀ c ∈ h, c ≠ ',' ∧ ¬ Ends scheme c
  last_clean : ∀ c ∈ last, c ≠ ',' ∧ ¬ Ends scheme c
  tail_ends : ∀ c, tail.head? = some c → Ends scheme c

/-- The text begins, after white space, with a scheme and a colon. -/
def HasScheme (url : Text) : Prop :=
  ∃ space scheme rest, url = space ++ scheme ++ [':'] ++ rest ∧ (∀ c ∈ space, c ≤ ' ') ∧ scheme ≠ [] ∧
    ∀ c ∈ scheme, SchemeChar c

variable {U : Type}

/-- A URL text is acceptable to the library: it parses and, in strict mode, no violation but the one about credentials
is reported. -/
def Accepts (lib : UrlLib U) (strict : Bool) (url : Text) (u : U) : Prop :=
  url ≠ [] ∧ lib.parse url = .ok u ∧
    (strict = true → ∀ v ∈ lib.violations url, v = .embeddedCredentials)

/-- What filling in the defaults makes of a URL: a missing host, a missing port and an empty path are replaced, in
this order, by the defaults there are; nothing else is touched. -/
def Filled (lib : UrlLib U) (cfg : Cfg) (u r : U) : Prop :=
  ∃ u1 u2,
    (if lib.hasHost u = true then u1 = u
      else match cfg.defaultHost with
        | some h => lib.setHost u h = .ok u1
        | none => cfg.hostRequired = false ∧ u1 = u) ∧
    (match cfg.defaultPort, lib.port u1 with
      | some p, none => lib.setPort u1 p = some u2
      | _, _ => u2 = u1) ∧
    (match cfg.defaultPath with
      | some p => if lib.path u2 = [] ∨ lib.path u2 = ['/'] then r = lib.setPath u2 p else r = u2
      | none => r = u2)

/-- Nothing has to be filled in. -/
def Complete (lib : UrlLib U) (cfg : Cfg) (u : U) : Prop :=
  (lib.hasHost u = true ∨ (cfg.defaultHost = none ∧ cfg.hostRequired = false)) ∧
  (cfg.defaultPort = none ∨ lib.port u ≠ none) ∧
  (cfg.defaultPath = none ∨ (lib.path u ≠ [] ∧ lib.path u ≠ ['/']))

/-- The setters of the library change the part they are named after and no other. -/
structure Lawful (lib : UrlLib U) : Prop where
  setHost_host : ∀ u h u', lib.setHost u h = .ok u' → lib.hasHost u' = true
  setHost_port : ∀ u h u', lib.setHost u h = .ok u' → lib.port u' = lib.port u
  setHost_path : ∀ u h u', lib.setHost u h = .ok u' → lib.path u' = lib.path u
  setHost_scheme : ∀ u h u', lib.setHost u h = .ok u' → lib.scheme u' = lib.scheme u
  setPort_host : ∀ u p u', lib.setPort u p = some u' → lib.hasHost u' = lib.hasHost u
  setPort_port : ∀ u p u', lib.setPort u p = some u' → lib.port u' = some p
  setPort_path : ∀ u p u', lib.setPort u p = some u' → lib.path u' = lib.path u
  setPort_scheme : ∀ u p u', lib.setPort u p = some u' → lib.scheme u' = lib.scheme u
  setPath_host : ∀ u p, lib.hasHost (lib.setPath u p) = lib.hasHost u
  setPath_port : ∀ u p, lib.port (lib.setPath u p) = lib.port u
  setPath_scheme : ∀ u p, lib.scheme (lib.setPath u p) = lib.scheme u

/-- Within the length. -/
def Fits (cfg : Cfg) (bytes : Nat) : Prop := ∀ m, cfg.maxLength = some m → bytes ≤ m

/-- The scheme is one of those allowed. -/
def SchemeOk (cfg : Cfg) (scheme : Text) : Prop := ∀ l, cfg.allowedSchemes = some l → scheme ∈ l

/-- The labels of a domain, decoded where they carry the prefix. -/
def decodeLabel (dec : Text → Option Text) (label : Text) : Option Text :=
  if "xn--".toList <+: label then dec (label.drop 4) else some label

/-- Labels joined by dots. -/
def dotted : List Text → Text
  | [] => []
  | [l] => l
  | l :: ls => l ++ '.' :: dotted ls

/-- `labels` are the labels of a domain. -/
def Labels (domain : Text) (labels : List Text) : Prop :=
  labels ≠ [] ∧ (∀ l ∈ labels, '.' ∉ l) ∧ dotted labels = domain

/-- A URL that a library returns for one of the leading hosts of a multi-host URL: a host and nothing after the
port but the slash added to special schemes. -/
def HostOnly (scheme : Text) (p : Parts) : Prop :=
  p.scheme = scheme ∧ p.host.isSome = true ∧ p.tail = [] ∧
    p.path = (if schemaIsSpecial scheme then ['/'] else [])

end PC.Url
