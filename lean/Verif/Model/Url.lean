/-
URLs: splitting a multi-host URL into single-host ones, the `url` and `multi-host-url` validators, and the text
forms of `Url` and `MultiHostUrl`.

A text is its list of characters; offsets count UTF-8 bytes, as they do in Rust, and a slice whose ends are not
character boundaries is a panic (`none`).  The `url` crate is not part of the repository: it is a parameter
(`UrlLib`) for parsing and the validators.  For the text forms a URL is the record `Parts` of the pieces its
serialisation is made of, in their order.
-/

namespace PC.Url

/-- A Rust string as its characters. -/
abbrev Text := List Char

/-- `str::len`: the number of UTF-8 bytes. -/
def blen : Text → Nat
  | [] => 0
  | c :: cs => c.utf8Size + blen cs

/-- `str::split_at` at a byte offset, of the standard library; `none` (a panic) when the offset is past the end or
inside a character. -/
def cut : Text → Nat → Option (Text × Text)
  | s, 0 => some ([], s)
  | [], _ + 1 => none
  | c :: cs, n + 1 =>
    if c.utf8Size ≤ n + 1 then (cut cs (n + 1 - c.utf8Size)).map (fun p => (c :: p.1, p.2)) else none

/-- `&s[lo..hi]` of the standard library. -/
def slice (s : Text) (lo hi : Nat) : Option Text :=
  if lo ≤ hi then
    match cut s hi with
    | none => none
    | some (a, _) => (cut a lo).map (·.2)
  else none

/-- `&s[lo..]` of the standard library. -/
def sliceFrom (s : Text) (lo : Nat) : Option Text := (cut s lo).map (·.2)

/-- `&s[..hi]` of the standard library. -/
def sliceTo (s : Text) (hi : Nat) : Option Text := (cut s hi).map (·.1)

/-- `schema_is_special`, `src/url.rs:517-519`. -/
def schemaIsSpecial (schema : Text) : Bool :=
  schema == "http".toList || schema == "https".toList || schema == "ws".toList || schema == "wss".toList
    || schema == "ftp".toList || schema == "file".toList

/-- The errors of the two validators: `UrlParsing` with the texts `EMPTY_INPUT`, `RelativeUrlWithoutBase`,
`EmptyHost` or another of the library, `UrlSyntaxViolation`, `UrlTooLong`, `UrlScheme`, `UrlType`
(`src/validators/url.rs:73-80,98-100,131,141-147,368-379,484-490,511-529,556-559`); `panic` is a panic. -/
inductive Err where
  | empty
  | relative
  | emptyHost
  | lib (code : Nat)
  | violation (code : Nat)
  | tooLong (maxLength : Nat)
  | scheme
  | type
  | panic
deriving Repr, DecidableEq

/-- `SyntaxViolation` of the `url` crate; all but the one about credentials are alike here. -/
inductive Violation where
  | embeddedCredentials
  | other (code : Nat)
deriving Repr, DecidableEq

/-- The part of the `url` crate the validators call. `violations` lists the violations reported to the callback while
parsing, in order. -/
structure UrlLib (U : Type) where
  parse : Text → Except Nat U
  violations : Text → List Violation
  hasHost : U → Bool
  scheme : U → Text
  port : U → Option Nat
  path : U → Text
  asStr : U → Text
  setHost : U → Text → Except Nat U
  setPort : U → Nat → Option U
  setPath : U → Text → U

variable {U : Type}

/-- `PyMultiHostUrl`, `src/url.rs:198-201`. -/
structure Multi (U : Type) where
  refUrl : U
  extraUrls : Option (List U)
deriving Repr, DecidableEq

/-- The callback of `parse_url`, `src/validators/url.rs:499-507`: the violation kept after `v` is reported. -/
def noteViolation (vios : Option Nat) (v : Violation) : Option Nat :=
  match v with
  | .embeddedCredentials => vios
  | .other code => some code

/-- `parse_url`, `src/validators/url.rs:483-542`. -/
def parseUrl (lib : UrlLib U) (strict : Bool) (urlStr : Text) : Except Err U :=
  if urlStr.isEmpty then .error .empty
  else if strict then
    match lib.parse urlStr with
    | .ok url =>
      match (lib.violations urlStr).foldl noteViolation none with
      | some vio => .error (.violation vio)
      | none => .ok url
    | .error e => .error (.lib e)
  else
    match lib.parse urlStr with
    | .ok url => .ok url
    | .error e => .error (.lib e)

/-- The loop skipping white space, `src/validators/url.rs:388-400`; the state is that of `PositionedPeekable`
(`src/validators/url.rs:612-636`): the characters left and the byte position. -/
def skipSpace : Text → Nat → Text × Nat
  | [], pos => ([], pos)
  | c :: cs, pos =>
    if c == '\t' || c == '\n' || c == '\r' || decide (c ≤ ' ') then skipSpace cs (pos + c.utf8Size)
    else (c :: cs, pos)

/-- The characters of a scheme, `src/validators/url.rs:407`. -/
def isSchemeChar (c : Char) : Bool :=
  (decide ('a' ≤ c) && decide (c ≤ 'z')) || (decide ('A' ≤ c) && decide (c ≤ 'Z'))
    || (decide ('0' ≤ c) && decide (c ≤ '9')) || c == '+' || c == '-' || c == '.'

/-- The loop reading the scheme, `src/validators/url.rs:404-418`: the end of the scheme and the state after the
colon; `none` is the error `RelativeUrlWithoutBase`. -/
def scanScheme (schemaStart : Nat) : Text → Nat → Option (Nat × Text × Nat)
  | [], _ => none
  | c :: cs, pos =>
    let position := pos + c.utf8Size
    if isSchemeChar c then scanScheme schemaStart cs position
    else if c == ':' then
      let schemaEnd := position - ':'.utf8Size
      if schemaEnd > schemaStart then some (schemaEnd, cs, position) else none
    else none

/-- The loop skipping slashes, `src/validators/url.rs:423-431`. -/
def skipSlashes : Text → Nat → Text × Nat
  | [], pos => ([], pos)
  | c :: cs, pos =>
    if c == '/' || c == '\\' then skipSlashes cs (pos + c.utf8Size) else (c :: cs, pos)

/-- The loop splitting at commas, `src/validators/url.rs:436-453`: the hosts and the start of the last one. -/
def scanHosts (urlStr : Text) (special : Bool) : Text → Nat → Nat → List Text → Except Err (List Text × Nat)
  | [], _, start, hosts => .ok (hosts, start)
  | c :: cs, pos, start, hosts =>
    let position := pos + c.utf8Size
    if c == '\\' && special then .ok (hosts, start)
    else if c == '/' || c == '?' || c == '#' then .ok (hosts, start)
    else if c == ',' then
      let stop := position - ','.utf8Size
      if start = stop then .error .emptyHost
      else
        match slice urlStr start stop with
        | none => .error .panic
        | some host => scanHosts urlStr special cs position position (hosts ++ [host])
    else scanHosts urlStr special cs position start hosts

/-- `to_ascii_lowercase` of the standard library, on one character. -/
def asciiLower (c : Char) : Char :=
  if decide ('A' ≤ c) && decide (c ≤ 'Z') then Char.ofNat (c.toNat + 32) else c

/-- The `collect` over the extra hosts, `src/validators/url.rs:467-473`: the first failure ends it. -/
def parseExtras (lib : UrlLib U) (strict : Bool) (pre : Text) : List Text → Except Err (List U)
  | [] => .ok []
  | host :: hosts =>
    match parseUrl lib strict (pre ++ host) with
    | .error e => .error e
    | .ok u =>
      match parseExtras lib strict pre hosts with
      | .error e => .error e
      | .ok us => .ok (u :: us)

/-- The end of `parse_multihost_url`, `src/validators/url.rs:456-480`, from the prefix, the hosts and the text after
the last comma. -/
def assemble (lib : UrlLib U) (strict : Bool) (pre : Text) (hosts : List Text) (rest : Text) :
    Except Err (Multi U) :=
  match parseUrl lib strict (pre ++ rest) with
  | .error e => .error e
  | .ok refUrl =>
    if hosts.isEmpty then .ok { refUrl := refUrl, extraUrls := none }
    else if !lib.hasHost refUrl then .error .emptyHost
    else
      match parseExtras lib strict pre hosts with
      | .error e => .error e
      | .ok extraUrls =>
        if extraUrls.any (fun u => !lib.hasHost u) then .error .emptyHost
        else .ok { refUrl := refUrl, extraUrls := some extraUrls }

/-- `parse_multihost_url`, `src/validators/url.rs:364-481`. -/
def parseMultihostUrl (lib : UrlLib U) (strict : Bool) (urlStr : Text) : Except Err (Multi U) :=
  if urlStr.isEmpty then .error .empty
  else
    let (chars, schemaStart) := skipSpace urlStr 0
    match scanScheme schemaStart chars schemaStart with
    | none => .error .relative
    | some (schemaEnd, chars, pos) =>
      match slice urlStr schemaStart schemaEnd with
      | none => .error .panic
      | some schemaText =>
        let schema := schemaText.map asciiLower
        let (chars, pos) := skipSlashes chars pos
        match sliceTo urlStr pos with
        | none => .error .panic
        | some pre =>
          match scanHosts urlStr (schemaIsSpecial schema) chars pos pos [] with
          | .error e => .error e
          | .ok (hosts, start) =>
            match sliceFrom urlStr start with
            | none => .error .panic
            | some rest => assemble lib strict pre hosts rest

/-- The settings of the two validators, `src/validators/url.rs:28-37,192-201`. -/
structure Cfg where
  strict : Bool
  maxLength : Option Nat
  allowedSchemes : Option (List Text)
  hostRequired : Bool
  defaultHost : Option Text
  defaultPort : Option Nat
  defaultPath : Option Text

/-- The build of a validator, `src/validators/url.rs:42-60,206-230,590-609`, as far as it can refuse a schema: no
empty list of schemes and, for multi-host URLs, no comma in the default host. -/
def buildOk (multi : Bool) (cfg : Cfg) : Bool :=
  (match cfg.allowedSchemes with
    | some [] => false
    | _ => true) &&
  (match cfg.defaultHost with
    | some h => !(multi && h.contains ',')
    | none => true)

/-- The first part of `check_sub_defaults`, `src/validators/url.rs:557-566`; the flag says that `url_mut` was called,
which replaces a borrowed Python object by a copy (`src/validators/url.rs:180-188,353-361`). -/
def subHost (lib : UrlLib U) (cfg : Cfg) (u : U) : Except Err (Bool × U) :=
  if !lib.hasHost u then
    match cfg.defaultHost with
    | some h =>
      match lib.setHost u h with
      | .ok u' => .ok (true, u')
      | .error e => .error (.lib e)
    | none => if cfg.hostRequired then .error .emptyHost else .ok (false, u)
  else .ok (false, u)

/-- The second part of `check_sub_defaults`, `src/validators/url.rs:567-573`. -/
def subPort (lib : UrlLib U) (cfg : Cfg) (u : U) : Except Err (Bool × U) :=
  match cfg.defaultPort with
  | some p =>
    if (lib.port u).isNone then
      match lib.setPort u p with
      | some u' => .ok (true, u')
      | none => .error .emptyHost
    else .ok (false, u)
  | none => .ok (false, u)

/-- The third part of `check_sub_defaults`, `src/validators/url.rs:574-579`. -/
def subPath (lib : UrlLib U) (cfg : Cfg) (u : U) : Bool × U :=
  match cfg.defaultPath with
  | some p =>
    let path := lib.path u
    if path.isEmpty || path == ['/'] then (true, lib.setPath u p) else (false, u)
  | none => (false, u)

/-- `check_sub_defaults`, `src/validators/url.rs:545-581`. -/
def checkSubDefaults (lib : UrlLib U) (cfg : Cfg) (u : U) : Except Err (Bool × U) :=
  match subHost lib cfg u with
  | .error e => .error e
  | .ok (m1, u1) =>
    match subPort lib cfg u1 with
    | .error e => .error e
    | .ok (m2, u2) =>
      let (m3, u3) := subPath lib cfg u2
      .ok (m1 || m2 || m3, u3)

/-- What an input is: whether it is an instance of one of the two classes. -/
inductive Kind (U : Type) where
  | url (u : U)
  | multi (m : Multi U)
  | other

/-- An input: its text if `validate_str` accepts it (in strict or lax mode), and its kind. -/
structure In (U : Type) where
  text : Bool → Option Text
  kind : Kind U

/-- A result: the very object given, or a new one. -/
inductive Res (V : Type) where
  | same (v : V)
  | fresh (v : V)
deriving Repr, DecidableEq

/-- The URL in a result (`CopyFromPyUrl::url`, `src/validators/url.rs:173-178,346-351`). -/
def Res.val {V : Type} : Res V → V
  | .same v => v
  | .fresh v => v

/-- `check_length`, `src/validators/url.rs:138-151,308-324`: the length in bytes. -/
def tooLong (cfg : Cfg) (len : Nat) : Option Err :=
  match cfg.maxLength with
  | some m => if len > m then some (.tooLong m) else none
  | none => none

/-- `UrlValidator::get_url`, `src/validators/url.rs:109-136`; `multiText` is `PyMultiHostUrl::__str__`
(`none` is a panic). -/
def getUrl (lib : UrlLib U) (multiText : Multi U → Option Text) (cfg : Cfg) (strict : Bool) (input : In U) :
    Except Err (Res U) :=
  match input.text strict with
  | some urlStr =>
    match tooLong cfg (blen urlStr) with
    | some e => .error e
    | none =>
      match parseUrl lib strict urlStr with
      | .ok u => .ok (.fresh u)
      | .error e => .error e
  | none =>
    match input.kind with
    | .url u =>
      match tooLong cfg (blen (lib.asStr u)) with
      | some e => .error e
      | none => .ok (.same u)
    | .multi m =>
      match multiText m with
      | none => .error .panic
      | some urlStr =>
        match tooLong cfg (blen urlStr) with
        | some e => .error e
        | none =>
          match parseUrl lib strict urlStr with
          | .ok u => .ok (.fresh u)
          | .error e => .error e
    | .other => .error .type

/-- The check of the scheme, `src/validators/url.rs:74-85,244-255`. -/
def schemeAllowed (cfg : Cfg) (scheme : Text) : Bool :=
  match cfg.allowedSchemes with
  | some l => l.contains scheme
  | none => true

/-- `UrlValidator::validate`, `src/validators/url.rs:66-101`; `stateStrict` is the strictness of the call
(`strict_or`). -/
def validateUrl (lib : UrlLib U) (multiText : Multi U → Option Text) (cfg : Cfg) (stateStrict : Option Bool)
    (input : In U) : Except Err (Res U) :=
  match getUrl lib multiText cfg (stateStrict.getD cfg.strict) input with
  | .error e => .error e
  | .ok either =>
    if !schemeAllowed cfg (lib.scheme either.val) then .error .scheme
    else
      match checkSubDefaults lib cfg either.val with
      | .error e => .error e
      | .ok (changed, u) => if changed then .ok (.fresh u) else .ok either

/-- `MultiHostUrlValidator::get_url`, `src/validators/url.rs:278-306`. -/
def getMulti (lib : UrlLib U) (multiText : Multi U → Option Text) (cfg : Cfg) (strict : Bool) (input : In U) :
    Except Err (Res (Multi U)) :=
  match input.text strict with
  | some urlStr =>
    match tooLong cfg (blen urlStr) with
    | some e => .error e
    | none =>
      match parseMultihostUrl lib strict urlStr with
      | .ok m => .ok (.fresh m)
      | .error e => .error e
  | none =>
    match input.kind with
    | .multi m =>
      match cfg.maxLength with
      | none => .ok (.same m)
      | some _ =>
        match multiText m with
        | none => .error .panic
        | some s =>
          match tooLong cfg (blen s) with
          | some e => .error e
          | none => .ok (.same m)
    | .url u =>
      match tooLong cfg (blen (lib.asStr u)) with
      | some e => .error e
      | none => .ok (.fresh { refUrl := u, extraUrls := none })
    | .other => .error .type

/-- `MultiHostUrlValidator::validate`, `src/validators/url.rs:236-270`: scheme and defaults concern `ref_url` alone. -/
def validateMulti (lib : UrlLib U) (multiText : Multi U → Option Text) (cfg : Cfg) (stateStrict : Option Bool)
    (input : In U) : Except Err (Res (Multi U)) :=
  match getMulti lib multiText cfg (stateStrict.getD cfg.strict) input with
  | .error e => .error e
  | .ok either =>
    if !schemeAllowed cfg (lib.scheme either.val.refUrl) then .error .scheme
    else
      match checkSubDefaults lib cfg either.val.refUrl with
      | .error e => .error e
      | .ok (changed, u) => if changed then .ok (.fresh { either.val with refUrl := u }) else .ok either

/-! ### Text forms -/

/-- `url::Host`. -/
inductive Host where
  | domain (d : Text)
  | ip (t : Text)
deriving Repr, DecidableEq

/-- The text of a host (`Url::host_str`). -/
def Host.text : Host → Text
  | .domain d => d
  | .ip t => t

/-- The pieces of a parsed URL in the order of their serialisation (the `url` crate). `userinfo` includes the `@`;
`tail` is query and fragment with their marks. -/
structure Parts where
  scheme : Text
  userinfo : Text
  host : Option Host
  port : Option Nat
  path : Text
  tail : Text
deriving Repr, DecidableEq

/-- The text of a port. -/
def portText : Option Nat → Text
  | none => []
  | some n => ':' :: (toString n).toList

/-- Credentials, host and port. -/
def Parts.authority (p : Parts) : Text :=
  p.userinfo ++ (match p.host with | some h => h.text | none => []) ++ portText p.port

/-- `Url::as_str` of the `url` crate. -/
def Parts.asStr (p : Parts) : Text :=
  match p.host with
  | some _ => p.scheme ++ "://".toList ++ p.authority ++ p.path ++ p.tail
  | none => p.scheme ++ ":".toList ++ p.path ++ p.tail

/-- `str::split` at a character, of the standard library. -/
def splitOnChar (sep : Char) : Text → List Text
  | [] => [[]]
  | c :: cs =>
    if c == sep then [] :: splitOnChar sep cs
    else
      match splitOnChar sep cs with
      | [] => [[c]]
      | w :: ws => (c :: w) :: ws

/-- `PUNYCODE_PREFIX`, `src/url.rs:510`. -/
def punycodePrefix : Text := "xn--".toList

/-- `is_punnycode_domain`, `src/url.rs:512-514`. -/
def isPunycodeDomain (scheme domain : Text) : Bool :=
  schemaIsSpecial scheme && (splitOnChar '.' domain).any (fun part => punycodePrefix.isPrefixOf part)

/-- The loop of `decode_punycode`, `src/url.rs:498-505`; `dec` is `idna::punycode::decode_to_string`. -/
def decodeLoop (dec : Text → Option Text) : List Text → Text → Option Text
  | [], result => some result
  | chunk :: chunks, result =>
    if punycodePrefix.isPrefixOf chunk then
      match dec (chunk.drop punycodePrefix.length) with
      | none => none
      | some d => decodeLoop dec chunks (result ++ d ++ ['.'])
    else decodeLoop dec chunks (result ++ chunk ++ ['.'])

/-- `decode_punycode`, `src/url.rs:496-508`. -/
def decodePunycode (dec : Text → Option Text) (domain : Text) : Option Text :=
  match decodeLoop dec (splitOnChar '.' domain) [] with
  | none => none
  | some result => some result.dropLast

/-- `String::replace_range` of the standard library. -/
def replaceRange (s : Text) (lo hi : Nat) (new : Text) : Option Text :=
  if lo ≤ hi then
    match cut s hi with
    | none => none
    | some (a, b) => (cut a lo).map (fun p => p.1 ++ new ++ b)
  else none

/-- `unicode_url`, `src/url.rs:480-494`. -/
def unicodeUrl (dec : Text → Option Text) (p : Parts) : Option Text :=
  let s := p.asStr
  match p.host with
  | some (.domain domain) =>
    if isPunycodeDomain p.scheme domain then
      match decodePunycode dec domain with
      | some decoded =>
        let start := blen p.scheme + 3
        replaceRange s start (start + blen domain) decoded
      | none => some s
    else some s
  | _ => some s

/-- `PyUrl::unicode_host`, `src/url.rs:76-81`. -/
def unicodeHost (dec : Text → Option Text) (p : Parts) : Option Text :=
  match p.host with
  | some (.domain domain) =>
    if isPunycodeDomain p.scheme domain then decodePunycode dec domain else some domain
  | some (.ip t) => some t
  | none => none

/-- `String::insert_str` of the standard library. -/
def insertStr (s : Text) (n : Nat) (t : Text) : Option Text := (cut s n).map (fun p => p.1 ++ t ++ p.2)

/-- `[..].join(",")` of the standard library. -/
def joinComma : List Text → Text
  | [] => []
  | [t] => t
  | t :: ts => t ++ ',' :: joinComma ts

/-- The hosts cut out of the extra URLs, `src/url.rs:284-293,312-321`. -/
def extraHosts (hostOffset sub : Nat) : List Text → Option (List Text)
  | [] => some []
  | str :: strs =>
    match slice str hostOffset (blen str - sub) with
    | none => none
    | some h => (extraHosts hostOffset sub strs).map (h :: ·)

/-- The common body of `PyMultiHostUrl::__str__` and `unicode_string`, `src/url.rs:272-298,300-326`: `textOf` is
`as_str` in the one and `unicode_url` in the other. -/
def multiText (textOf : Parts → Option Text) (m : Multi Parts) : Option Text :=
  match m.extraUrls with
  | some extraUrls =>
    let hostOffset := blen m.refUrl.scheme + 3
    match textOf m.refUrl with
    | none => none
    | some refText =>
      match insertStr refText hostOffset [','] with
      | none => none
      | some fullUrl =>
        let sub := if schemaIsSpecial m.refUrl.scheme then 1 else 0
        match extraUrls.mapM textOf with
        | none => none
        | some texts =>
          match extraHosts hostOffset sub texts with
          | none => none
          | some hosts => insertStr fullUrl hostOffset (joinComma hosts)
  | none => textOf m.refUrl

/-- `PyMultiHostUrl::__str__`, `src/url.rs:300-326`. -/
def multiStr (m : Multi Parts) : Option Text := multiText (fun p => some p.asStr) m

/-- `PyMultiHostUrl::unicode_string`, `src/url.rs:272-298`. -/
def multiUnicode (dec : Text → Option Text) (m : Multi Parts) : Option Text := multiText (unicodeUrl dec) m

/-- `==` of two multi-host URLs, `src/url.rs:332-341`. -/
def multiEq (dec : Text → Option Text) (a b : Multi Parts) : Bool := multiUnicode dec a == multiUnicode dec b

/-- What `__hash__` feeds to the hasher: the derived hash of the fields, `src/url.rs:196-201,343-347` (the `url` crate
hashes the serialisation of each URL). -/
def hashInput (m : Multi Parts) : Text × Option (List Text) :=
  (m.refUrl.asStr, m.extraUrls.map (fun l => l.map Parts.asStr))

/-- `==` of two single URLs, `src/url.rs:128-137` (the `url` crate compares serialisations). -/
def urlEq (a b : Parts) : Bool := a.asStr == b.asStr

/-- `UrlHostParts`, `src/url.rs:426-431`. -/
structure HostParts where
  username : Option Text
  password : Option Text
  host : Option Text
  port : Option Nat
deriving Repr, DecidableEq

/-- `UrlHostParts::is_empty`, `src/url.rs:434-436`: the host is looked at twice, the user name never. -/
def HostParts.isEmpty (h : HostParts) : Bool :=
  h.host.isNone && h.password.isNone && h.host.isNone && h.port.isNone

/-- `Display` of `UrlHostParts`, `src/url.rs:452-468`. -/
def HostParts.display (h : HostParts) : Text :=
  (match h.username, h.password with
    | some u, none => u ++ ['@']
    | none, some p => ':' :: p ++ ['@']
    | some u, some p => u ++ ':' :: p ++ ['@']
    | none, none => []) ++
  (match h.host with
    | some t => t
    | none => []) ++
  (match h.port with
    | some n => ':' :: (toString n).toList
    | none => [])

/-- The end of both `build` functions, `src/url.rs:179-190,410-421`. -/
def pushRest (url : Text) (path query fragment : Option Text) : Text :=
  let url := match path with
    | some p => url ++ ['/'] ++ p
    | none => url
  let url := match query with
    | some q => url ++ ['?'] ++ q
    | none => url
  match fragment with
  | some f => url ++ ['#'] ++ f
  | none => url

/-- `PyUrl::build`, `src/url.rs:161-192`, up to the call of the class with the text. -/
def buildUrl (scheme host : Text) (username password : Option Text) (port : Option Nat)
    (path query fragment : Option Text) : Text :=
  let urlHost : HostParts := { username := username, password := password, host := some host, port := port }
  pushRest (scheme ++ "://".toList ++ urlHost.display) path query fragment

/-- The errors of `PyMultiHostUrl::build`. -/
inductive BuildErr where
  | both
  | emptyHost
  | neither
deriving Repr, DecidableEq

/-- The loop over the hosts, `src/url.rs:386-396`; `total` is `hosts.len()`. -/
def pushHosts (total : Nat) : List HostParts → Nat → Text → Except BuildErr Text
  | [], _, url => .ok url
  | h :: hs, index, url =>
    if h.isEmpty then .error .emptyHost
    else
      let url := url ++ h.display
      let url := if index ≠ total - 1 then url ++ [','] else url
      pushHosts total hs (index + 1) url

/-- `PyMultiHostUrl::build`, `src/url.rs:364-423`, up to the call of the class with the text. -/
def buildMulti (scheme : Text) (hosts : Option (List HostParts)) (path query fragment : Option Text)
    (host username password : Option Text) (port : Option Nat) : Except BuildErr Text :=
  if hosts.isSome && (host.isSome || username.isSome || password.isSome || port.isSome) then .error .both
  else
    match hosts with
    | some hosts =>
      match pushHosts hosts.length hosts 0 (scheme ++ "://".toList) with
      | .error e => .error e
      | .ok url => .ok (pushRest url path query fragment)
    | none =>
      match host with
      | some _ =>
        let urlHost : HostParts := { username := username, password := password, host := host, port := port }
        .ok (pushRest (scheme ++ "://".toList ++ urlHost.display) path query fragment)
      | none => .error .neither

end PC.Url
