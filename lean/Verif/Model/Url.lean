import Verif.Model.HttpParse

/-!
URLs: `urllib.parse.urlparse` as far as used by imageio, quoting of IPv6 addresses and
the NBD URLs.
-/
namespace Imageio.Url
open Imageio.Http

/-- `_internal/ipv6.py:9-15` `unquote_address`.  The slice `host[1:-1]`. -/
def unquoteAddress (host : Str) : Str :=
  if host.head? = some '[' ∧ host.getLast? = some ']' ∧ ':' ∈ host then
    (host.drop 1).dropLast
  else host

/-- `_internal/ipv6.py:18-24` `quote_address`. -/
def quoteAddress (host : Str) : Str :=
  if ':' ∈ host then '[' :: (host ++ [']']) else host

/-- The fields of `urllib.parse.ParseResult` used by imageio.
The standard library, called in `auth.py:39`, `client/_api.py:516`. -/
structure Parsed where
  scheme : Str
  netloc : Str
  path : Str
deriving DecidableEq, Repr

/-- The characters removed at the start of a URL, `urllib/parse.py`
`_WHATWG_C0_CONTROL_OR_SPACE`.  Part of `urlparse`, see below; called in `auth.py:39`. -/
def isControlOrSpace (c : Char) : Bool := c.toNat ≤ 32

/-- The characters removed from a URL, `_UNSAFE_URL_BYTES_TO_REMOVE`.
Part of `urlparse`, see below; called in `auth.py:39`. -/
def isUnsafe (c : Char) : Bool := c == '\t' || c == '\r' || c == '\n'

/-- `scheme_chars`.  Part of `urlparse`, see below; called in `auth.py:39`. -/
def isSchemeChar (c : Char) : Bool := c.isAlphanum || c == '+' || c == '-' || c == '.'

/-- The part of `urlsplit` that finds the scheme: the text before the first colon if it is
a valid scheme, in lower case.  Part of `urlparse`, see below; called in `auth.py:39`. -/
def splitScheme (url : Str) : Str × Str :=
  let s := url.takeWhile (· != ':')
  match url.dropWhile (· != ':') with
  | [] => ([], url)
  | _ :: rest =>
    match s with
    | [] => ([], url)
    | c :: _ =>
      if c.isAlpha && s.all isSchemeChar then (s.map Char.toLower, rest) else ([], url)

/-- `_splitnetloc(url, 2)`: the text up to the first of `/?#`.
Part of `urlparse`, see below; called in `auth.py:39`. -/
def splitNetloc (url : Str) : Str × Str :=
  (url.takeWhile (fun c => c != '/' && c != '?' && c != '#'),
   url.dropWhile (fun c => c != '/' && c != '?' && c != '#'))

/-- `url.split(c, 1)[0]`: the text before the first `c`, or the whole text.
Part of `urlparse`, see below; called in `auth.py:39`. -/
def cutAt (c : Char) (url : Str) : Str := url.takeWhile (· != c)

/-- `uses_params` of `urllib/parse.py`, the schemes whose last path segment is split at
`;`.  Part of `urlparse`, see below; called in `auth.py:39`. -/
def usesParams : List Str :=
  ["", "ftp", "hdl", "prospero", "http", "https", "shttp", "rtsp", "rtsps", "rtspu", "sip",
   "sips", "mms", "sftp", "tel"].map String.toList

/-- The text after the last slash, with everything before (and the slash).
Part of `urlparse`, see below; called in `auth.py:39`. -/
def splitLastSlash (s : Str) : Str × Str :=
  ((s.reverse.dropWhile (· != '/')).reverse, (s.reverse.takeWhile (· != '/')).reverse)

/-- `_splitparams(url)[0]`: the path without the parameters of the last segment.
Part of `urlparse`, see below; called in `auth.py:39`. -/
def dropParams (path : Str) : Str :=
  let (dir, last) := splitLastSlash path
  dir ++ cutAt ';' last

/-- `urllib.parse.urlparse` of python 3.12, without query, fragment and params, which
imageio does not use.  `none` is `ValueError`.  `netlocOk` stands for the checks of the
network location (`_check_bracketed_netloc`, `_checknetloc`: brackets contain an IP
address, no unicode lookalikes of separators), which are not modelled.
Called in `auth.py:39`, `client/_api.py:509-525`, `directio.py:31`. -/
def urlparse (netlocOk : Str → Bool) (url : Str) : Option Parsed :=
  let url := (url.dropWhile isControlOrSpace).filter (fun c => !isUnsafe c)
  let (scheme, url) := splitScheme url
  let finish (netloc url : Str) : Parsed :=
    let url := cutAt '?' (cutAt '#' url)
    ⟨scheme, netloc, if scheme ∈ usesParams then dropParams url else url⟩
  match url with
  | '/' :: '/' :: r =>
    let (netloc, r) := splitNetloc r
    if '[' ∈ netloc ∧ ']' ∉ netloc ∨ ']' ∈ netloc ∧ '[' ∉ netloc then none
    else if netlocOk netloc then some (finish netloc r)
    else none
  | url => some (finish [] url)

/-- `_internal/sockutil.py:16-61` the addresses `UnixAddress` and `TCPAddress`. -/
inductive Address
  | unix (path : Str)
  | tcp (host : Str) (port : Int)
deriving DecidableEq, Repr

/-- `_internal/sockutil.py:43-51` `TCPAddress.__new__`: the host is unquoted.  The checks
of the types are not modelled. -/
def tcpAddress (host : Str) (port : Int) : Address := .tcp (unquoteAddress host) port

/-- `_internal/nbd.py:296-298,308-310` the optional export name of an NBD URL. -/
def exportSuffix (export_ : Option Str) : Str :=
  match export_ with
  | none | some [] => []
  | some e => ":exportname=".toList ++ e

/-- `_internal/nbd.py:294-310` `UnixAddress.url` and `TCPAddress.url`. -/
def Address.url (export_ : Option Str) : Address → Str
  | .unix path => "nbd:unix:".toList ++ path ++ exportSuffix export_
  | .tcp host port =>
    "nbd:".toList ++ quoteAddress host ++ ':' :: fmtInt port ++ exportSuffix export_

/-- `(:?:exportname=(?P<name>.*))?` of `_internal/nbd.py:23,28` at the start of a string:
the group `name`.  One more colon is accepted; `.` does not match a newline; text that does
not match is ignored since the expressions are not anchored at the end. -/
def nameGroup (s : Str) : Option Str :=
  match dropLit "::exportname=".toList s with
  | some r => some (r.takeWhile (· != '\n'))
  | none =>
    match dropLit ":exportname=".toList s with
    | some r => some (r.takeWhile (· != '\n'))
    | none => none

/-- `_internal/nbd.py:22-23` `UNIX_URL_PATH.match(path)`: the groups `path` and `name`.
The optional group matches the empty string, so the greedy match of `[^:]+` is never
shortened. -/
def unixGroups (s : Str) : Option (Str × Option Str) :=
  match dropLit "unix:/".toList s with
  | none => none
  | some r =>
    match r.takeWhile (· != ':') with
    | [] => none
    | p => some ('/' :: p, nameGroup (r.dropWhile (· != ':')))

/-- `_internal/nbd.py:27-28` `TCP_URL_PATH.match(path)`: the groups `host`, `port` and
`name`.  `.+` is greedy: the longest non-empty text without a newline that is followed by
a colon and a digit is the host.  `pre` is the text before, in reverse order. -/
def tcpGroups (pre : Str) : Str → Option (Str × Str × Option Str)
  | [] => none
  | c :: r =>
    let longer := if c = '\n' then none else tcpGroups (c :: pre) r
    match longer with
    | some g => some g
    | none =>
      if c = ':' ∧ pre ≠ [] then
        match spanDigits r with
        | ([], _) => none
        | (port, r) => some (pre.reverse, port, nameGroup r)
      else none

/-- `nbd.Error`, or the `ValueError` of `int(port)`.  `_internal/nbd.py:321-359`. -/
inductive UrlError
  | unsupportedScheme
  | unsupportedUrl
  | valueError
deriving DecidableEq, Repr

/-- `s.rsplit(":", 1)` for a string with a colon.  `_internal/nbd.py:333`. -/
def rsplitColon (s : Str) : Str × Str :=
  (((s.reverse.dropWhile (· != ':')).drop 1).reverse, (s.reverse.takeWhile (· != ':')).reverse)

/-- `_internal/nbd.py:321-359` `_parse_url`. -/
def parseUrl (url : Parsed) : Except UrlError (Address × Option Str) :=
  if url.scheme ≠ "nbd".toList then .error .unsupportedScheme
  else if ':' ∈ url.netloc then
    let (host, port) := rsplitColon url.netloc
    let export_ := match url.path with
      | '/' :: e => e
      | e => e
    match pyInt port with
    | none => .error .valueError
    | some port => .ok (tcpAddress host port, some export_)
  else if url.netloc = [] then
    match unixGroups url.path with
    | some (path, name) => .ok (.unix path, name)
    | none =>
      match tcpGroups [] url.path with
      | some (host, port, name) => .ok (tcpAddress host (intOfDigits port), name)
      | none => .error .unsupportedUrl
  else .error .unsupportedUrl

/-- `_internal/nbd.py:313-318,372-374` `nbd.open` for a URL string: the address to connect
to, and the export name of the client, `export_name or ""`. -/
def openUrl (netlocOk : Str → Bool) (url : Str) : Except UrlError (Address × Str) :=
  match urlparse netlocOk url with
  | none => .error .valueError
  | some u =>
    match parseUrl u with
    | .error e => .error e
    | .ok (a, name) => .ok (a, name.getD [])

end Imageio.Url
