import Verif.Model.Explorer
import Verif.Model.Ip
/-!
# The URL of a request (internal/HttpClient.py:162-176, 190-198; urllib.parse and urllib.request of CPython 3.11.10)

What the network does with a request (`urlopen`) is a parameter. Not modelled: proxies, redirections, the headers.
-/
namespace TF

/-- The parts of `urllib.parse` that are parameters: `urlencode(parse_qs(query))` of a query that is not empty (HttpClient.py:167-175), whether the NFKC
check of a host with other than ASCII characters fails (`_checknetloc`), `unquote` of a text with `%`. -/
structure UrlLib where
  requery : Str → Str
  nfkcBad : Str → Bool
  unquote : Str → Str

/-- The result of `urlparse`. -/
structure UrlParts where
  scheme : Str
  netloc : Str
  path : Str
  params : Str
  query : Str
  fragment : Str
  deriving DecidableEq

/-- `urlsplit`: control characters and spaces before the URL, and tabs and newlines in it, are dropped. -/
def cleanUrl (s : Str) : Str := (s.dropWhile fun c => decide (c.toNat ≤ 32)).filter fun c => !(c == '\t' || c == '\n' || c == '\r')

/-- `scheme_chars` of urllib.parse. -/
def isSchemeChar (c : Char) : Bool := isAlpha c || isDig c || c == '+' || c == '-' || c == '.'

/-- `s.split(c, 1)`; nothing behind a character that is not there. -/
def cutAt (c : Char) (s : Str) : Str × Str := (s.takeWhile (· != c), (s.dropWhile (· != c)).drop 1)

/-- `urlsplit`: the scheme. -/
def splitScheme (s : Str) : Str × Str :=
  let pre := s.takeWhile (· != ':')
  if s.contains ':' && (pre.head?.any isAlpha) && pre.all isSchemeChar then (pre.map Char.toLower, s.drop (pre.length + 1)) else ([], s)

/-- `_splitnetloc`: where the host ends. -/
def inNetloc (c : Char) : Bool := !(c == '/' || c == '?' || c == '#')

/-- `urlsplit`: the host (with port and user). -/
def splitNetloc : Str → Str × Str
  | '/' :: '/' :: r => (r.takeWhile inNetloc, r.dropWhile inNetloc)
  | s => ([], s)

/-- `_check_bracketed_host`. -/
def bracketOk (h : Str) : Bool :=
  match h with
  | 'v' :: r =>
    let x := r.takeWhile fun c => (hexVal c).isSome
    match r.drop x.length with
    | '.' :: y => x != [] && y != [] && !y.contains '\n'
    | _ => false
  | _ => (parseIp h).any fun b => b.length == 16

/-- The checks of a host in `urlsplit` and `_checknetloc`. -/
def netlocOk (U : UrlLib) (n : Str) : Bool :=
  (n.contains '[' == n.contains ']') && (!n.contains '[' || bracketOk (cutAt ']' (cutAt '[' n).2).1) &&
    (n.all (fun c => decide (c.toNat < 128)) || !U.nfkcBad n)

/-- `uses_params` of urllib.parse. -/
def usesParams : List Str :=
  ["", "ftp", "hdl", "prospero", "http", "imap", "https", "shttp", "rtsp", "rtsps", "rtspu", "sip", "sips", "mms", "sftp", "tel"].map String.toList

/-- `uses_netloc` of urllib.parse. -/
def usesNetloc : List Str :=
  ["", "ftp", "http", "gopher", "nntp", "telnet", "imap", "wais", "file", "mms", "https", "shttp", "snews", "prospero", "rtsp", "rtsps", "rtspu", "rsync",
    "svn", "svn+ssh", "sftp", "nfs", "git", "git+ssh", "ws", "wss"].map String.toList

/-- `_splitparams`: a semicolon in the last segment of the path. -/
def splitParams (s : Str) : Str × Str :=
  let seg := (s.reverse.takeWhile (· != '/')).reverse
  let before := s.take (s.length - seg.length)
  (before ++ (cutAt ';' seg).1, (cutAt ';' seg).2)

/-- `urlparse`. -/
def urlparse (U : UrlLib) (url : Str) : Res UrlParts :=
  let (scheme, r) := splitScheme (cleanUrl url)
  let (netloc, r) := splitNetloc r
  if netlocOk U netloc then
    let (r, fragment) := cutAt '#' r
    let (r, query) := cutAt '?' r
    let (path, params) := if usesParams.contains scheme then splitParams r else (r, [])
    .ok ⟨scheme, netloc, path, params, query, fragment⟩
  else .error .valueError

/-- `urlunparse`. -/
def urlunparse (p : UrlParts) : Str :=
  let u := if p.params = [] then p.path else p.path ++ ';' :: p.params
  let u :=
    if p.netloc ≠ [] ∨ (p.scheme ≠ [] ∧ usesNetloc.contains p.scheme) ∨ "//".toList.isPrefixOf u then
      "//".toList ++ p.netloc ++ (if u = [] ∨ u.head? = some '/' then u else '/' :: u)
    else u
  let u := if p.scheme = [] then u else p.scheme ++ ':' :: u
  let u := if p.query = [] then u else u ++ '?' :: p.query
  if p.fragment = [] then u else u ++ '#' :: p.fragment

/-- internal/HttpClient.py:162-176 `_updateUrlParams` without parameters (none are given by the explorer client). -/
def updateUrl (U : UrlLib) (url : Str) : Res Str := do
  let p ← urlparse U url
  return urlunparse { p with query := if p.query = [] then [] else U.requery p.query }

/-- `urllib.parse.unwrap`. -/
def unwrapUrl (s : Str) : Str :=
  let s := strip s
  let s := if s.head? = some '<' ∧ s.getLast? = some '>' then strip ((s.drop 1).dropLast) else s
  if "URL:".toList.isPrefixOf s then strip (s.drop 4) else s

/-- Where a request goes: the attributes `type`, `host` and `selector` of a `urllib.request.Request`. -/
structure Target where
  type : Str
  host : Option Str
  selector : Str
  deriving DecidableEq

/-- `urllib.request.Request._parse` (`_splittype`, `_splithost`, `unquote` of the host). -/
def parseRequest (U : UrlLib) (s : Str) : Res Target :=
  let pre := s.takeWhile fun c => !(c == '/' || c == ':')
  match s.drop pre.length with
  | ':' :: rest =>
    if pre = [] then .error .valueError
    else match rest with
      | '/' :: '/' :: r =>
        let h := r.takeWhile inNetloc
        let p := r.dropWhile inNetloc
        .ok ⟨pre.map Char.toLower, some (if h.contains '%' then U.unquote h else h), if p = [] ∨ p.head? = some '/' then p else '/' :: p⟩
      | _ => .ok ⟨pre.map Char.toLower, none, rest⟩
  | _ => .error .valueError

/-- `urllib.request.Request`: `full_url` without the fragment (`unwrap`, `_splittag`), `_parse`, and `request_host`, which checks the host again. -/
def requestOf (U : UrlLib) (url : Str) : Res Target := do
  let s := unwrapUrl url
  let s := if s.contains '#' then ((s.reverse.dropWhile (· != '#')).drop 1).reverse else s
  let t ← parseRequest U s
  let _ ← urlparse U s
  return t

/-- internal/HttpClient.py:190-198: where the request for a URL goes. -/
def requestTarget (U : UrlLib) (url : Str) : Res Target := do requestOf U (← updateUrl U url)

/-- internal/HttpClient.py:178-224 `_http_request`: what comes of a request for a URL, if `net` is what comes of the request (`urlopen`). The exceptions
raised before `urlopen` are not caught. -/
def askUrl (U : UrlLib) (net : Target → Reply) (url : Str) : Reply :=
  match requestTarget U url with
  | .ok t => net t
  | .error _ => .badUrl

end TF
