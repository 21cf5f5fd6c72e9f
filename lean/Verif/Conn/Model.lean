import Verif.Types.Errors
import Verif.Types.Id
set_option linter.unusedVariables false
set_option linter.unusedSimpArgs false
/-!
Model of `Open` and `ParseConnectionString` (db.go), with the part of Go's `net/url` they use.

`net/url` is modelled from its source: scheme, user information, query, and the errors for bad escapes, control bytes and a colon in the
first segment. The reading of the host part (ports, IPv6 literals) is a parameter `host`: what `url.Parse` makes of it, or an error.
`configloader.ResolveValue` is a parameter `resolve`.
-/
namespace Conn

/-! ### net/url -/

/-- `strings.Cut(s, c)`: before and, if found, after. -/
def cutAt (c : UInt8) : Bytes → Bytes × Option Bytes
  | [] => ([], none)
  | x :: xs => if x = c then ([], some xs) else (x :: (cutAt c xs).1, (cutAt c xs).2)

/-- Cut at the last occurrence. -/
def cutLast (c : UInt8) (s : Bytes) : Option (Bytes × Bytes) :=
  match cutAt c s.reverse with
  | (_, none) => none
  | (a, some b) => some (b.reverse, a.reverse)

/-- The pieces between separators. -/
def splitOn (c : UInt8) : Bytes → List Bytes
  | [] => [[]]
  | x :: xs =>
    if x = c then [] :: splitOn c xs
    else match splitOn c xs with
      | [] => [[x]]
      | p :: ps => (x :: p) :: ps

/-- `unhex`. -/
def unhex (c : UInt8) : Option UInt8 :=
  if 48 ≤ c ∧ c ≤ 57 then some (c - 48) else if 97 ≤ c ∧ c ≤ 102 then some (c - 87) else if 65 ≤ c ∧ c ≤ 70 then some (c - 55) else none

/-- url `unescape`; `plus`: query mode, where `+` is a space. -/
def unesc (plus : Bool) : Bytes → Option Bytes
  | [] => some []
  | [c] => if c = 37 then none else some [if plus ∧ c = 43 then 32 else c]
  | [c, d] => if c = 37 then none else (unesc plus [d]).map ((if plus ∧ c = 43 then 32 else c) :: ·)
  | c :: a :: b :: r =>
    if c = 37 then
      match unhex a, unhex b with
      | some x, some y => (unesc plus r).map ((x * 16 + y) :: ·)
      | _, _ => none
    else (unesc plus (a :: b :: r)).map ((if plus ∧ c = 43 then 32 else c) :: ·)

def isAlpha (c : UInt8) : Bool := (97 ≤ c && c ≤ 122) || (65 ≤ c && c ≤ 90)
def isDigit (c : UInt8) : Bool := 48 ≤ c && c ≤ 57
/-- Letters, digits, `+`, `-`, `.`. -/
def isSchemeByte (c : UInt8) : Bool := isAlpha c || isDigit c || c == 43 || c == 45 || c == 46
def lower (c : UInt8) : UInt8 := if 65 ≤ c ∧ c ≤ 90 then c + 32 else c

/-- url `getScheme`: scheme and rest; `none` is the error "missing protocol scheme". -/
def getScheme (s : Bytes) : Option (Bytes × Bytes) :=
  match s.dropWhile isSchemeByte with
  | c :: rest =>
    if c = 58 then
      match s.takeWhile isSchemeByte with
      | [] => none
      | x :: xs => if isAlpha x then some (x :: xs, rest) else some ([], s)
    else some ([], s)
  | [] => some ([], s)

/-- url `validUserinfo`: letters, digits and `-._:~!$&'()*+,;=%@`. -/
def validUserByte (c : UInt8) : Bool := isAlpha c || isDigit c || (b!"-._:~!$&'()*+,;=%@").contains c

/-- `url.Userinfo`. -/
structure User where
  name : Bytes
  password : Option Bytes
  deriving DecidableEq, Repr

structure Url where
  scheme : Bytes
  user : Option User
  host : Bytes
  rawQuery : Bytes
  deriving DecidableEq, Repr

/-- url `parseAuthority`. -/
def parseAuthority (host : Bytes → Option Bytes) (a : Bytes) : Option (Option User × Bytes) :=
  match cutLast 64 a with
  | none => (host a).map (fun h => (none, h))
  | some (ui, hs) =>
    match host hs with
    | none => none
    | some h =>
      if ui.all validUserByte then
        match cutAt 58 ui with
        | (n, none) => (unesc false n).map (fun n => (some ⟨n, none⟩, h))
        | (n, some p) =>
          match unesc false n, unesc false p with
          | some n, some p => some (some ⟨n, some p⟩, h)
          | _, _ => none
      else none

/-- The first index of `/`: authority and path. -/
def cutPath : Bytes → Bytes × Bytes
  | [] => ([], [])
  | x :: xs => if x = 47 then ([], x :: xs) else (x :: (cutPath xs).1, (cutPath xs).2)

/-- url `parse`, after the scheme and the query have been cut off: user and host. -/
def parseRest (host : Bytes → Option Bytes) (scheme rest : Bytes) : Option (Option User × Bytes) :=
  match rest with
  | a :: rest' =>
    if a = 47 then
      match rest' with
      | b :: auth =>
        if b = 47 ∧ (scheme ≠ [] ∨ auth.head? ≠ some 47) then
          match parseAuthority host (cutPath auth).1, unesc false (cutPath auth).2 with
          | some (u, h), some _ => some (u, h)
          | _, _ => none
        else (unesc false rest).map (fun _ => (none, []))
      | [] => some (none, [])
    else if scheme ≠ [] then some (none, [])                   -- opaque
    else if (cutAt 47 rest).1.contains 58 then none           -- first path segment contains a colon
    else (unesc false rest).map (fun _ => (none, []))
  | [] => some (none, [])

/-- url `Parse`: `none` is an error. -/
def parseUrl (host : Bytes → Option Bytes) (raw : Bytes) : Option Url :=
  let u := (cutAt 35 raw).1
  if u.any (fun c => c < 32 || c == 127) then none
  else if u = b!"*" then some ⟨[], none, [], []⟩
  else
    match getScheme u with
    | none => none
    | some (scheme, rest) =>
      match parseRest host (scheme.map lower) (cutAt 63 rest).1, unesc false ((cutAt 35 raw).2.getD []) with
      | some (us, h), some _ => some ⟨scheme.map lower, us, h, (cutAt 63 rest).2.getD []⟩
      | _, _ => none                                           -- the fragment must be well-escaped

/-- One piece of a query: skipped when empty, with a semicolon, or badly escaped. -/
def queryPiece (p : Bytes) : Option (Bytes × Bytes) :=
  if p.contains 59 ∨ p = [] then none
  else
    match unesc true (cutAt 61 p).1, unesc true ((cutAt 61 p).2.getD []) with
    | some k, some v => some (k, v)
    | _, _ => none

/-- `u.Query()`: the parameters in order; `Get(k)` is the first value of `k`. -/
def parseQuery (q : Bytes) : List (Bytes × Bytes) := (splitOn 38 q).filterMap queryPiece

/-! ### db.go -/

/-- `strings.TrimSpace`, ASCII white space only. -/
def isSpace (c : UInt8) : Bool := c == 32 || (9 ≤ c && c ≤ 13)
def trimSpace (s : Bytes) : Bytes := ((s.dropWhile isSpace).reverse.dropWhile isSpace).reverse

/-- `strings.TrimSpace(strings.Trim(ds, "\""))`, db.go:126-127 and 216-217. -/
def clean (s : Bytes) : Bytes := trimSpace (Types.trimQuotes s)

/-- db.go:193-202 `Source`; `params k` is `Params[k]`. -/
structure Source where
  source : Bytes
  driver : Bytes
  host : Bytes
  user : Bytes
  password : Bytes
  database : Bytes
  params : Bytes → Option Bytes

/-- `values.StringsCoalesce` of two. -/
def coalesce (a b : Bytes) : Bytes := if a ≠ [] then a else b

/-- `url.Values.Get`. -/
def getQ (q : List (Bytes × Bytes)) (k : Bytes) : Bytes := (q.lookup k).getD []

/-- db.go:219-238. -/
def sourceOf (ds : Bytes) (u : Url) : Source :=
  let q := parseQuery u.rawQuery
  { source := ds, driver := u.scheme, host := u.host
    user := match u.user with | some x => x.name | none => []
    password := match u.user with | some x => x.password.getD [] | none => []
    database := coalesce (getQ q b!"dbname") (getQ q b!"database")
    params := fun k => q.lookup k }

/-- db.go:206-241 `ParseConnectionString`. -/
def parseConnectionString (resolve host : Bytes → Option Bytes) (dataSource : Bytes) : Option Source :=
  match resolve dataSource with
  | none => none
  | some r => (parseUrl host (clean r)).map (sourceOf (clean r))

/-- Outcome of `Open`: error or not, with the driver name and data source it returns. -/
inductive OpenRes where
  | config                        -- "failed to load config"
  | badUrl                        -- error of ParseConnectionString
  | unsupported (driver : Bytes)  -- "unsupported driver"
  | failed (driver ds : Bytes)    -- sql.Open or Ping failed
  | opened (driver ds : Bytes)    -- connected with this driver and data source
  deriving DecidableEq, Repr

/-- db.go:134-147: the data source given to the driver; `none`: unsupported driver. -/
def withDatabase (driver ds database : Bytes) : Option Bytes :=
  if database = [] then some ds
  else if driver = b!"sqlserver" then some (ds ++ b!"&database=" ++ database)
  else if driver = b!"postgres" then
    if Types.containsSub b!"host=" ds then some (ds ++ b!" dbname=" ++ database) else some (ds ++ b!"&dbname=" ++ database)
  else none

/-- db.go:119-163 `Open`; `connects driver ds`: `sql.Open` and `Ping` succeed. -/
def openDB (resolve host : Bytes → Option Bytes) (connects : Bytes → Bytes → Bool) (dataSource database : Bytes) : OpenRes :=
  match resolve dataSource with
  | none => .config
  | some r =>
    match parseConnectionString resolve host (clean r) with
    | none => .badUrl
    | some src =>
      match withDatabase src.driver (clean r) database with
      | none => .unsupported src.driver
      | some ds => if connects src.driver ds then .opened src.driver ds else .failed src.driver ds

/-! ### Examples (tests of the model) -/

example : (parseConnectionString some some b!"postgres://u1:p2@127.0.0.1:55432?sslmode=disable&dbname=testdb").map
    (fun s => (s.driver, s.host, s.user, s.password, s.database)) = some (b!"postgres", b!"127.0.0.1:55432", b!"u1", b!"p2", b!"testdb") := by
  decide +kernel
example : openDB some some (fun _ _ => true) b!"sqlserver://127.0.0.1:11434?user id=sa&password=x" b!"db"
    = .opened b!"sqlserver" b!"sqlserver://127.0.0.1:11434?user id=sa&password=x&database=db" := by decide +kernel

end Conn
