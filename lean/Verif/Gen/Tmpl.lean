import Verif.Gen.Model
import Verif.Xsql.Model
set_option linter.unusedVariables false
/-!
The part of `text/template` that internal/cli/schema/template.go uses: actions `{{ .A.B }}`, `{{ f x y }}`, `{{ $x := e }}`, `{{ range e }}`,
`{{ range $i, $e := e }}`, `{{ if e }}`, `{{ end }}`, comments, and the trim markers `{{- ` and ` -}}`.

`text/template` is a library; what is here follows its documentation.  Not modelled: pipelines with `|`, `else`, `with`, `define`, numbers and other constants,
method calls with arguments, HTML escaping (there is none in `text/template`).
-/
namespace Gen
open Schema

/-- An operand. -/
inductive Atom where
  | path (p : List Bytes)             -- `.A.B`; `.` is the empty path
  | var (x : Bytes)                   -- `$x`
  | lit (s : Bytes)                   -- `"text"`
  deriving DecidableEq, Repr

/-- An expression: an operand, or a function applied to operands. -/
inductive Expr where
  | atom (a : Atom)
  | call (f : Bytes) (args : List Atom)
  deriving DecidableEq, Repr

/-- What an action is, or a piece of text. -/
inductive Item where
  | text (s : Bytes)
  | print (e : Expr)
  | decl (x : Bytes) (e : Expr)
  | range (vars : List Bytes) (e : Expr)
  | cond (e : Expr)
  | stop
  deriving DecidableEq, Repr

/-- A template: each form is followed by the rest. -/
inductive Tm where
  | done
  | text (s : Bytes) (next : Tm)
  | print (e : Expr) (next : Tm)
  | decl (x : Bytes) (e : Expr) (next : Tm)
  | range (vars : List Bytes) (e : Expr) (body next : Tm)
  | cond (e : Expr) (body next : Tm)
  deriving DecidableEq, Repr

/-! ### Parsing -/

/-- White space of actions and of trimming. -/
def isWs (b : UInt8) : Bool := b = 32 || b = 9 || b = 13 || b = 10

/-- The text before and after the first occurrence of `sep`. -/
def cutAt (sep : Bytes) : Bytes → Option (Bytes × Bytes)
  | [] => none
  | b :: s => if sep.isPrefixOf (b :: s) then some ([], (b :: s).drop sep.length) else (cutAt sep s).map (fun r => (b :: r.1, r.2))

/-- Trailing white space removed. -/
def trimEnd (s : Bytes) : Bytes := (s.reverse.dropWhile isWs).reverse

/-- Words of an action: separated by white space; a comma is a word; a string constant is a word (with its opening quote). -/
def actionWords : Bytes → Bytes → Bool → List Bytes
  | [], acc, _ => if acc = [] then [] else [acc]
  | b :: s, acc, true => if b = c!"\"" then acc :: actionWords s [] false else actionWords s (acc ++ [b]) true
  | b :: s, acc, false =>
    if b = c!"\"" then actionWords s [b] true
    else if isWs b then (if acc = [] then [] else [acc]) ++ actionWords s [] false
    else if b = c!"," then (if acc = [] then [] else [acc]) ++ [b!","] ++ actionWords s [] false
    else actionWords s (acc ++ [b]) false

/-- Split at dots. -/
def splitDots : Bytes → Bytes → List Bytes
  | [], acc => if acc = [] then [] else [acc]
  | b :: s, acc => if b = c!"." then (if acc = [] then [] else [acc]) ++ splitDots s [] else splitDots s (acc ++ [b])

/-- An operand, if the word is one. -/
def atomOf : Bytes → Option Atom
  | [] => none
  | b :: s => if b = c!"." then some (.path (splitDots s [])) else if b = c!"$" then some (.var s) else if b = c!"\"" then some (.lit s) else none

/-- An expression from its words. -/
def exprOf : List Bytes → Option Expr
  | [] => none
  | [w] => match atomOf w with | some a => some (.atom a) | none => some (.call w [])
  | w :: ws => match atomOf w with | some _ => none | none => (ws.mapM atomOf).map (.call w)

/-- An action from its words. -/
def itemOf : List Bytes → Option Item
  | [] => none
  | w :: ws =>
    if w = b!"end" then (if ws = [] then some .stop else none)
    else if w = b!"if" then (exprOf ws).map .cond
    else if w = b!"range" then
      match ws with
      | [i, c, e, d, x] => if c = b!"," ∧ d = b!":=" then (exprOf [x]).map (.range [i.drop 1, e.drop 1]) else exprOf ws |>.map (.range [])
      | _ => (exprOf ws).map (.range [])
    else match w, ws with
      | b :: x, d :: rest => if b = c!"$" ∧ d = b!":=" then (exprOf rest).map (.decl x) else (exprOf (w :: ws)).map .print
      | _, _ => (exprOf (w :: ws)).map .print

/-- Text, if there is any. -/
def textItem (s : Bytes) : List Item := if s = [] then [] else [.text s]

/-- The items of a template.  At every `{{`: a following `- ` trims the text before; `/*` begins a comment; ` -` before `}}` trims the text after. -/
def items : Nat → Bytes → Option (List Item)
  | 0, _ => none
  | f + 1, s =>
    match cutAt b!"{{" s with
    | none => some (textItem s)
    | some (txt, r) =>
      let trimL : Bool := match r with | a :: b :: _ => a = c!"-" && isWs b | _ => false
      let txt := if trimL then trimEnd txt else txt
      let r := if trimL then r.drop 2 else r
      match cutAt b!"}}" r with
      | none => none
      | some (act, rest) =>
        let trimR : Bool := match act.reverse with | a :: b :: _ => a = c!"-" && isWs b | _ => false
        let act := if trimR then act.dropLast else act
        let rest := if trimR then rest.dropWhile isWs else rest
        if b!"/*".isPrefixOf act then
          if b!"/*".isPrefixOf act && b!"*/".isPrefixOf (act.reverse.dropWhile isWs |>.take 2 |>.reverse) then (items f rest).map (textItem txt ++ ·) else none
        else match itemOf (actionWords act [] false), items f rest with
          | some it, some more => some (textItem txt ++ it :: more)
          | _, _ => none

/-- Nesting: read from the end, with a stack of the parts that follow. -/
def nest : List Item → Option (List Tm)
  | [] => some [.done]
  | it :: rest =>
    match nest rest with
    | none => none
    | some st =>
      match it, st with
      | .text s, t :: ts => some (.text s t :: ts)
      | .print e, t :: ts => some (.print e t :: ts)
      | .decl x e, t :: ts => some (.decl x e t :: ts)
      | .stop, ts => some (.done :: ts)
      | .range vs e, b :: t :: ts => some (.range vs e b t :: ts)
      | .cond e, b :: t :: ts => some (.cond e b t :: ts)
      | _, _ => none

/-- `template.Parse`. -/
def parse (s : Bytes) : Option Tm :=
  match items (s.length + 1) s with
  | none => none
  | some its => match nest its with
    | some [t] => some t
    | _ => none

/-! ### Execution -/

/-- template.go:7-22 `tableDefinition`: all the fields the templates use. -/
structure TDef where
  db : Bytes
  package : Bytes
  imports : List Bytes
  dialect : Bytes
  base : TableDef
  indexes : List Index
  primaryKey : Option Column
  deriving DecidableEq, Repr

/-- template.go:24-31 `schemaDefinition`. -/
structure SDef where
  db : Bytes
  package : Bytes
  imports : List Bytes
  dialect : Bytes
  tables : List InfoDecl
  deriving DecidableEq, Repr

/-- Values templates work on. -/
inductive Val where
  | str (s : Bytes)
  | bool (b : Bool)
  | strs (l : List Bytes)
  | cols (l : List Column)
  | idxs (l : List Index)
  | infos (l : List InfoDecl)
  | col (c : Option Column)           -- a pointer
  | idx (i : Index)
  | info (i : InfoDecl)
  | tdef (t : TDef)
  | sdef (s : SDef)
  | num (n : Nat)

/-- Fields and methods without arguments. -/
def Val.field : Val → Bytes → Option Val
  | .col (some c), f =>
    if f = b!"Name" then some (.str c.name) else if f = b!"Type" then some (.str c.type) else if f = b!"Tag" then some (.str c.tag)
    else if f = b!"StructString" then some (.str c.structString) else none
  | .idx i, f =>
    if f = b!"Name" then some (.str i.name) else if f = b!"IsPrimary" then some (.bool i.isPrimary) else if f = b!"IsUnique" then some (.bool i.isUnique)
    else if f = b!"ColumnNames" then some (.strs i.columnNames) else none
  | .info i, f =>
    if f = b!"SchemaName" then some (.str i.schemaName) else if f = b!"Schema" then some (.str i.schema) else if f = b!"Name" then some (.str i.name)
    else if f = b!"PrimaryKey" then some (.str i.primaryKey) else if f = b!"Columns" then some (.strs i.columns) else if f = b!"Indexes" then some (.strs i.indexes) else none
  | .tdef t, f =>
    if f = b!"DB" then some (.str t.db) else if f = b!"Package" then some (.str t.package) else if f = b!"Imports" then some (.strs t.imports)
    else if f = b!"Dialect" then some (.str t.dialect) else if f = b!"StructName" then some (.str t.base.structName)
    else if f = b!"SchemaName" then some (.str t.base.schema) else if f = b!"TableName" then some (.str t.base.tableName)
    else if f = b!"TableStructName" then some (.str t.base.tableStructName) else if f = b!"Columns" then some (.cols t.base.columns)
    else if f = b!"Indexes" then some (.idxs t.indexes) else if f = b!"PrimaryKey" then some (.col t.primaryKey)
    else if f = b!"SchemaPackage" then some (.str t.base.schemaPackage) else if f = b!"WithCache" then some (.bool t.base.withCache) else none
  | .sdef s, f =>
    if f = b!"DB" then some (.str s.db) else if f = b!"Package" then some (.str s.package) else if f = b!"Imports" then some (.strs s.imports)
    else if f = b!"Dialect" then some (.str s.dialect) else if f = b!"Tables" then some (.infos s.tables) else none
  | _, _ => none

/-- Whether `if` takes the branch: not the zero value. -/
def Val.truth : Val → Bool
  | .str s => s ≠ []
  | .bool b => b
  | .strs l => l ≠ []
  | .cols l => l ≠ []
  | .idxs l => l ≠ []
  | .infos l => l ≠ []
  | .col c => c.isSome
  | .num n => n ≠ 0
  | _ => true

/-- The elements `range` visits. -/
def Val.elems : Val → Option (List Val)
  | .strs l => some (l.map .str)
  | .cols l => some (l.map (fun c => .col (some c)))
  | .idxs l => some (l.map .idx)
  | .infos l => some (l.map .info)
  | _ => none

/-- schema.go:241-252 `templateFuncMap`: the functions the templates call; `none`: the function panics, or is called with the wrong arguments. -/
def Val.apply (L : Lib) (cfg : Cfg) (f : Bytes) (args : List Val) : Option Val :=
  match args with
  | [.str s] => if f = b!"goName" then (goName L s).map .str else none
  | [.info i] => if f = b!"tableInfoStructName" then (tableInfoStructName L cfg i.name i.schemaName).map .str else none
  | [.col (some c)] =>
    if f = b!"columnStructName" then (columnStructName L cfg c).map .str
    else if f = b!"sqlToGoType" then (toGoType L.eqFold cfg.types c).map .str else none
  | [.strs l, .str sep] => if f = b!"join" then some (.str (Xsql.joinBytes sep l)) else none
  | _ => none

/-- Value of an operand. -/
def Atom.eval (dot : Val) (env : List (Bytes × Val)) : Atom → Option Val
  | .path p => p.foldlM (fun v f => v.field f) dot
  | .var x => env.lookup x
  | .lit s => some (.str s)

/-- Value of an expression. -/
def Expr.eval (L : Lib) (cfg : Cfg) (dot : Val) (env : List (Bytes × Val)) : Expr → Option Val
  | .atom a => a.eval dot env
  | .call f args => (args.mapM (Atom.eval dot env)).bind (Val.apply L cfg f)

/-- All texts, one after the other. -/
def concatM {α : Type} (f : α → Option Bytes) : List α → Option Bytes
  | [] => some []
  | a :: l => (f a).bind fun s => (concatM f l).map (s ++ ·)

/-- With their index. -/
def number {α : Type} : Nat → List α → List (Nat × α)
  | _, [] => []
  | n, a :: l => (n, a) :: number (n + 1) l

/-- `Execute`; `none`: it fails. -/
def Tm.exec (L : Lib) (cfg : Cfg) : Tm → Val → List (Bytes × Val) → Option Bytes
  | .done, _, _ => some []
  | .text s next, dot, env => (next.exec L cfg dot env).map (s ++ ·)
  | .print e next, dot, env =>
    match e.eval L cfg dot env with
    | some (.str s) => (next.exec L cfg dot env).map (s ++ ·)
    | _ => none
  | .decl x e next, dot, env =>
    match e.eval L cfg dot env with
    | some v => next.exec L cfg dot ((x, v) :: env)
    | none => none
  | .range vars e body next, dot, env =>
    match (e.eval L cfg dot env).bind Val.elems with
    | none => none
    | some vs =>
      (concatM (fun (p : Nat × Val) => body.exec L cfg p.2 (match vars with | [i, x] => (x, p.2) :: (i, .num p.1) :: env | _ => env)) (number 0 vs)).bind
        fun s => (next.exec L cfg dot env).map (s ++ ·)
  | .cond e body next, dot, env =>
    match e.eval L cfg dot env with
    | none => none
    | some v => (if v.truth then body.exec L cfg dot env else some []).bind fun s => (next.exec L cfg dot env).map (s ++ ·)

end Gen
