import Verif.Model.Types

/-!
# The conversion functions of a message, as Go code

Models the statements that the template "message" writes for `brokerMessageToX` and `toBrokerMessage`
(pkg/codegen/generators/v3/templates/message.tmpl:54-172 and 174-277; the v2 template has the same lines,
pkg/codegen/generators/v2/templates/message.tmpl:45-163 and 165-259), and the rules of the Go compiler for these
statements: types of expressions, conversions, assignments, redeclaration, unused variables
(https://go.dev/ref/spec).

Simplifications: struct fields are identified with the names of the headers; custom Go types are not modelled (no type
is known for them); functions of packages are given by their signatures; return statements are the variables they use.
-/

namespace Verif.Convert

open Types (Ty Cfg Sch Info schemaName tObject tArray tBoolean tString tInteger tNumber)

/-! ## Go types and expressions -/

/-- A Go type in these functions. -/
inductive GT
  | ty (t : Ty)
  | bytes
  | uint32
  | uint64
  | error
  | table        -- map[string][]byte
  | ptr (t : GT)
  deriving DecidableEq, Repr

/-- Underlying types (https://go.dev/ref/spec#Underlying_types). `time.Time` and `civil.Date` are structs of other
packages. -/
inductive U
  | bool
  | string
  | int32
  | int64
  | float32
  | float64
  | uint32
  | uint64
  | timeStruct
  | dateStruct
  | struct
  | bytes
  | slice (t : Ty)
  | iface
  | error
  | table
  | ptr (t : GT)
  deriving DecidableEq, Repr

/-- The declared types of the package: their underlying types (`none`: not declared). -/
abbrev Env := Str → Option U

/-- The underlying type of a type of the templates. -/
def underTy (env : Env) : Ty → Option U
  | .named n => env n
  | .custom _ => none
  | .bool => some .bool
  | .string => some .string
  | .date => some .dateStruct
  | .time => some .timeStruct
  | .int32 => some .int32
  | .int64 => some .int64
  | .float32 => some .float32
  | .float64 => some .float64
  | .slice t => some (.slice t)
  | .unknown _ => none
  | .any => some .iface

/-- The underlying type of any type here. -/
def under (env : Env) : GT → Option U
  | .ty t => underTy env t
  | .bytes => some .bytes
  | .uint32 => some .uint32
  | .uint64 => some .uint64
  | .error => some .error
  | .table => some .table
  | .ptr t => some (.ptr t)

/-- Is it a named type? (https://go.dev/ref/spec#Types) -/
def isNamed : GT → Bool
  | .ty (.slice _) => false
  | .ty .any => false
  | .ty _ => true
  | .uint32 => true
  | .uint64 => true
  | .error => true
  | _ => false

/-- Can a value of type `r` be assigned to a variable of type `l`? (https://go.dev/ref/spec#Assignability) -/
def assignable (env : Env) (l r : GT) : Bool :=
  decide (l = r) || decide (under env l = some .iface) ||
    (decide (under env l = under env r) && (under env l).isSome && (!isNamed l || !isNamed r))

/-- Numeric types. -/
def U.numeric : U → Bool
  | .int32 => true
  | .int64 => true
  | .float32 => true
  | .float64 => true
  | .uint32 => true
  | .uint64 => true
  | _ => false

/-- Can a value with underlying type `f` be converted to a type with underlying type `t`, beyond assignability?
(https://go.dev/ref/spec#Conversions) -/
def convertU (t f : U) : Bool :=
  decide (t = f) || (t.numeric && f.numeric) ||
    (decide (t = .string) && (decide (f = .bytes) || decide (f = .int32) || decide (f = .int64) || decide (f = .uint32) ||
      decide (f = .uint64))) ||
    (decide (t = .bytes) && decide (f = .string))

/-- Can a value of type `f` be converted to type `t`? -/
def convertible (env : Env) (t f : GT) : Bool :=
  assignable env t f || (match under env t, under env f with
    | some a, some b => convertU a b
    | _, _ => false)

/-- Fields of the message. -/
inductive Fld
  | payload
  | header (k : Str)
  deriving DecidableEq, Repr

/-- Functions of packages that take one value. -/
inductive Fn
  | le32         -- binary.LittleEndian.Uint32
  | le64         -- binary.LittleEndian.Uint64
  | from32       -- math.Float32frombits
  | from64       -- math.Float64frombits
  | bits32       -- math.Float32bits
  | bits64       -- math.Float64bits
  deriving DecidableEq, Repr

/-- Their signatures. -/
def Fn.sig : Fn → GT × GT
  | .le32 => (.bytes, .uint32)
  | .le64 => (.bytes, .uint64)
  | .from32 => (.uint32, .ty .float32)
  | .from64 => (.uint64, .ty .float64)
  | .bits32 => (.ty .float32, .uint32)
  | .bits64 => (.ty .float64, .uint64)

/-- Expressions. -/
inductive E
  | raw                            -- bMsg.Payload
  | var (x : Str)
  | fld (f : Fld)                  -- msg.Payload, msg.Headers.X
  | conv (t : GT) (e : E)          -- T(e), for a type of the language
  | call (n : Str) (e : E)         -- n(e), for an identifier
  | fn (f : Fn) (e : E)
  | format (e : E)                 -- e.Format(time.RFC3339)
  | addr (e : E)
  | deref (e : E)
  | buffer                         -- make([]byte, …)
  | headers                        -- make(map[string][]byte, …)
  | parse (e : E)                  -- time.Parse(time.RFC3339, e)
  | marshal (e : E)                -- json.Marshal(e)
  | unmarshal (e p : E)            -- json.Unmarshal(e, p)
  deriving DecidableEq, Repr

/-- Variables and their types. -/
abbrev Ctx := List (Str × GT)

/-- The type of a variable. -/
def Ctx.type (c : Ctx) (x : Str) : Option GT := (c.find? (fun e => e.1 = x)).map (·.2)

/-- The type an identifier stands for: a type of the language (only those the templates write), a declared type. -/
def typeNamed (env : Env) (n : Str) : Option GT :=
  if n = tString then some (.ty .string)
  else if (env n).isSome then some (.ty (.named n)) else none

/-- Has a value of this type the method `Format`? Declared types have no method of that name. -/
def hasFormat : GT → Bool
  | .ty .time => true
  | .ptr (.ty .time) => true
  | _ => false

/-- The type of an expression with one value; `none`: the compiler refuses it. `flds` are the types of the fields. -/
def typeOf (env : Env) (flds : Fld → Option GT) (c : Ctx) : E → Option GT
  | .raw => some .bytes
  | .var x => c.type x
  | .fld f => flds f
  | .conv t e => match typeOf env flds c e with
    | some f => if convertible env t f then some t else none
    | none => none
  | .call n e => match typeNamed env n with
    | some t => match typeOf env flds c e with
      | some f => if convertible env t f then some t else none
      | none => none
    | none => none
  | .fn f e => match typeOf env flds c e with
    | some t => if assignable env f.sig.1 t then some f.sig.2 else none
    | none => none
  | .format e => match typeOf env flds c e with
    | some t => if hasFormat t then some (.ty .string) else none
    | none => none
  | .addr e => match typeOf env flds c e with
    | some t => some (.ptr t)
    | none => none
  | .deref e => match typeOf env flds c e with
    | some (.ptr t) => some t
    | _ => none
  | .buffer => some .bytes
  | .headers => some .table
  | .parse _ => none
  | .marshal _ => none
  | .unmarshal e _ => match typeOf env flds c e with
    | some t => if assignable env .bytes t then some .error else none
    | none => none

/-- The types of the values of an expression: functions may return two. -/
def typesOf (env : Env) (flds : Fld → Option GT) (c : Ctx) : E → Option (List GT)
  | .parse e => match typeOf env flds c e with
    | some t => if assignable env (.ty .string) t then some [.ty .time, .error] else none
    | none => none
  | .marshal e => match typeOf env flds c e with
    | some _ => some [.bytes, .error]
    | none => none
  | e => (typeOf env flds c e).map (fun t => [t])

/-- Variables used in an expression. -/
def E.uses : E → List Str
  | .raw => []
  | .var x => [x]
  | .fld _ => []
  | .conv _ e => e.uses
  | .call _ e => e.uses
  | .fn _ e => e.uses
  | .format e => e.uses
  | .addr e => e.uses
  | .deref e => e.uses
  | .buffer => []
  | .headers => []
  | .parse e => e.uses
  | .marshal e => e.uses
  | .unmarshal e p => e.uses ++ p.uses

/-! ## Statements -/

/-- A statement without blocks. -/
inductive Simple
  | define (xs : List Str) (e : E)     -- x, y := e
  | set (f : Fld) (e : E)              -- msg.F = e
  | check (x : Str)                    -- if x != nil { return …, x }
  | nilCheck (f : Fld)                 -- if msg.F == nil { return …, fmt.Errorf(…) }
  | putUint (w : GT) (x : Str) (e : E) -- binary.BigEndian.PutUintW(x, e)
  | put (e : E)                        -- headers["…"] = e
  | ret (xs : List Str)                -- return
  deriving DecidableEq, Repr

/-- A statement. -/
inductive Stmt
  | simple (s : Simple)
  | ifSet (f : Fld) (body : List Simple)      -- if msg.F != nil { … }
  | loop (cases : List (List Simple))         -- for k, v := range bMsg.Headers { switch { case k == "…": … default: } }
  deriving Repr

/-- Variables used in a statement (being assigned is no use). -/
def Simple.uses : Simple → List Str
  | .define _ e => e.uses
  | .set _ e => e.uses
  | .check x => [x]
  | .nilCheck _ => []
  | .putUint _ x e => x :: e.uses
  | .put e => "headers".toList :: e.uses
  | .ret xs => xs

/-- Variables used in a block. -/
def usesAll (ss : List Simple) : List Str := ss.flatMap Simple.uses

/-- Variables a statement declares. -/
def Simple.defs : Simple → List Str
  | .define xs _ => xs
  | _ => []

/-- Variables from outside used in a block. -/
def usesOutside (ss : List Simple) : List Str := (usesAll ss).filter (fun x => decide (x ∉ ss.flatMap Simple.defs))

/-- Variables of the function used in one of its statements. -/
def Stmt.uses : Stmt → List Str
  | .simple s => s.uses
  | .ifSet _ b => usesOutside b
  | .loop cs => (cs.flatMap usesOutside).filter (fun x => decide (x ≠ "k".toList ∧ x ≠ "v".toList))

/-- Declaring variables with `:=` in a block: at least one must be new in the block, the others are assigned
(https://go.dev/ref/spec#Short_variable_declarations). -/
def declare (env : Env) (inner : Ctx) (xs : List Str) (ts : List GT) : Option Ctx :=
  if xs.length = ts.length ∧ xs.any (fun x => (inner.type x).isNone) = true ∧
      (xs.zip ts).all (fun e => match inner.type e.1 with
        | some t => assignable env t e.2
        | none => true) = true
  then some (inner ++ (xs.zip ts).filter (fun e => (inner.type e.1).isNone))
  else none

/-- Can the value be compared with nil? (https://go.dev/ref/spec#Comparison_operators) -/
def comparableToNil (env : Env) (t : GT) : Bool :=
  match under env t with
  | some (.ptr _) => true
  | some (.slice _) => true
  | some .bytes => true
  | some .iface => true
  | some .error => true
  | some .table => true
  | _ => false

/-- The compiler on one statement: the variables of the block afterwards. -/
def checkSimple (env : Env) (flds : Fld → Option GT) (outer inner : Ctx) : Simple → Option Ctx
  | .define xs e => match typesOf env flds (inner ++ outer) e with
    | some ts => declare env inner xs ts
    | none => none
  | .set f e => match flds f, typeOf env flds (inner ++ outer) e with
    | some l, some r => if assignable env l r then some inner else none
    | _, _ => none
  | .check x => match Ctx.type (inner ++ outer) x with
    | some t => if comparableToNil env t then some inner else none
    | none => none
  | .nilCheck f => match flds f with
    | some t => if comparableToNil env t then some inner else none
    | none => none
  | .putUint w x e => match Ctx.type (inner ++ outer) x, typeOf env flds (inner ++ outer) e with
    | some b, some t => if assignable env .bytes b && assignable env w t then some inner else none
    | _, _ => none
  | .put e => match Ctx.type (inner ++ outer) "headers".toList, typeOf env flds (inner ++ outer) e with
    | some h, some t => if decide (h = .table) && assignable env .bytes t then some inner else none
    | _, _ => none
  | .ret xs => if xs.all (fun x => (Ctx.type (inner ++ outer) x).isSome) then some inner else none

/-- The statements of a block. -/
def checkBlock (env : Env) (flds : Fld → Option GT) (outer : Ctx) : Ctx → List Simple → Option Ctx
  | inner, [] => some inner
  | inner, s :: ss => match checkSimple env flds outer inner s with
    | some inner' => checkBlock env flds outer inner' ss
    | none => none

/-- A block: its statements, and every variable declared in it is used in it. -/
def blockOk (env : Env) (flds : Fld → Option GT) (outer : Ctx) (ss : List Simple) : Bool :=
  match checkBlock env flds outer [] ss with
  | some inner => inner.all (fun e => decide (e.1 ∈ usesAll ss))
  | none => false

/-- The variables of the loop over the received headers (message.tmpl:109). -/
def loopVars : Ctx := [("k".toList, .ty .string), ("v".toList, .bytes)]

/-- The compiler on one statement of a function body. In a loop `k` is used by the conditions of the cases, `v` in their
statements. -/
def checkStmt (env : Env) (flds : Fld → Option GT) (c : Ctx) : Stmt → Option Ctx
  | .simple s => checkSimple env flds [] c s
  | .ifSet f body => match flds f with
    | some t => if comparableToNil env t && blockOk env flds c body then some c else none
    | none => none
  | .loop cases =>
    if cases.all (fun b => blockOk env flds (loopVars ++ c) b) && !cases.isEmpty &&
      decide ("v".toList ∈ cases.flatMap usesOutside) then some c else none

/-- The statements of a function body. -/
def checkStmts (env : Env) (flds : Fld → Option GT) : Ctx → List Stmt → Option Ctx
  | c, [] => some c
  | c, s :: ss => match checkStmt env flds c s with
    | some c' => checkStmts env flds c' ss
    | none => none

/-- A function body: its statements, and every variable declared is used. -/
def bodyOk (env : Env) (flds : Fld → Option GT) (ss : List Stmt) : Bool :=
  match checkStmts env flds [] ss with
  | some c => c.all (fun e => decide (e.1 ∈ ss.flatMap Stmt.uses))
  | none => false

/-! ## What the template writes -/

/-- `isDateOrDateTimeGenerated` (pkg/utils/template/helpers.go:147-154). -/
def dateFormat (c : Cfg) (format : Str) : Bool := c.dates && (decide (format = "date".toList) || decide (format = "date-time".toList))

/-- A payload: its schema, and the schema its `$ref` leads to, if it is one (`.Payload.Reference`). -/
structure Payload where
  sch : Sch
  target : Option Sch

/-- `$payload` (message.tmpl:57-61). -/
def Payload.used (p : Payload) : Info :=
  match p.target with
  | some t => t.info
  | none => p.sch.info

def vPayload : Str := "payload".toList
def vErr : Str := "err".toList
def vT : Str := "t".toList
def vH : Str := "h".toList
def vV : Str := "v".toList
def vHeaders : Str := "headers".toList

/-- The statements that read the payload (message.tmpl:63-96). -/
def readPayload (c : Cfg) (i : Info) : List Simple :=
  if i.type = tString then
    if dateFormat c i.format then
      [.define [vT, vErr] (.parse (.conv (.ty .string) .raw)), .check vErr, .define [vPayload] (.var vT)]
    else [.define [vPayload] (.conv (.ty .string) .raw)]
  else if i.type = tInteger then
    if i.format = "int32".toList then [.define [vPayload] (.conv (.ty .int32) (.fn .le32 .raw))]
    else [.define [vPayload] (.conv (.ty .int64) (.fn .le64 .raw))]
  else if i.type = tNumber then
    if i.format = "float".toList then [.define [vPayload] (.fn .from32 (.fn .le32 .raw))]
    else [.define [vPayload] (.fn .from64 (.fn .le64 .raw))]
  else [.define [vErr] (.unmarshal .raw (.addr (.fld .payload))), .check vErr]

/-- The assignment of the payload (message.tmpl:98-105). -/
def storePayload (p : Payload) : List Simple :=
  if p.used.type = tString ∨ p.used.type = tInteger ∨ p.used.type = "numeric".toList then
    match p.target with
    | some t => [.set .payload (.call t.info.name (.var vPayload))]
    | none => [.set .payload (.var vPayload)]
  else []

/-- The statements that write the payload (message.tmpl:184-215). -/
def writePayload (c : Cfg) (p : Payload) : List Simple :=
  if p.used.type = tObject ∨ p.used.type = tArray then
    [.define [vPayload, vErr] (.marshal (.fld .payload)), .check vErr]
  else if p.used.type = tInteger then
    if p.sch.info.format = "int32".toList then
      [.define [vPayload] .buffer, .putUint .uint32 vPayload (.conv .uint32 (.fld .payload))]
    else [.define [vPayload] .buffer, .putUint .uint64 vPayload (.conv .uint64 (.fld .payload))]
  else if p.used.type = tNumber then
    if p.used.format = "float".toList then
      [.define [vPayload] .buffer, .putUint .uint32 vPayload (.fn .bits32 (.fld .payload))]
    else [.define [vPayload] .buffer, .putUint .uint64 vPayload (.fn .bits64 (.fld .payload))]
  else if p.used.type = tString ∧ dateFormat c p.used.format = true then
    [.define [vPayload] (.conv .bytes (.format (.fld .payload)))]
  else [.define [vPayload] (.conv .bytes (.fld .payload))]

/-- A declared header: its schema, the name of the schema its `$ref` leads to if it is one (`$value.Reference`),
`IsRequired`, and whether the headers list it as required. -/
structure Header where
  key : Str
  sch : Sch
  ref : Option Str
  required : Bool
  listed : Bool

/-- `isFieldPointer` (v3/templates/helpers.go:130-139). -/
def Header.pointer (force : Bool) (h : Header) : Bool :=
  if force then decide (h.sch.info.type ≠ tArray)
  else !(h.listed || h.required) && decide (h.sch.info.type ≠ tArray)

/-- The conversion of the received bytes (message.tmpl:135-139, 153-157): to the referenced type, or to the text of the
type. Without a type only parentheses are left. -/
def Header.convert (h : Header) : E :=
  match h.ref with
  | some n => .call n (.var vV)
  | none => if h.sch.info.type = [] then .var vV else .call h.sch.info.type (.var vV)

/-- The case of a header in the loop (message.tmpl:120-160). -/
def readHeader (c : Cfg) (force : Bool) (h : Header) : List Simple :=
  if h.pointer force then
    if h.sch.info.type = tObject then
      [.define [vErr] (.unmarshal (.var vV) (.fld (.header h.key))), .check vErr]
    else if dateFormat c h.sch.info.format then
      [.define [vT, vErr] (.parse (.conv (.ty .string) (.var vV))), .check vErr, .set (.header h.key) (.addr (.var vT))]
    else [.define [vH] h.convert, .set (.header h.key) (.addr (.var vH))]
  else
    if h.sch.info.type = tObject then
      [.define [vErr] (.unmarshal (.var vV) (.addr (.fld (.header h.key)))), .check vErr]
    else if dateFormat c h.sch.info.format then
      [.define [vT, vErr] (.parse (.conv (.ty .string) (.var vV))), .check vErr, .set (.header h.key) (.var vT)]
    else [.set (.header h.key) h.convert]

/-- `*` before a field that is a pointer (message.tmpl:233-239). -/
def Header.star (force : Bool) (h : Header) (e : E) : E := if h.pointer force then .deref e else e

/-- The statements that write a header (message.tmpl:230-267). In front of a method call `*` applies to its result. -/
def writeHeader (c : Cfg) (force : Bool) (h : Header) : List Stmt :=
  let f : E := .fld (.header h.key)
  if h.required then
    (if h.pointer force then [.simple (.nilCheck (.header h.key))] else []) ++
    (if h.sch.info.type = tObject then
      [.simple (.define [vH, vErr] (.marshal (h.star force f))), .simple (.check vErr), .simple (.put (.var vH))]
    else if dateFormat c h.sch.info.format then
      [.simple (.put (.conv .bytes (h.star force (.format f))))]
    else [.simple (.put (.conv .bytes (h.star force f)))])
  else
    [.ifSet (.header h.key)
      (if h.sch.info.type = tObject then
        [.define [vH, vErr] (.marshal (.deref f)), .check vErr, .put (.var vH)]
      else if dateFormat c h.sch.info.format then [.put (.conv .bytes (.format f))]
      else [.put (.conv .bytes (.deref f))])]

/-- A message: its payload and, if it has any, its headers. -/
structure Msg where
  payload : Payload
  headers : Option (List Header)

/-- The loop over the received headers (message.tmpl:107-166). -/
def readHeaders (c : Cfg) (force : Bool) : Option (List Header) → List Stmt
  | none => []
  | some hs => [.loop (hs.map (readHeader c force))]

/-- The body of `brokerMessageToX` (message.tmpl:54-172). -/
def fromBroker (c : Cfg) (force : Bool) (m : Msg) : List Stmt :=
  ((readPayload c m.payload.used ++ storePayload m.payload).map .simple) ++
    (readHeaders c force m.headers ++ [.simple (.ret [])])

/-- The statements for all headers (message.tmpl:217-271). -/
def writeHeaders (c : Cfg) (force : Bool) : Option (List Header) → List Stmt
  | none => [.simple (.define [vHeaders] .headers)]
  | some hs => .simple (.define [vHeaders] .headers) :: hs.flatMap (writeHeader c force)

/-- The body of `toBrokerMessage` (message.tmpl:174-277). -/
def toBroker (c : Cfg) (force : Bool) (m : Msg) : List Stmt :=
  ((writePayload c m.payload).map .simple) ++ (writeHeaders c force m.headers ++ [.simple (.ret [vHeaders, vPayload])])

/-- The type of a header field, as written in the struct (schema_definition.tmpl:18). -/
def Header.type (c : Cfg) (force : Bool) (h : Header) : Option GT :=
  match schemaName c h.sch with
  | .ok t => some (if h.pointer force then .ptr (.ty t) else .ty t)
  | .error _ => none

/-- The types of the fields of a message (message.tmpl:28-39, schema_definition.tmpl:11-19). -/
def Msg.flds (c : Cfg) (force : Bool) (m : Msg) : Fld → Option GT
  | .payload => match schemaName c m.payload.sch with
    | .ok t => some (.ty t)
    | .error _ => none
  | .header k => match m.headers with
    | none => none
    | some hs => match hs.find? (fun h => h.key = k) with
      | some h => h.type c force
      | none => none

/-- Does the compiler accept the two functions of a message? -/
def compiles (c : Cfg) (env : Env) (force : Bool) (m : Msg) : Bool :=
  bodyOk env (m.flds c force) (fromBroker c force m) && bodyOk env (m.flds c force) (toBroker c force m)

end Verif.Convert
