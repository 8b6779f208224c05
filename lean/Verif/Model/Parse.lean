import Verif.Base.Str
import Verif.Base.Json

/-!
# Reading documents

Models pkg/asyncapi/versions.go:4-35, pkg/asyncapi/parser/parse.go:43-182 and `FromFile` of
pkg/codegen/codegen.go:29-54. The file system gives the JSON value of each file (the YAML to JSON conversion
of a YAML file included); whether a JSON value decodes into the Go structures of a version is a parameter.
-/

namespace Verif.Parse

/-- Why a document is refused. -/
inductive Err
  | read           -- os.ReadFile
  | format         -- ErrInvalidFileFormat
  | syntax         -- YAMLToJSON or json.Unmarshal of the text
  | version        -- ErrInvalidVersion
  | unknown        -- "unknown version … this should not have happened"
  | decode         -- json.Unmarshal into the specification
  | cast           -- AddDependency
  deriving DecidableEq, Repr

/-- The two implementations of a specification. -/
inductive Impl
  | v2
  | v3
  deriving DecidableEq, Repr

/-- `Specification.MajorVersion`. (pkg/asyncapi/v2/specification.go:257-261,
pkg/asyncapi/v3/specification.go:754-758) -/
def Impl.major : Impl → Nat
  | .v2 => 2
  | .v3 => 3

/-- A parsed specification: which structure holds it, and the document. -/
structure Spec where
  impl : Impl
  doc : Json

/-- `SupportedVersions` (pkg/asyncapi/versions.go:4-14) -/
def supportedVersions : List Str :=
  [['2', '.', '0', '.', '0'], ['2', '.', '1', '.', '0'], ['2', '.', '2', '.', '0'], ['2', '.', '3', '.', '0'],
   ['2', '.', '4', '.', '0'], ['2', '.', '5', '.', '0'], ['2', '.', '6', '.', '0'], ['3', '.', '0', '.', '0']]

/-- `IsVersionSupported` (pkg/asyncapi/versions.go:17-25) -/
def isVersionSupported (version : Str) : Bool := go supportedVersions
where
  go : List Str → Bool
  | [] => false
  | v :: vs => if v = version then true else go vs

/-- `m[k]` of a decoded JSON object: the last member of that name wins. -/
def member (k : Str) : List (Str × Json) → Option Json
  | [] => none
  | (k', v) :: ms =>
    match member k ms with
    | some w => some w
    | none => if k' = k then some v else none

def asyncapiKey : Str := ['a', 's', 'y', 'n', 'c', 'a', 'p', 'i']

/-- `versionFromJSON` (pkg/asyncapi/parser/parse.go:142-168). Decoding `null` into a map gives a nil map; a
value that is no object is an error of `json.Unmarshal`. -/
def versionFromJSON (doc : Json) : Except Err Str :=
  match doc with
  | .null => .error .version
  | .obj ms =>
    match member asyncapiKey ms with
    | none => .error .version
    | some (.str s) => if isVersionSupported s then .ok s else .error .version
    | some _ => .error .version
  | _ => .error .syntax

/-- `strconv.Atoi` of a string of one character; `none` is its error. -/
def atoi1 (c : Char) : Option Nat :=
  if '0'.toNat ≤ c.toNat ∧ c.toNat ≤ '9'.toNat then some (c.toNat - '0'.toNat) else none

/-- `majorVersionFromJSON` (pkg/asyncapi/parser/parse.go:170-182). `versionStr[:1]` of an empty string would
panic, which is not reached as the empty string is not supported; it is an error here. -/
def majorVersionFromJSON (doc : Json) : Except Err Nat := do
  let s ← versionFromJSON doc
  match s with
  | [] => .error .version
  | c :: _ =>
    match atoi1 c with
    | some n => .ok n
    | none => .error .version

/-- `FromJSON` (pkg/asyncapi/parser/parse.go:111-140), on a text that is the JSON value `doc`. `null` decoded
into the interface sets it to nil: `none`. -/
def fromJSON (decodes : Impl → Json → Bool) (major : Nat) (doc : Json) : Except Err (Option Spec) := do
  let major ← if major = 0 then majorVersionFromJSON doc else pure major
  let impl ← match major with
    | 2 => pure Impl.v2
    | 3 => pure Impl.v3
    | _ => Except.error Err.unknown
  match doc with
  | .null => pure none
  | doc => if decodes impl doc then pure (some ⟨impl, doc⟩) else .error .decode

/-- `filepath.Ext` on the reversed path: the suffix from the last dot of the last element. -/
def extRev : Str → Str → Str
  | [], _ => []
  | c :: r, acc => if c = '/' then [] else if c = '.' then c :: acc else extRev r (c :: acc)

/-- `filepath.Ext` (Go standard library). -/
def ext (path : Str) : Str := extRev path.reverse []

/-- What a path holds: nothing readable, a text that is neither JSON nor YAML, or a document. -/
inductive File
  | unreadable
  | garbage
  | doc (j : Json)

/-- `FromFile` (pkg/asyncapi/parser/parse.go:43-63) and `FromYAML` (parse.go:82-94). -/
def fromFile (decodes : Impl → Json → Bool) (fs : Str → File) (path : Str) (major : Nat) :
    Except Err (Option Spec) :=
  match fs path with
  | .unreadable => .error .read
  | file =>
    if ext path = ['.', 'y', 'a', 'm', 'l'] ∨ ext path = ['.', 'y', 'm', 'l'] ∨ ext path = ['.', 'j', 's', 'o', 'n'] then
      match file with
      | .doc j => fromJSON decodes major j
      | _ => .error .syntax
    else .error .format

/-- `AddDependency` (pkg/asyncapi/v2/specification.go:49-65, pkg/asyncapi/v3/specification.go:58-75): the
cast. The dependencies are kept in the order they are given. -/
def addDependency (spec : Spec) (dep : Option Spec) : Except Err Spec :=
  match dep with
  | none => .error .cast
  | some d => if d.impl = spec.impl then .ok d else .error .cast

/-- The loop over the dependencies. (pkg/codegen/codegen.go:38-51) -/
def addAll (decodes : Impl → Json → Bool) (fs : Str → File) (spec : Spec) : List Str → Except Err (List (Str × Spec))
  | [] => .ok []
  | p :: ps =>
    match fromFile decodes fs p spec.impl.major with
    | .error e => .error e
    | .ok dep =>
      match addDependency spec dep with
      | .error e => .error e
      | .ok d =>
        match addAll decodes fs spec ps with
        | .error e => .error e
        | .ok ds => .ok ((p, d) :: ds)

/-- `codegen.FromFile` (pkg/codegen/codegen.go:29-54). A nil specification is not reached for the main
document (`C55_main_not_nil`); calling a method on it would panic. -/
def load (decodes : Impl → Json → Bool) (fs : Str → File) (path : Str) (deps : List Str) :
    Except Err (Option (Spec × List (Str × Spec))) :=
  match fromFile decodes fs path 0 with
  | .error e => .error e
  | .ok none => .ok none
  | .ok (some spec) =>
    match addAll decodes fs spec deps with
    | .error e => .error e
    | .ok ds => .ok (some (spec, ds))

/-- `generateContent` (pkg/codegen/codegen.go:132-162): the generator that is run. -/
def generatorOf (spec : Spec) : Option Impl :=
  match spec.impl.major with
  | 2 => if spec.impl = .v2 then some .v2 else none
  | 3 => if spec.impl = .v3 then some .v3 else none
  | _ => none

end Verif.Parse
