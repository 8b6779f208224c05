import Verif.Model.Idents2

/-!
# The names of what is nested in a schema, with AsyncAPI v2

Models the names `generateMetadata` gives to the schemas below a payload, headers or a schema of the components
(pkg/asyncapi/v2/schema.go:64-65, 161-173, 185-187, 205-207, 231-233, 257-259, 283-285) and the name of the type declared for
them (v2/templates/schema_definition.tmpl:11).
-/

namespace Verif.Names2

open Naming (Uni Bytes namify)
open Names (lit Step stepName2)
open Idents.V2 (Src)

/-- What a schema is reached through: a property, the items or the additional properties (`Names.Step`), or a branch of a
composition, whose properties are merged into the schema but keep the name they had in the branch. -/
inductive Step2
  | step (s : Step)
  | anyOf
  | oneOf
  | allOf
  deriving DecidableEq, Repr

/-- The name of what a step leads to (v2/schema.go:163-166, 187, 207, 233, 259, 285). -/
def step2 (u : Uni) (parent : Bytes) : Step2 → Option Bytes
  | .step s => stepName2 u parent s
  | .anyOf => namify u (parent ++ lit "AnyOf")
  | .oneOf => namify u (parent ++ lit "OneOf")
  | .allOf => namify u (parent ++ lit "AllOf")

/-- Where the schemas of a document start. -/
inductive Root2
  | schema (key : Bytes)
  | payload (s : Src)
  | headers (s : Src)
  deriving DecidableEq, Repr

/-- Their names (v2/components.go:20, message.go:64, 123, schema.go:65). -/
def rootName2 (u : Uni) : Root2 → Option Bytes
  | .schema k => namify u (k ++ lit "_Schema")
  | .payload s => (s.name u).bind (fun n => namify u (n ++ lit "_Payload"))
  | .headers s => (s.name u).bind (fun n => namify u (n ++ lit "_Headers"))

/-- The name at the end of a path. -/
def nameAt2 (u : Uni) (n : Bytes) : List Step2 → Option Bytes
  | [] => some n
  | s :: ps => (step2 u n s).bind (fun m => nameAt2 u m ps)

/-- The name of the type declared for a place of the document (schema_definition.tmpl:11 for objects). -/
def typeName2 (u : Uni) (r : Root2) (ps : List Step2) : Option Bytes :=
  ((rootName2 u r).bind (fun n => nameAt2 u n ps)).bind (namify u)

end Verif.Names2
