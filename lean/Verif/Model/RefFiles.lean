import Verif.Model.Refs

/-!
# References between the files of one command

The files of a command are the main document and its dependencies (pkg/codegen/codegen.go:29-54). `AddDependency` keeps each
dependency in a map under the path of the command line; `getDependencyBasedOnRef` looks for the file of a reference in the map
of the document that is processed. The dependencies are processed with themselves as specification and have no dependencies
of their own (pkg/asyncapi/v3/specification.go:136-141, pkg/asyncapi/v2/specification.go:95-99). Both versions are the same
here. Not modelled: headers and payloads that come from a trait of a dependency, which are looked up in the main document.
-/

namespace Verif.RefFiles

open Refs (Doc Version Ty Out lookup trimDot)

/-- A file of the command: its path as given, and the document in it (codegen.go:31-44). -/
structure Input where
  path : Str
  doc : Doc

/-- `AddDependency` (pkg/asyncapi/v3/specification.go:61-79, pkg/asyncapi/v2/specification.go:48-65), the version being
right. -/
def addDependency (deps : GoMap Str Doc) (f : Input) : GoMap Str Doc := deps.put (trimDot f.path) f.doc

/-- The loop over the dependencies (codegen.go:38-51). -/
def dependencies (fs : List Input) : GoMap Str Doc := fs.foldl addDependency []

/-- Which document is processed: the main one, or that of the dependency under a key of the map. -/
inductive Place
  | main
  | dep (key : Str)

/-- A reference in the document that is processed (v3/specification.go:128-177, 653-678). `none`: there is no such
document. -/
def lookupIn (v : Version) (main : Input) (deps : List Input) (t : Ty) (ref : Str) : Place → Option Out
  | .main => some (lookup v main.doc (dependencies deps) t ref)
  | .dep key => ((dependencies deps).get key).map (fun d => lookup v d [] t ref)

end Verif.RefFiles
