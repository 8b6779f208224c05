import Verif.Base.Str

/-!
# The first lines of a generated file

Models the head of pkg/codegen/generators/v3/templates/imports.tmpl:1-6 (the same in v2), `modulePathVersion`
(pkg/codegen/codegen.go:67-80) and the end of `Generate` (codegen.go:112-129). What follows the head is a parameter, and so is the
formatter.
-/

namespace Verif.FileHead

def tPackage : Str := "// Package \"".toList
def tProvides : Str := "\" provides primitives to interact with the AsyncAPI specification.".toList
def tSlashes : Str := "//".toList
def tBy : Str := "// Code generated by ".toList
def tVersion : Str := " version ".toList
def tEdit : Str := " DO NOT EDIT.".toList
def tClause : Str := "package ".toList

/-- What `debug.ReadBuildInfo` tells of the main module (codegen.go:70-76). -/
structure Build where
  path : Str
  version : Str
  deriving DecidableEq, Repr

/-- `modulePathVersion` (codegen.go:67-80) -/
def modulePathVersion : Option Build → Str × Str
  | none => ("unknown module path".toList, "unknown version".toList)
  | some b => (if b.path ≠ [] then b.path else "unknown module path".toList,
      if b.version ≠ [] then b.version else "unknown version".toList)

/-- The head (imports.tmpl:1-5) and the rest of the file. -/
def content (pkg : Str) (b : Option Build) (rest : Str) : Str :=
  tPackage ++ pkg ++ tProvides ++ '\n' :: (tSlashes ++ '\n' :: (tBy ++ (modulePathVersion b).1 ++ tVersion ++
    (modulePathVersion b).2 ++ tEdit ++ '\n' :: (tClause ++ pkg ++ '\n' :: rest)))

/-- What is written (codegen.go:112-129): the formatter can refuse; without it, nothing is checked. -/
def written (disableFormatting : Bool) (format : Str → Option Str) (text : Str) : Option Str :=
  if disableFormatting then some text else format text

end Verif.FileHead
