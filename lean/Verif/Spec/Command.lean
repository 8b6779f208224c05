import Verif.Model.Command
import Verif.Props.Codegen

/-! # What a run of the command is to produce -/

namespace Verif.Command

variable {Text : Type}

/-- The options of the generation are those of the command line; the parts to generate are the digits of one number. -/
structure Wanted (f : CmdLine.Flags) (o : Cli.Opts) (opt : Codegen.Opts) : Prop where
  output : opt.outputPath = f.output
  package : opt.packageName = f.package
  application : opt.parts.testBit 0 = o.application
  user : opt.parts.testBit 1 = o.user
  types : opt.parts.testBit 2 = o.types
  noMore : opt.parts < 8
  format : opt.disableFormatting = f.noFormat
  keys : opt.convertKeys = f.convertKeys
  naming : opt.namingScheme = f.naming
  strings : opt.ignoreStringFormat = f.ignoreFormat
  pointers : opt.forcePointers = f.forcePointers

/-- The document and its dependencies are loaded, the options ask for known parts and settings `g`, and the
text is what the generation of this document with these settings gives, formatted unless disabled. -/
structure Produces (sys : Sys Text) (files : Str → Option Text) (f : CmdLine.Flags) (text : Text) : Prop where
  ex : ∃ path deps spec o opt g s t,
    f.inputs = path :: deps ∧
    Parse.load sys.decodes (fileAt sys files) path deps = .ok (some spec) ∧
    Cli.toOptions f.generate = .ok o ∧
    Wanted f o opt ∧
    opt.Asks g ∧
    sys.env.process g spec = (s, true) ∧
    sys.env.content g s opt = some t ∧
    ((f.noFormat = true ∧ text = t) ∨ (f.noFormat = false ∧ sys.env.format t = some text))

end Verif.Command
