import Verif.Model.CmdLine

/-! # The ways to write options on a command line -/

namespace Verif.CmdLine

/-- The long names and letters of the options, as in the documentation. -/
def names : List (Flag × String × Option Char) :=
  [(.input, "input", some 'i'), (.output, "output", some 'o'), (.package, "package", some 'p'),
   (.generate, "generate", some 'g'), (.noFormat, "disable-formatting", some 'f'),
   (.convertKeys, "convert-keys", some 'c'), (.naming, "naming-scheme", some 'n'),
   (.ignoreFormat, "ignore-string-format", none), (.forcePointers, "force-pointers", none),
   (.help, "help", some 'h')]

/-- The options that need no value. -/
def switches : List Flag := [.noFormat, .ignoreFormat, .forcePointers, .help]

/-- The values that turn a switch on, and those that turn it off. -/
def trues : List Str := ["1", "t", "T", "true", "TRUE", "True"].map String.toList
def falses : List Str := ["0", "f", "F", "false", "FALSE", "False"].map String.toList

/-- A command line and the options it gives, in order. -/
inductive Says : List Str → List (Flag × Str) → Prop
  | nil : Says [] []
  /-- `--output=value` -/
  | longEq {f n c v l s} : (f, n, c) ∈ names → Says l s → Says (('-' :: '-' :: (n.toList ++ '=' :: v)) :: l) ((f, v) :: s)
  /-- `--output value` -/
  | long {f n c v l s} : (f, n, c) ∈ names → f ∉ switches → Says l s →
      Says (('-' :: '-' :: n.toList) :: v :: l) ((f, v) :: s)
  /-- `-o value` -/
  | short {f n c v l s} : (f, n, some c) ∈ names → f ∉ switches → Says l s → Says (['-', c] :: v :: l) ((f, v) :: s)
  /-- `-ovalue` -/
  | attached {f n c v l s} : (f, n, some c) ∈ names → f ∉ switches → v ≠ [] → v.head? ≠ some '=' → Says l s →
      Says (('-' :: c :: v) :: l) ((f, v) :: s)
  /-- `-o=value` -/
  | shortEq {f n c v l s} : (f, n, some c) ∈ names → v ≠ [] → Says l s →
      Says (('-' :: c :: '=' :: v) :: l) ((f, v) :: s)
  /-- `--force-pointers` -/
  | switch {f n c l s} : (f, n, c) ∈ names → f ∈ switches → Says l s →
      Says (('-' :: '-' :: n.toList) :: l) ((f, "true".toList) :: s)
  /-- `-f` -/
  | shortSwitch {f n c l s} : (f, n, some c) ∈ names → f ∈ switches → Says l s →
      Says (['-', c] :: l) ((f, "true".toList) :: s)
  /-- an argument that is no option -/
  | word {a l s} : a.head? ≠ some '-' ∨ a = ['-'] → Says l s → Says (a :: l) s
  /-- `-fhotext`: letters of switches before other letters -/
  | cluster {f n c d t l s} : (f, n, some c) ∈ names → f ∈ switches → d ≠ '-' → d ≠ '=' →
      Says (('-' :: d :: t) :: l) s → Says (('-' :: c :: d :: t) :: l) ((f, "true".toList) :: s)
  /-- after `--` there are no options -/
  | dashes {l} : Says ("--".toList :: l) []

/-- The values given for an option, in order. -/
def given (f : Flag) (s : List (Flag × Str)) : List Str := s.filterMap (fun e => if e.1 = f then some e.2 else none)

/-- The last value given for an option, or its default. -/
def last (f : Flag) (default : String) (s : List (Flag × Str)) : Str := (given f s).getLastD default.toList

end Verif.CmdLine
