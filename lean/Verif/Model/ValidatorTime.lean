import Verif.Model.Validator

/-!
# Validating dates

The Go types of strings with the formats `date-time` and `date` are `time.Time` and `civil.Date`
(pkg/codegen/generators/v3/templates/schema_name.tmpl:19-22, the same in v2), but their tags are written as for any other
string (schema_definition.tmpl:18). As in `Verif.Model.Validator`, the validator is modelled after its published source
(v10.20.0): it compares the values of `time.Time` with the time of the validation, whatever the parameter says, and panics
on comparisons of other structures.
-/

namespace Verif.Validator

/-- A value of the Go type of a property with one of these formats: an instant (nanoseconds) and whether it is the zero
value, or a day. -/
inductive Stamp
  | time (t : Int) (zero : Bool)
  | date (y : Int) (m d : Nat)
  deriving DecidableEq, Repr

/-- `reflect.Value.IsZero` -/
def Stamp.isZero : Stamp → Bool
  | .time _ z => z
  | .date y m d => y == 0 && m == 0 && d == 0

/-- A comparison with a parameter (validator: `isGte`, `isLte`, `isGt`, `isLt`): instants are compared with `time.Now()`;
the parameter is not read. -/
def Stamp.compare (now : Int) (cmp : Int → Int → Bool) : Stamp → Res
  | .time t _ => .of (cmp t now)
  | .date _ _ _ => .panic

/-- One directive; `unique`, `oneof` and `eq` do not know structures. -/
def Stamp.runDir (now : Int) (isPtr : Bool) (x : Stamp) (d : Str × Str) : Res :=
  if d.1 = kRequired then .of (isPtr || !x.isZero)
  else if d.1 = kMin then x.compare now (fun a b => decide (b ≤ a))
  else if d.1 = kMax then x.compare now (fun a b => decide (a ≤ b))
  else if d.1 = kGte then x.compare now (fun a b => decide (b ≤ a))
  else if d.1 = kLte then x.compare now (fun a b => decide (a ≤ b))
  else if d.1 = kGt then x.compare now (fun a b => decide (b < a))
  else if d.1 = kLt then x.compare now (fun a b => decide (a < b))
  else .panic

/-- Alternatives: the first that passes. -/
def Stamp.runAlts (now : Int) (isPtr : Bool) (x : Stamp) : List (Str × Str) → Res
  | [] => .fail
  | d :: ds => match x.runDir now isPtr d with
    | .pass => .pass
    | .panic => .panic
    | .fail => Stamp.runAlts now isPtr x ds

/-- The directives of a field (validator: `traverseField`). The fields of `civil.Date` have no tags, those of `time.Time`
are not visited. -/
def Stamp.loop (now : Int) (isPtr : Bool) (x : Stamp) : List (List (Str × Str)) → Res
  | [] => .pass
  | alts :: rest =>
    if isOmit alts then (if isPtr || !x.isZero then Stamp.loop now isPtr x rest else .pass)
    else match x.runAlts now isPtr alts with
      | .pass => Stamp.loop now isPtr x rest
      | .fail => .fail
      | .panic => .panic

/-- A field of such a type with the constraints `d`: a value if it is required, a pointer otherwise (C105). -/
def Stamp.runField (now : Int) (d : Decl) (x : Option Stamp) : Res :=
  let tag := parseTag (tagText d .str)
  if tag.all (fun alts => alts.all (fun d => known d.1)) then
    match x with
    | none => match tag with
      | [] => .pass
      | alts :: _ => if isOmit alts then .pass else .fail
    | some x => x.loop now (!d.required) tag
  else .panic

end Verif.Validator
