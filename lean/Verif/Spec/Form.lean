import Verif.Spec.Calls
import Verif.Spec.PercentEncoding

/-
Specification of forms and queries made from serializer calls.
-/

namespace OAuth.Spec

/-- The item of a form a call stands for: `key=value`. Protocol parameters have none. -/
def Call.formItem? : Call → Option Bytes
  | .parameter k v => some (k ++ b!"=" ++ encode v.text)
  | .parameterEncoded k v => some (k ++ b!"=" ++ v.text)
  | .oauth _ => none

/-- The form made of items. -/
def formOf (items : List Bytes) : Bytes := join b!"&" items

/-- `uri` with a query made of items; no `?` if there is none. -/
def queryOf (uri : Bytes) (items : List Bytes) : Bytes :=
  if items = [] then uri else uri ++ b!"?" ++ formOf items

/-- What goes wrong when the value of a call is formatted, if anything. -/
def Call.failure? (c : Call) : Option Panic :=
  match c.value? with
  | none => none
  | some v => match v.outcome with
    | .ok => none
    | .err => some .fmtUnwrap
    | .panic p => some p

/-- The first failure of a sequence of calls. -/
def firstFailure (cs : List Call) : Option Panic := cs.findSome? Call.failure?

end OAuth.Spec
