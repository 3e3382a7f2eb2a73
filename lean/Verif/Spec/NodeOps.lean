import Verif.Model.NodeOps
/- Specification of the types of values. -/
namespace CfnLint.Spec

/-- `v` is an instance of the Python type; Booleans are integers as well. -/
inductive IsInstance : Val → Ty → Prop
  | dict {kvs} : IsInstance (.dict kvs) .dict
  | list {xs} : IsInstance (.list xs) .list
  | str {s} : IsInstance (.str s) .str
  | int {i} : IsInstance (.int i) .int
  | bool {b} : IsInstance (.bool b) .bool
  | boolInt {b} : IsInstance (.bool b) .int
  | float {x} : IsInstance (.flt x) .float

end CfnLint.Spec
