import Verif.Spec.Template
/- Specification of the dispatch of property values to checks. -/
namespace CfnLint.Spec

/-- The kinds of checks. -/
inductive CheckKind where
  | value | ref | getAtt | findInMap | split | join | importValue | sub
deriving DecidableEq, Repr

/-- The functions for which there is a kind of check of their own. -/
def kindOf : String → Option CheckKind
  | "Ref" => some .ref
  | "Fn::GetAtt" => some .getAtt
  | "Fn::FindInMap" => some .findInMap
  | "Fn::Split" => some .split
  | "Fn::Join" => some .join
  | "Fn::ImportValue" => some .importValue
  | "Fn::Sub" => some .sub
  | _ => none

/-- The functions whose values are not available to a check. -/
def opaqueFunctions : List String :=
  ["Fn::Base64", "Fn::GetAZs", "Fn::Select", "Fn::If", "Fn::Contains", "Fn::Cidr"]

/-- All functions CloudFormation evaluates in a property value. -/
def allFunctions : List String :=
  ["Ref", "Fn::GetAtt", "Fn::FindInMap", "Fn::Split", "Fn::Join", "Fn::ImportValue", "Fn::Sub"]
    ++ opaqueFunctions ++ ["Fn::Transform"]

/-- The call that is due for the value `v` at the path `p`, when the functions are those of `fs`: a function
with a check of its own is checked by it on its argument, any other function is not checked, everything
else is checked as a value. -/
inductive Due (fs : List String) : Val → Path → CheckKind → Val → Path → Prop
  | fn {name arg p k} : name ∈ fs → kindOf name = some k →
      Due fs (.dict [(.str name, arg)]) p k arg (p ++ [.str name])
  | plain {v p} : (∀ name arg, name ∈ fs → v ≠ .dict [(.str name, arg)]) → Due fs v p .value v p

end CfnLint.Spec
