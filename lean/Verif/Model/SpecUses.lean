import Verif.Model.SpecRules
import Verif.Model.RefAtt
import Verif.Model.JsonSize
import Verif.Model.SecureRefs
import Verif.Model.ParamUses
/-
The rules that check what the properties of resources use against the specification, as they are set up and called: W2030
(rules/parameters/AllowedValue.py), W2031 (rules/parameters/AllowedPattern.py), E3008 (rules/resources/properties/ValueRefGetAtt.py), E3502
(rules/resources/properties/JsonSize.py) and E1027 (rules/functions/DynamicReferenceSecureString.py), around the checks that Model/ParamUses, Model/RefAtt,
Model/JsonSize and Model/SecureRefs model. The specification is one JSON object for each region, as in Model/SpecRules.
-/
namespace CfnLint

/-- `initialize` and the two methods, for a check that reads the template too: parameters/AllowedValue.py:21-26 and 97-117, parameters/AllowedPattern.py:21-26
and 100-120, ValueRefGetAtt.py:19-24 and 213-233, JsonSize.py:23-28 and 107-125, DynamicReferenceSecureString.py:42-50 and 120-136 -/
def bySpecOn (R : RegionSpec) (check : Val → String → Val → Val → Path → PyM (List (Path × String))) : Behaviour where
  propertyTypes := R.resourceTypes.map Prod.fst
  properties := some (fun t obj ty path => check t ty ((dlookup ty R.resourceTypes).getD .none) obj path)
  subTypes := R.propertyTypes.map Prod.fst
  subProperties := some (fun t obj ty path => check t ty ((dlookup ty R.propertyTypes).getD .none) obj path)

/-- W2030, parameters/AllowedValue.py:75-117 -/
def paramAllowedOf (R : RegionSpec) (E : PyText) (fuel : Nat) (msg : Path → String) : Behaviour :=
  bySpecOn R (fun t _ spec obj path => withText id msg (paramUseRule E fuel t badAllowed (specRows (valueRowView R) spec) obj path))

/-- W2031, parameters/AllowedPattern.py:78-120 -/
def paramPatternOf (R : RegionSpec) (E : PyText) (fuel : Nat) (msg : Path → String) : Behaviour :=
  bySpecOn R (fun t _ spec obj path => withText id msg (paramUseRule E fuel t (badPattern E) (specRows (valueRowView R) spec) obj path))

/-- E1027, DynamicReferenceSecureString.py:91-136: below the resource a type without properties is not looked at, which makes no difference -/
def secureOf (R : RegionSpec) (digit : Char → Bool) (fuel : Nat) (msg : Path → String) : Behaviour :=
  bySpecOn R (fun _ ty spec obj path => withText id msg (secureRule digit fuel ty (specRows rowView spec) obj path))

/-- the size of the document of a property, JsonSize.py:92-104: only the properties with a `Value` and the type `Json` are looked at, the size is `JsonMax` of the entry of
`ValueTypes` that `ValueType` names -/
def jsonRows (R : RegionSpec) (spec : Val) : List (String × Option Nat) :=
  (specProps spec).filterMap (fun kv =>
    match kv.1, kv.2.get? "Value" with
    | .str s, some (.dict (w :: ws)) =>
      if specText "PrimitiveType" kv.2 = some "Json" then
        some (s, ((specText "ValueType" (.dict (w :: ws))).bind (fun n => dlookup n R.valueTypes)).bind (fun vt =>
          match vt.get? "JsonMax" with
          | some (.int i) => some i.toNat
          | _ => none))
      else none
    | _, _ => none)

/-- E3502, JsonSize.py:87-125; `below` are the scenarios of the conditions below a path of the template -/
def jsonSizesOf (R : RegionSpec) (below : Val → Path → List Scenario) (msg : Path → String) : Behaviour :=
  bySpecOn R (fun t _ spec obj path => withText id msg (jsonSizeRule (below t) (jsonRows R spec) obj path))

/-- the texts of a list that an entry has under a name -/
def textsAt (name : String) (v : Val) : List String :=
  match v.get? name with
  | some (.list xs) => textsOf xs
  | _ => []

/-- what an entry of `ValueTypes` says of references, ValueRefGetAtt.py:47-68 and 105-107; `parameterTypes` is the part `ParameterTypes` of the specification -/
def refAttTypeView (parameterTypes : List (String × List String)) (v : Val) : RefAttType where
  ref :=
    match v.get? "Ref" with
    | some (.dict (x :: xs)) => some ⟨(textsAt "Parameters" (.dict (x :: xs))).map (fun n => (dlookup n parameterTypes).getD []), textsAt "Resources" (.dict (x :: xs))⟩
    | _ => none
  getAtt :=
    match v.get? "GetAtt" with
    | some (.dict kvs) => some (kvs.filterMap (fun kv =>
        match kv.1, kv.2 with
        | .str s, .list xs => some (s, textsOf xs)
        | .str s, .str a => some (s, [a])
        | _, _ => none))
    | _ => none

/-- the declaration of a property with the entries that its `Value` names, ValueRefGetAtt.py:187-206 -/
def refAttRowView (R : RegionSpec) (parameterTypes : List (String × List String)) (v : Val) : RefAttRow :=
  { rowView v with
    hasValue := (match v.get? "Value" with | some w => w.truthy | none => false)
    valueType := (match v.get? "Value" with
      | some w => (((specText "ValueType" w).bind (fun n => dlookup n R.valueTypes)).map (refAttTypeView parameterTypes)).getD {}
      | none => {})
    listType := (match v.get? "Value" with
      | some w => (((specText "ListValueType" w).bind (fun n => dlookup n R.valueTypes)).map (refAttTypeView parameterTypes)).getD {}
      | none => {}) }

/-- E3008, ValueRefGetAtt.py:187-233 -/
def refAttsOf (R : RegionSpec) (parameterTypes : List (String × List String)) (E : PyText) (fuel : Nat) (msg : Path → String) : Behaviour :=
  bySpecOn R (fun t _ spec obj path => withText id msg (refAttRule E t fuel (specRows (refAttRowView R parameterTypes) spec) obj path))

end CfnLint
