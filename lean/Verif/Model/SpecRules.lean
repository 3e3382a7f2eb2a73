import Verif.Model.Lint
import Verif.Model.PropSets
import Verif.Model.PrimType
import Verif.Model.ValueSpecs
/-
The rules that check the properties of resources against the specification, as they are set up and called: their
`initialize`, `match_resource_properties` and `match_resource_sub_properties`, around the checks that Model/PropSets,
Model/PrimType and Model/ValueSpecs model. Here the specification is one JSON object for each region, and what the
single models take as typed declarations are views of it; the traversal (rules/__init__.py:259-376) reads that of us-east-1, the
rules read that of `cfn.regions[0]`.

The lists of types a rule registers for are those of the first region. Some rules append to the lists for every template, so
that types of the region of an earlier template stay; the declarations are looked up in the current region, and for a type it
does not have nothing is declared and nothing found.
-/
namespace CfnLint

/-- `RESOURCE_SPECS[region]`, as it was loaded from JSON, helpers.py:402-408 -/
structure RegionSpec where
  resourceTypes : List (String × Val)
  propertyTypes : List (String × Val)
  valueTypes : List (String × Val) := []

/-- a text of a declaration; an absent text and an empty one are not told apart -/
def specText (name : String) (v : Val) : Option String :=
  match v.get? name with
  | some (.str s) => if s = "" then none else some s
  | _ => none

/-- the `Properties` of a type -/
def specProps (spec : Val) : List (Key × Val) :=
  match spec.get? "Properties" with
  | some (.dict ps) => ps
  | _ => []

/-- what the traversal reads of a property, rules/__init__.py:327-341 -/
def declView (v : Val) : PropDecl := ⟨specText "Type" v, specText "ItemType" v⟩

/-- what the traversal reads of a specification, rules/__init__.py:259-268, 295-309, 347-357 -/
def traversed (U : RegionSpec) : TypeSpecs where
  propertyTypes := U.propertyTypes.map (fun kv =>
    (kv.1, ⟨(specProps kv.2).map (fun p => (p.1, declView p.2)), specText "Type" kv.2, specText "ItemType" kv.2⟩))
  resourceTypes := U.resourceTypes.map (fun kv => (kv.1, (specProps kv.2).map (fun p => (p.1, declView p.2))))

/-- the declared types of a property, ValuePrimitiveType.py:157-163 -/
def rowView (v : Val) : PropRow :=
  { type := specText "Type" v, itemType := specText "ItemType" v, primItem := specText "PrimitiveItemType" v,
    prim := specText "PrimitiveType" v }

/-- the texts among values -/
def textsOf (xs : List Val) : List String := xs.filterMap (fun x => match x with | .str s => some s | _ => none)

/-- an entry of `ValueTypes`, AllowedValue.py:32, AllowedPattern.py:33-34, StringSize.py:53-56 and NumberSize.py:72-74 -/
def valueTypeView (v : Val) : ValueType :=
  { allowed := (match v.get? "AllowedValues" with | some (.list xs) => textsOf xs | _ => [])
    pattern := (specText "AllowedPatternRegex" v).getD ""
    stringMin := (match v.get? "StringMin" with | some (.int i) => some i | _ => none)
    stringMax := (match v.get? "StringMax" with | some (.int i) => some i | _ => none)
    numberMin := (match v.get? "NumberMin" with | some .none => none | x => x)
    numberMax := (match v.get? "NumberMax" with | some .none => none | x => x) }

/-- the declaration of a property with the entry its `Value` names, AllowedValue.py:53-62 -/
def valueRowView (R : RegionSpec) (v : Val) : ValueRow :=
  { rowView v with valueType :=
      (match v.get? "Value" with
       | some w => (specText "ValueType" w).bind (fun n => (dlookup n R.valueTypes).map valueTypeView)
       | none => none) }

/-- the declarations of the properties of a type, as a rule reads them -/
def specRows {ρ : Type} (view : Val → ρ) (spec : Val) : List (String × ρ) :=
  (specProps spec).filterMap (fun kv => match kv.1 with | .str s => some (s, view kv.2) | .int _ => none)

/-- results with the messages -/
def withText {α : Type} (place : α → Path) (msg : α → String) : PyM (List α) → PyM (List (Path × String))
  | .error e => .error e
  | .ok l => .ok (l.map (fun a => (place a, msg a)))

/-- `initialize`: the rule registers for all types of the region, Required.py:27-36, ValuePrimitiveType.py:42-50, AllowedValue.py:20-25,
AllowedPattern.py:21-26, StringSize.py:20-25 and NumberSize.py:21-26; `check` is called with the declaration of the type and says by its
first argument whether it is called for a resource -/
def bySpec (R : RegionSpec) (check : Bool → String → Val → Val → Path → PyM (List (Path × String))) : Behaviour where
  propertyTypes := R.resourceTypes.map Prod.fst
  properties := some (fun _ obj ty path => check true ty ((dlookup ty R.resourceTypes).getD .none) obj path)
  subTypes := R.propertyTypes.map Prod.fst
  subProperties := some (fun _ obj ty path => check false ty ((dlookup ty R.propertyTypes).getD .none) obj path)

/-- E3003, Required.py:61-90; the message is `msg` of the place and the missing property -/
def requiredOf (R : RegionSpec) (msg : Path × String → String) : Behaviour :=
  bySpec R (fun top _ spec obj path => withText Prod.fst msg (requiredMatch top spec obj path))

/-- E3012, ValuePrimitiveType.py:181-197: below the resource a type without properties is not looked at -/
def primitivesOf (R : RegionSpec) (floatText : String → Bool) (strict : Bool) (fuel : Nat) (msg : Path → String) : Behaviour :=
  bySpec R (fun top ty spec obj path =>
    if top = false ∧ (specRows rowView spec).isEmpty then .ok []
    else withText id msg (primRule floatText strict fuel ty (specRows rowView spec) obj path))

/-- E3030, AllowedValue.py:69-89 -/
def allowedOf (R : RegionSpec) (E : PyText) (fuel : Nat) (msg : Path → String) : Behaviour :=
  bySpec R (fun _ _ spec obj path => withText id msg (allowedRule E fuel (specRows (valueRowView R) spec) obj path))

/-- E3031, AllowedPattern.py:78-98 -/
def patternsFor (R : RegionSpec) (E : PyText) (fuel : Nat) (msg : Path → String) : Behaviour :=
  bySpec R (fun _ _ spec obj path => withText id msg (patternRule E fuel (specRows (valueRowView R) spec) obj path))

/-- E3033, StringSize.py:73-91 -/
def lengthsOf (R : RegionSpec) (fuel : Nat) (msg : Path → String) : Behaviour :=
  bySpec R (fun _ _ spec obj path => withText id msg (lengthRule fuel (specRows (valueRowView R) spec) obj path))

/-- E3034, NumberSize.py:87-105 -/
def numbersOf (R : RegionSpec) (E : PyText) (fuel : Nat) (msg : Path → String) : Behaviour :=
  bySpec R (fun _ _ spec obj path => withText id msg (numberRule E fuel (specRows (valueRowView R) spec) obj path))

end CfnLint
