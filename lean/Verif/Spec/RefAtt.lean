import Verif.Model.RefAtt
import Verif.Spec.Template
import Verif.Spec.GetAtt
/-
What the specification says of the references in the values of properties.
-/
namespace CfnLint.Spec

/-- an entry of a section of the template that is an object -/
def SectionHas (t : Val) (sec name : String) (e : List (Key × Val)) : Prop :=
  ∃ top kvs, t = .dict top ∧ (Key.str sec, Val.dict kvs) ∈ top ∧ (Key.str name, Val.dict e) ∈ kvs

/-- what governs a value of a property that stands at `q`: in a list that is chosen as a whole, the type of the list -/
def Governs (d : RefAttRow) (v : Val) (q : Path) (t : RefAttType) : Prop :=
  (d.type = some "List" ∧ (∃ u, Leaf v q u) ∧ t = d.listType) ∨ (¬ (d.type = some "List" ∧ ∃ u, Leaf v q u) ∧ t = d.valueType)

/-- the name is that of a parameter or of a resource whose type is not among those that may be used -/
def BadRef (t : Val) (y : RefAttType) (name : String) : Prop :=
  ∃ s, y.ref = some s ∧
    ((∃ e, SectionHas t "Parameters" name e ∧ ¬ ∃ tys ∈ s.parameters, ∃ ty ∈ tys, (Key.str "Type", Val.str ty) ∈ e) ∨
      ∃ e, SectionHas t "Resources" name e ∧ ¬ ∃ ty ∈ s.resources, (Key.str "Type", Val.str ty) ∈ e)

/-- the resource and the attribute that a `Fn::GetAtt` names: a text with a dot, or a list -/
inductive AttArg : Val → String → String → Prop
  | text {r a} : '.' ∉ r.toList → AttArg (.str (r ++ "." ++ a)) r a
  | pair {r a} : AttArg (.list [.str r, .str a]) r a
  | parts {r : String} {xs : List String} : 2 ≤ xs.length → (∀ x ∈ xs, '.' ∉ x.toList) →
      AttArg (.list (.str r :: xs.map Val.str)) r (String.ofList (List.intercalate ['.'] (xs.map String.toList)))

/-- resources whose attributes are not known -/
def CustomType (ty : String) : Prop := ty = "AWS::CloudFormation::CustomResource" ∨ ∃ s, ty = "Custom::" ++ s

/-- an output of a nested stack -/
def StackOutput (ty a : String) : Prop :=
  (ty = "AWS::CloudFormation::Stack" ∨ ty = "AWS::ServiceCatalog::CloudFormationProvisionedProduct") ∧ (a = "Outputs" ∨ ∃ s, a = "Outputs." ++ s)

/-- the attribute of a resource of the type may not be used: outputs of stacks are no lists, other attributes must be among those that may be used -/
def BadAtt (d : RefAttRow) (v : Val) (q : Path) (ty a : String) : Prop :=
  ¬ CustomType ty ∧
    ((StackOutput ty a ∧ d.type = some "List" ∧ ∃ u, Leaf v q u) ∨
      (¬ StackOutput ty a ∧ ∃ y g, Governs d v q y ∧ y.getAtt = some g ∧ ¬ ∃ as, (ty, as) ∈ g ∧ a ∈ as))

/-- the faults of the value `u` of a property, which stands at `q` -/
inductive RefAttFault (t : Val) (d : RefAttRow) (v : Val) (q : Path) : Val → Path → Prop
  | ref {name y} : Governs d v q y → BadRef t y name → RefAttFault t d v q (.dict [(.str "Ref", .str name)]) [.str "Ref"]
  | att {arg r a e ty} : AttArg arg r a → SectionHas t "Resources" r e → (Key.str "Type", Val.str ty) ∈ e → BadAtt d v q ty a →
      RefAttFault t d v q (.dict [(.str "Fn::GetAtt", arg)]) [.str "Fn::GetAtt"]

/-- the faults of the properties of the objects a value may be -/
def RefAttFaults (t : Val) (rows : List (String × RefAttRow)) (obj : Val) (p : Path) : Prop :=
  ∃ o l prop d v q u r, Leaf obj o (.dict l) ∧ (prop, d) ∈ rows ∧ d.hasValue = true ∧ (Key.str prop, v) ∈ l ∧ PropValue v q u ∧ RefAttFault t d v q u r ∧
    p = o ++ .str prop :: (q ++ r)

/-- the sections are objects of objects, and resources have a text as type -/
structure TwoSections (t : Val) : Prop where
  wf : t.WF
  dict : ∃ top, t = .dict top ∧ (∀ sec ∈ ["Parameters", "Resources"], ∀ s, (Key.str sec, s) ∈ top → ∃ kvs, s = .dict kvs ∧ ∀ k e, (k, e) ∈ kvs → ∃ l, e = .dict l)
  types : ∀ name e, SectionHas t "Resources" name e → ∃ ty, (Key.str "Type", Val.str ty) ∈ e

/-- the calls in a value can be looked up: names are texts, and a resource whose attribute is used is one of the template -/
structure RefAttCall (t : Val) (u : Val) : Prop where
  ref : ∀ a, u = .dict [(.str "Ref", a)] → ∃ name, a = .str name
  att : ∀ arg, u = .dict [(.str "Fn::GetAtt", arg)] → ∃ r a e, AttArg arg r a ∧ SectionHas t "Resources" r e

end CfnLint.Spec
