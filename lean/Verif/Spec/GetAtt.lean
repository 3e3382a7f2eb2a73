import Verif.Model.GetAtt
import Verif.Spec.Template
/-
What a `Fn::GetAtt` names, and which attributes the resources of a template offer.
-/
namespace CfnLint.Spec

/-- texts joined by dots -/
def dotted : List String → String
  | [] => ""
  | [s] => s
  | s :: rest => s ++ "." ++ dotted rest

/-- the value names attribute `A` of resource `R`: `R.A` or `[R, A₁, …]` with `A` the parts joined by dots -/
def NamesAttr (v : Val) (R A : String) : Prop :=
  (v = .str (R ++ "." ++ A) ∧ '.' ∉ R.toList) ∨
  (∃ parts : List String, parts ≠ [] ∧ v = .list (.str R :: parts.map Val.str) ∧ A = dotted parts)

/-- the text starts with the other -/
def StartsAs (s p : String) : Prop := p.toList <+: s.toList

/-- types whose attributes are not known: nested stacks, custom resources, serverless resources and modules -/
def OpenType (ty : String) : Prop :=
  ty = "AWS::CloudFormation::Stack" ∨ StartsAs ty "Custom::" ∨ StartsAs ty "AWS::Serverless::" ∨
  ty = "AWS::CloudFormation::CustomResource" ∨ "::MODULE".toList <:+ ty.toList

/-- a resource type offers an attribute: it is listed, or it is an entry of a listed map -/
def Offers (S : AttrSpecs) (ty A : String) : Prop :=
  OpenType ty ∨ ∃ attrs, dlookup ty S = some (some attrs) ∧
    ((∃ d, (A, d) ∈ attrs) ∨ ∃ M x d, (M, d) ∈ attrs ∧ d.type = some "Map" ∧ A = M ++ "." ++ x)

/-- the template has a resource of the name and type -/
def HasResource (t : Val) (R ty : String) : Prop :=
  ∃ top res props, t = .dict top ∧ (Key.str "Resources", Val.dict res) ∈ top ∧ (Key.str R, Val.dict props) ∈ res ∧
    (Key.str "Type", Val.str ty) ∈ props

/-- attribute `A` of `R` exists: `R` is a resource whose type offers it, or a resource inside a module -/
def HasAttr (S : AttrSpecs) (t : Val) (R A : String) : Prop :=
  (∃ ty, HasResource t R ty ∧ Offers S ty A) ∨
  (∃ M ty, HasResource t M ty ∧ "::MODULE".toList <:+ ty.toList ∧ StartsAs R M ∧ ∀ ty', ¬ HasResource t R ty')

/-- a specification in which no attribute continues the name of another, except for the entries of maps -/
structure PlainAttrs (S : AttrSpecs) : Prop where
  nodup : ∀ ty attrs, dlookup ty S = some (some attrs) → (attrs.map Prod.fst).Nodup
  noStar : ∀ ty attrs d, dlookup ty S = some (some attrs) → ("*", d) ∉ attrs
  apart : ∀ ty attrs A x d d', dlookup ty S = some (some attrs) → (A ++ "." ++ x, d) ∈ attrs → '.' ∉ A.toList →
    (A, d') ∈ attrs → d'.type = some "Map"
  maps : ∀ ty attrs M d, dlookup ty S = some (some attrs) → (M, d) ∈ attrs → d.type = some "Map" → '.' ∉ M.toList

/-- a template whose resources are objects with names, and whose `Fn::GetAtt`s name attributes -/
structure PlainGetAtts (t : Val) : Prop where
  wf : t.WF
  resources : ∃ top res, t = .dict top ∧ (Key.str "Resources", Val.dict res) ∈ top ∧
    ∀ kv ∈ res, (∃ n, kv.1 = .str n) ∧ ∃ props, kv.2 = .dict props
  named : ∀ q v, At t (q ++ [.str "Fn::GetAtt"]) v → ∃ R A, R ≠ "" ∧ NamesAttr v R A
  stack : ∀ R ty, HasResource t R ty → StartsAs ty "AWS::CloudFormation::Stack" → ty = "AWS::CloudFormation::Stack"
  custom : ∀ R ty, HasResource t R ty → StartsAs ty "AWS::CloudFormation::CustomResource" →
    ty = "AWS::CloudFormation::CustomResource"
  modules : ∀ M ty R ty', HasResource t M ty → "::MODULE".toList <:+ ty.toList → HasResource t R ty' → StartsAs R M → R = M

end CfnLint.Spec
