import Verif.Model.Py
/-
When a template asks for the serverless transformation.
-/
namespace CfnLint.Spec

/-- `Transform` is the name, or a list in which the name occurs. -/
def AsksSam (kvs : List (Key × Val)) : Prop :=
  (Key.str "Transform", Val.str "AWS::Serverless-2016-10-31") ∈ kvs ∨
    ∃ xs, (Key.str "Transform", Val.list xs) ∈ kvs ∧ Val.str "AWS::Serverless-2016-10-31" ∈ xs

end CfnLint.Spec
