import Verif.Model.Rules
/-
Specification of what a sequence of independent checks should contribute to the findings.
-/
namespace CfnLint.Spec

/-- What one check contributes: its findings; nothing when it failed on attribute access to a template
node; otherwise exactly one E0002 finding at line 1 naming the rule. -/
def Contributes (filename ruleId : String) (check : PyM (List Match)) (ms : List Match) : Prop :=
  match check with
  | .ok found => ms = found
  | .error (.templateAttributeError _) => ms = []
  | .error _ => ∃ m, ms = [m] ∧ m.rule.id = "E0002" ∧ m.filename = filename ∧ m.line = 1 ∧
      ∃ t, m.message = "Unknown exception while processing rule " ++ ruleId ++ ": " ++ t

/-- The findings of a run over `checks` are the concatenation of the contributions, in order. -/
inductive RunOf (filename : String) : List (String × PyM (List Match)) → List Match → Prop
  | nil : RunOf filename [] []
  | cons {rid chk rest ms out} : Contributes filename rid chk ms → RunOf filename rest out →
      RunOf filename ((rid, chk) :: rest) (ms ++ out)

end CfnLint.Spec
