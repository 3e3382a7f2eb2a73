import Verif.Model.Config
import Verif.Spec.Collection
import Verif.Spec.Core
/- Specifications for the listing of rules and for the status of the process. -/
namespace CfnLint.Spec

/-- The configuration sources, without any template, say what `c` says. -/
structure Says (args : Sources) (c : Conf) : Prop where
  noTemplate : args.template = []
  ignore : args.ignoreChecks = .list (c.ignore.map .str)
  incl : args.includeChecks = .ok (["W", "E"].map Val.str ++ c.incl.map Val.str)
  mandatory : args.mandatoryChecks = .list (c.mandatory.map .str)
  experimental : args.includeExperimental = .bool c.includeExperimental
  options : args.configureRules = .dict (c.configureRules.map (fun kv => (Key.str kv.1, kv.2)))

/-- The findings of rules whose id starts with one of the three letters of the severities. -/
def Levelled (m : Match) : Prop := IsInfo m ∨ IsWarning m ∨ IsError m

end CfnLint.Spec
