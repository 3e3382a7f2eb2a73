import Verif.Model.Stages
import Verif.Model.ResProps
/-
The loop of E2540 over the pipelines of a template, around the checks of Model/Stages.
-/
namespace CfnLint

/-- `match`, CodepipelineStages.py:102-137; `below` is `get_condition_scenarios_below_path` of the template, `fuel` the recursion limit of `get_resource_properties` -/
def stagesRule (below : Path → List Scenario) (fuel : Nat) (t : Val) : PyM (List StageReport) :=
  match resourceProperties fuel "AWS::CodePipeline::Pipeline" [] t with
  | .error e => .error e
  | .ok ps => collectM (fun pv : Path × Val =>
      match pv.2 with
      | .dict kvs => stagesOf (below (pv.1 ++ [.str "Stages"])) ((dlookup (Key.str "Stages") kvs).getD .none) (pv.1 ++ [.str "Stages"])
      | v => .error (attrErr v "get")) ps

end CfnLint
