import Verif.Model.UpdatePolicy
import Verif.Spec.Template
import Verif.Spec.PrimType
import Verif.Spec.Relations
/-
What is wrong with update policies, independently of the rule.
-/
namespace CfnLint.Spec

/-- the policies that are objects, with the type of their resources -/
inductive ObjectPolicy : String → String → Prop
  | replacing : ObjectPolicy "AutoScalingReplacingUpdate" "AWS::AutoScaling::AutoScalingGroup"
  | rolling : ObjectPolicy "AutoScalingRollingUpdate" "AWS::AutoScaling::AutoScalingGroup"
  | scheduled : ObjectPolicy "AutoScalingScheduledAction" "AWS::AutoScaling::AutoScalingGroup"
  | deploy : ObjectPolicy "CodeDeployLambdaAliasUpdate" "AWS::Lambda::Alias"

/-- the policies that are booleans, with the type of their resources -/
inductive FlagPolicy : String → String → Prop
  | upgrade : FlagPolicy "EnableVersionUpgrade" "AWS::Elasticsearch::Domain"
  | resharding : FlagPolicy "UseOnlineResharding" "AWS::ElastiCache::ReplicationGroup"

/-- the processes of an auto scaling group that can be suspended -/
def scalingProcesses : List String :=
  ["Launch", "Terminate", "HealthCheck", "ReplaceUnhealthy", "AZRebalance", "AlarmNotification", "ScheduledActions", "AddToLoadBalancer"]

/-- the kinds of values of properties -/
inductive UpKind where
  | text | number | truth | process

/-- the properties of the policies -/
inductive UpProperty : String → String → UpKind → Prop
  | replace : UpProperty "AutoScalingReplacingUpdate" "WillReplace" .truth
  | batch : UpProperty "AutoScalingRollingUpdate" "MaxBatchSize" .number
  | minimum : UpProperty "AutoScalingRollingUpdate" "MinInstancesInService" .number
  | percent : UpProperty "AutoScalingRollingUpdate" "MinSuccessfulInstancesPercent" .number
  | pause : UpProperty "AutoScalingRollingUpdate" "PauseTime" .text
  | suspend : UpProperty "AutoScalingRollingUpdate" "SuspendProcesses" .process
  | wait : UpProperty "AutoScalingRollingUpdate" "WaitOnResourceSignals" .truth
  | ignore : UpProperty "AutoScalingScheduledAction" "IgnoreUnmodifiedGroupSizeProperties" .truth
  | after : UpProperty "CodeDeployLambdaAliasUpdate" "AfterAllowTrafficHook" .text
  | application : UpProperty "CodeDeployLambdaAliasUpdate" "ApplicationName" .text
  | before : UpProperty "CodeDeployLambdaAliasUpdate" "BeforeAllowTrafficHook" .text
  | group : UpProperty "CodeDeployLambdaAliasUpdate" "DeploymentGroupName" .text

/-- a value that is not of a kind, and what is wrong with it; booleans count as numbers -/
inductive NotOfKind : UpKind → Val → UpFault → Prop
  | text {v} : (∀ s, v ≠ .str s) → NotOfKind .text v .type
  | number {v} : (∀ i, v ≠ .int i) → (∀ b, v ≠ .bool b) → NotOfKind .number v .type
  | truth {v} : (∀ b, v ≠ .bool b) → NotOfKind .truth v .type
  | process {v} : (∀ s, v = .str s → s ∉ scalingProcesses) → NotOfKind .process v .allowed

/-- the resource `n` of type `ty` has the update policy `v` -/
def HasUpdatePolicy (t : Val) (n : Key) (ty v : Val) : Prop :=
  ∃ r, TypedResource t n r ∧ (Key.str "Type", ty) ∈ r ∧ (Key.str "UpdatePolicy", v) ∈ r ∧ v ≠ .none

/-- the resource `n` of type `ty` has, at the path `q` of its update policy, the entry `k` with value `w` -/
def UpdateEntry (t : Val) (n : Key) (ty : Val) (q : Path) (k : Key) (w : Val) : Prop :=
  ∃ p o, HasUpdatePolicy t n ty (.dict p) ∧ Leaf (.dict p) q (.dict o) ∧ (k, w) ∈ o ∧ w ≠ noValue

/-- the policy `w` has, at the path `q`, the property `k` with value `x` -/
def PolicyProperty (w : Val) (q : Path) (k : Key) (x : Val) : Prop :=
  ∃ o, Leaf w q (.dict o) ∧ (k, x) ∈ o ∧ x ≠ noValue

/-- The findings on update policies. With `exact` each stands where the fault is. Without, the properties that are not known are looked for beside the `Fn::If`s around them
and the name of a boolean policy is in the path twice. -/
inductive UpdateFinding (exact : Bool) (t : Val) : Path × UpFault → Prop
  | object {n ty v} : HasUpdatePolicy t n ty v → (∀ p, v ≠ .dict p) → UpdateFinding exact t ([.str "Resources", n, .str "UpdatePolicy"], .object)
  | unknown {n ty q k w} : UpdateEntry t n ty q k w → (∀ s rt, k = .str s → ¬ ObjectPolicy s rt ∧ ¬ FlagPolicy s rt) →
      UpdateFinding exact t (.str "Resources" :: n :: .str "UpdatePolicy" :: q ++ [k], .unknown)
  | resource {n ty q k w rt} : UpdateEntry t n ty q (.str k) w → ObjectPolicy k rt ∨ FlagPolicy k rt → ty ≠ .str rt →
      UpdateFinding exact t (.str "Resources" :: n :: .str "UpdatePolicy" :: q ++ [.str k], .resource)
  | notObject {n ty q k w rt} : UpdateEntry t n ty q (.str k) w → ObjectPolicy k rt → (∀ o, w ≠ .dict o) →
      UpdateFinding exact t (.str "Resources" :: n :: .str "UpdatePolicy" :: q ++ [.str k], .object)
  | unknownProp {n ty q k w rt q' k' x} : UpdateEntry t n ty q (.str k) w → ObjectPolicy k rt → PolicyProperty w q' k' x → (∀ s kind, k' = .str s → ¬ UpProperty k s kind) →
      UpdateFinding exact t (.str "Resources" :: n :: .str "UpdatePolicy" :: q ++ .str k :: ((if exact then q' else []) ++ [k']), .unknown)
  | prop {n ty q k w rt q' k' x kind q'' u f} : UpdateEntry t n ty q (.str k) w → ObjectPolicy k rt → PolicyProperty w q' (.str k') x → UpProperty k k' kind →
      x ≠ .none → PropValue x q'' u → Known u → NotOfKind kind u f →
      UpdateFinding exact t (.str "Resources" :: n :: .str "UpdatePolicy" :: q ++ .str k :: (q' ++ .str k' :: q''), f)
  | flag {n ty q k w rt q'' u} : UpdateEntry t n ty q (.str k) w → FlagPolicy k rt → w ≠ .none → PropValue w q'' u → Known u → NotOfKind .truth u .type →
      UpdateFinding exact t (.str "Resources" :: n :: .str "UpdatePolicy" :: q ++ .str k :: ((if exact then [] else [.str k]) ++ q''), .type)

/-- the choices of policies are objects, and no choice of a value is null -/
structure PolicyChoices (t : Val) : Prop where
  policies : ∀ n ty p q u, HasUpdatePolicy t n ty (.dict p) → Leaf (.dict p) q u → ∃ o, u = .dict o
  objects : ∀ n ty q s rt w q' u, UpdateEntry t n ty q (.str s) (.dict w) → ObjectPolicy s rt → Leaf (.dict w) q' u → ∃ o, u = .dict o
  values : ∀ n ty q s rt w q' k x q'', UpdateEntry t n ty q (.str s) w → ObjectPolicy s rt → PolicyProperty w q' k x → Leaf x q'' .none → x = .none
  flags : ∀ n ty q s rt w q', UpdateEntry t n ty q (.str s) w → FlagPolicy s rt → Leaf w q' .none → w = .none

end CfnLint.Spec
