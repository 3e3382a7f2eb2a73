import Verif.Model.Py
import Verif.Spec.Template
/-
Variables in texts outside of `Fn::Sub`. A variable is a name between `${` and `}`, made of letters, digits, underscores, colons and
full stops.
-/
namespace CfnLint.Spec

/-- characters of names of variables -/
def VarChar (c : Char) : Prop := ('A' ≤ c ∧ c ≤ 'Z') ∨ ('a' ≤ c ∧ c ≤ 'z') ∨ ('0' ≤ c ∧ c ≤ '9') ∨ c = '_' ∨ c = ':' ∨ c = '.'

/-- the text contains the variable -/
def Embeds (s x : String) : Prop :=
  x ≠ "" ∧ (∀ c ∈ x.toList, VarChar c) ∧ ∃ a b, s.toList = a ++ ('$' :: '{' :: (x.toList ++ '}' :: b))

/-- properties with free text -/
def freeText : List String :=
  ["UserData", "ZipFile", "Condition", "AWS::CloudFormation::Init", "CloudWatchAlarmDefinition", "TopicRulePayload", "BuildSpec",
    "RequestMappingTemplate", "LogFormat", "TemplateBody", "ResponseMappingTemplate", "RouteSelectionExpression"]

/-- variables of policies, replaced later -/
def policyVars : List String :=
  ["aws:CurrentTime", "aws:EpochTime", "aws:TokenIssueTime", "aws:principaltype", "aws:SecureTransport", "aws:SourceIp", "aws:UserAgent",
    "aws:userid", "aws:username", "ec2:SourceInstanceARN", "iot:Connection.Thing.ThingName", "iot:Connection.Thing.ThingTypeName",
    "iot:Connection.Thing.IsAttached", "iot:ClientId", "transfer:HomeBucket", "transfer:HomeDirectory", "transfer:HomeFolder",
    "transfer:UserName", "redshift:DbUser", "cognito-identity.amazonaws.com:aud", "cognito-identity.amazonaws.com:sub",
    "cognito-identity.amazonaws.com:amr"]

/-- places where variables are of no concern, or the variable is replaced by something else -/
inductive Replaced (t : Val) (p : Path) (x : String) : Prop
  | parameters {q} : p = .str "Parameters" :: q → Replaced t p x
  | sub : .str "Fn::Sub" ∈ p → Replaced t p x
  | free {k} : k ∈ freeText → .str k ∈ p → Replaced t p x
  | policy {k} : k ∈ ["Resource", "NotResource"] → .str k ∈ p → x ∈ policyVars → Replaced t p x
  | stage {k y} : k ∈ ["Uri", "Body", "ConnectionId"] → .str k ∈ p → x.toList = "stageVariables.".toList ++ y → Replaced t p x
  | definition {a b w} : p = a ++ .str "DefinitionString" :: b → .str "DefinitionString" ∉ a →
      At t (a ++ [.str "DefinitionSubstitutions", .str x]) w → w.truthy = true → Replaced t p x

/-- a text at `p` in `v` has a variable that nothing replaces -/
def NeedsSub (custom : String → Bool) (t v : Val) (p : Path) : Prop :=
  ∃ s x, At v p (.str s) ∧ Embeds s x ∧ ¬ Replaced t p x ∧ custom x = false

/-- where it is reported: at a place that may not exist -/
inductive ShownAt : Path → Path → Prop
  | same {p} : .str "DefinitionString" ∉ p → ShownAt p p
  | swapped {a b} : .str "DefinitionString" ∉ a →
      ShownAt (a ++ .str "DefinitionString" :: b) (a ++ .str "DefinitionSubstitutions" :: b)

/-- state machines stand in objects only, and their substitutions are objects -/
def PlainDefinitions (t v : Val) : Prop :=
  ∀ a b s x, At v (a ++ .str "DefinitionString" :: b) (.str s) → Embeds s x → .str "DefinitionString" ∉ a →
    ∀ c d w, a ++ [.str "DefinitionSubstitutions"] = c ++ d → At t c w → ∃ kvs, w = .dict kvs

end CfnLint.Spec
