import Verif.Model.GroupRules
import Verif.Model.BasedOn
import Verif.Model.SecureRefs
/-
E3017 and E3018 as they are set up and called (rules/resources/properties/BasedOnValue.py, RequiredBasedOnValue.py, UnwantedBasedOnValue.py), around the check
of Model/BasedOn, and the file data/AdditionalSpecs/BasedOnValue.json. Of `re.match` only whether it matches is modelled.
-/
namespace CfnLint

/-- an element of the lists of BasedOnValue.json -/
structure BasedEntry where
  regex : Option (String → Bool) := none
  refs : List String := []
  getAtts : List (String × String) := []
  required : List String := []
  unwanted : List String := []

/-- the element as a rule sees it, BasedOnValue.py:38,45,51,69; `pick` is `spec_type`, RequiredBasedOnValue.py:15 and UnwantedBasedOnValue.py:15 -/
def basedOf (pick : BasedEntry → List String) (e : BasedEntry) : BasedOn := ⟨e.regex, e.refs, e.getAtts, pick e⟩

/-- the types a rule registers for, BasedOnValue.py:24-33: those with an element that has names for the rule. That a type is registered once for each of these
elements does not matter, since the runner asks whether the type is in the list -/
def basedTypes (pick : BasedEntry → List String) (l : List (String × List (String × List BasedEntry))) : List (String × List (String × List BasedOn)) :=
  (l.filter (fun kv => kv.2.any (fun ks => ks.2.any (fun e => !(pick e).isEmpty)))).map
    (fun kv => (kv.1, kv.2.map (fun ks => (ks.1, ks.2.map (basedOf pick)))))

/-- `self.resource_types_specs` and `self.property_types_specs` for the registered types, BasedOnValue.py:20-33 -/
def basedTables (pick : BasedEntry → List String) (T : TypeTables (List (String × List BasedEntry))) : TypeTables (List (String × List BasedOn)) where
  resourceTypes := basedTypes pick T.resourceTypes
  propertyTypes := basedTypes pick T.propertyTypes

/-- E3017, BasedOnValue.py:18-33 and 95-127, RequiredBasedOnValue.py:9-19 -/
def requiredBasedOf (E : CondEnv) (T : TypeTables (List (String × List BasedEntry))) (msg : BasedReport → String) : Behaviour :=
  byTables (basedTables BasedEntry.required T)
    (fun t specs obj path => withText BasedReport.path msg (basedCheck E.enum E.order (E.tb t) t false specs obj path))

/-- E3018, BasedOnValue.py:18-33 and 95-127, UnwantedBasedOnValue.py:9-19 -/
def unwantedBasedOf (E : CondEnv) (T : TypeTables (List (String × List BasedEntry))) (msg : BasedReport → String) : Behaviour :=
  byTables (basedTables BasedEntry.unwanted T)
    (fun t specs obj path => withText BasedReport.path msg (basedCheck E.enum E.order (E.tb t) t true specs obj path))

/-! ### the file -/

/-- `re.match(r, s)`, BasedOnValue.py:40, without `$` -/
def Rx.matchesFront (r : Rx) (s : String) : Bool := !(r.rest s.toList).isEmpty

/-- `re.match('^((?!w).)*$', s)` -/
def lineWithout (w : List Char) : List Char → Bool
  | [] => true
  | c :: s => (decide (c = '\n') && s.isEmpty) || (decide (c ≠ '\n') && !w.isPrefixOf (c :: s) && lineWithout w s)

/-- `arn:aws.*:(kinesis|kafka|dynamodb):.*`, BasedOnValue.json:18 -/
def regexStreamArn : Rx :=
  .seq (Rx.word "arn:aws".toList) (.seq (.star rxAny) (.seq (Rx.chr ':') (.seq (.alt (Rx.word "kinesis".toList) (.alt (Rx.word "kafka".toList)
    (Rx.word "dynamodb".toList))) (.seq (Rx.chr ':') (.star rxAny)))))

/-- `arn:aws.*:sqs:.*`, BasedOnValue.json:31 -/
def regexQueueArn : Rx := .seq (Rx.word "arn:aws".toList) (.seq (.star rxAny) (.seq (Rx.word ":sqs:".toList) (.star rxAny)))

/-- `(aurora|aurora-mysql|aurora-postgresql)`, BasedOnValue.json:54 -/
def regexAurora : Rx := .alt (Rx.word "aurora".toList) (.alt (Rx.word "aurora-mysql".toList) (Rx.word "aurora-postgresql".toList))

/-- data/AdditionalSpecs/BasedOnValue.json:1-78 -/
def basedOnValueTables : TypeTables (List (String × List BasedEntry)) where
  resourceTypes := [
    ("AWS::Lambda::EventSourceMapping", [("EventSourceArn", [
      { regex := some regexStreamArn.matchesFront, getAtts := [("AWS::DynamoDB::Table", "StreamArn"), ("AWS::Kinesis::Stream", "Arn")],
        refs := ["AWS::MSK::Cluster"], required := ["StartingPosition"] },
      { regex := some regexQueueArn.matchesFront, getAtts := [("AWS::SQS::Queue", "Arn")], unwanted := ["StartingPosition"] }])]),
    ("AWS::RDS::DBCluster", [("EngineMode", [
      { regex := some (fun s => lineWithout "serverless".toList s.toList), unwanted := ["ScalingConfiguration"] }])]),
    ("AWS::RDS::DBInstance", [("Engine", [
      { regex := some regexAurora.matchesFront, unwanted := ["AllocatedStorage", "BackupRetentionPeriod", "CopyTagsToSnapshot", "DeletionProtection",
          "EnableIAMDatabaseAuthentication", "MasterUserPassword", "StorageEncrypted"] }])]),
    ("AWS::DynamoDB::Table", [("BillingMode", [
      { regex := some (Rx.word "PAY_PER_REQUEST".toList).matchesFront, unwanted := ["ProvisionedThroughput"] }])])]
  propertyTypes := [
    ("AWS::Route53::HealthCheck.HealthCheckConfig", [("Type", [
      { regex := some (Rx.word "CLOUDWATCH_METRIC".toList).matchesFront, required := ["AlarmIdentifier"] }])])]

end CfnLint
