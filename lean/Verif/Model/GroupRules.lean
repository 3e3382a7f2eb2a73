import Verif.Model.SpecRules
import Verif.Model.ListSpecs
/-
The rules on groups of properties and on lists, as they are set up and called: `__init__` or `initialize`, `match_resource_properties` and
`match_resource_sub_properties` of E2520 (Exclusive.py), E2521 (Inclusive.py), E2522 (AtLeastOne.py), E2523 (OnlyOne.py), E3032 (ListSize.py),
E3037 (ListDuplicates.py) and I3037 (ListDuplicatesAllowed.py), all of rules/resources/properties, around the checks of Model/PropSets and
Model/ListSpecs. The tables of the first four are the files of data/AdditionalSpecs, which are written out here. The scenarios of the
conditions come from the table of the conditions of the template, `tb`.
-/
namespace CfnLint

/-- what a rule reads for each type, `self.resource_types_specs` and `self.property_types_specs`, AtLeastOne.py:25-26 -/
structure TypeTables (α : Type) where
  resourceTypes : List (String × α)
  propertyTypes : List (String × α)

/-- the rule registers for the types of the tables, AtLeastOne.py:27-30, OnlyOne.py:27-30, Exclusive.py:25-28 and Inclusive.py:25-28, and is called with the
entry of the type, AtLeastOne.py:65-81, OnlyOne.py:65-81, Exclusive.py:59-75 and Inclusive.py:61-77: the default `{}` of `get` is not needed for registered types -/
def byTables {α : Type} (T : TypeTables α) (check : Val → α → Val → Path → PyM (List (Path × String))) : Behaviour where
  propertyTypes := T.resourceTypes.map Prod.fst
  properties := some (fun t obj ty path => match dlookup ty T.resourceTypes with | some a => check t a obj path | none => .ok [])
  subTypes := T.propertyTypes.map Prod.fst
  subProperties := some (fun t obj ty path => match dlookup ty T.propertyTypes with | some a => check t a obj path | none => .ok [])

/-- the rules on conditions: the order of sets, and the table of the conditions of a template -/
structure CondEnv where
  enum : String → List String → List String
  order : List String → List String
  tb : Val → CondTable

/-- E2522, AtLeastOne.py:21-30 and 65-81 -/
def atLeastOneOf (E : CondEnv) (T : TypeTables (List (List String))) (msg : SetReport → String) : Behaviour :=
  byTables T (fun t groups obj path => withText SetReport.path msg (atLeastOneCheck E.enum E.order (E.tb t) obj groups path))

/-- E2523, OnlyOne.py:21-30 and 65-81 -/
def onlyOneOf (E : CondEnv) (T : TypeTables (List (List String))) (msg : SetReport → String) : Behaviour :=
  byTables T (fun t groups obj path => withText SetReport.path msg (onlyOneCheck E.enum E.order (E.tb t) obj groups path))

/-- E2520, Exclusive.py:19-28 and 59-75 -/
def exclusiveOf (E : CondEnv) (T : TypeTables (List (String × List String))) (msg : PairReport → String) : Behaviour :=
  byTables T (fun t table obj path => withText PairReport.path msg (exclusiveCheck E.enum E.order (E.tb t) obj table path))

/-- E2521, Inclusive.py:19-28 and 61-77 -/
def inclusiveOf (E : CondEnv) (T : TypeTables (List (String × List String))) (msg : PairReport → String) : Behaviour :=
  byTables T (fun t table obj path => withText PairReport.path msg (inclusiveCheck E.enum E.order (E.tb t) obj table path))

/-- what the rules on lists read of a property, ListSize.py:68-78, ListDuplicates.py:74-75 and ListDuplicatesAllowed.py:75-78 -/
def listRowView (R : RegionSpec) (v : Val) : ListRow :=
  { rowView v with
    listMin := (match v.get? "Value" with
      | some w => (specText "ListValueType" w).bind (fun n => (dlookup n R.valueTypes).bind (fun e => match e.get? "ListMin" with | some (.int i) => some i | _ => none))
      | none => none)
    listMax := (match v.get? "Value" with
      | some w => (specText "ListValueType" w).bind (fun n => (dlookup n R.valueTypes).bind (fun e => match e.get? "ListMax" with | some (.int i) => some i | _ => none))
      | none => none)
    duplicates := (match v.get? "DuplicatesAllowed" with | some (.bool b) => some b | _ => none) }

/-- the declarations of all types of a region as the rules on lists read them, ListSize.py:19-24, 84-88 and 94-98, ListDuplicates.py:22-27, 87-91 and 97-101,
ListDuplicatesAllowed.py:22-27, 88-92 and 98-102 -/
def listTables (R : RegionSpec) : TypeTables (List (String × ListRow)) where
  resourceTypes := R.resourceTypes.map (fun kv => (kv.1, specRows (listRowView R) kv.2))
  propertyTypes := R.propertyTypes.map (fun kv => (kv.1, specRows (listRowView R) kv.2))

/-- E3032, ListSize.py:19-24 and 82-100 -/
def sizesOf (E : CondEnv) (R : RegionSpec) (msg : ListReport → String) : Behaviour :=
  byTables (listTables R) (fun t rows obj path => withText ListReport.path msg (sizeRule E.enum E.order (E.tb t) rows obj path))

/-- E3037, ListDuplicates.py:22-27 and 85-103 -/
def repeatsOf (E : CondEnv) (R : RegionSpec) (msg : ListReport → String) : Behaviour :=
  byTables (listTables R) (fun t rows obj path => withText ListReport.path msg (duplicatesRule E.enum E.order (E.tb t) rows obj path))

/-- I3037, ListDuplicatesAllowed.py:22-27 and 86-104 -/
def allowedRepeatsOf (E : CondEnv) (R : RegionSpec) (msg : ListReport → String) : Behaviour :=
  byTables (listTables R) (fun t rows obj path => withText ListReport.path msg (oddDuplicatesRule E.enum E.order (E.tb t) rows obj path))

/-! ### the tables -/

/-- data/AdditionalSpecs/AtLeastOne.json:1-45 -/
def atLeastOneTables : TypeTables (List (List String)) where
  resourceTypes := [
    ("AWS::ApplicationAutoScaling::ScalingPolicy", [["ResourceId", "ScalableDimension", "ServiceNamespace", "ScalingTargetId"]]),
    ("AWS::IAM::Policy", [["Roles", "Groups", "Users"]]),
    ("AWS::EC2::Instance", [["ImageId", "LaunchTemplate"]]),
    ("AWS::EC2::NetworkAclEntry", [["Ipv6CidrBlock", "CidrBlock"]]),
    ("AWS::Events::Rule", [["EventPattern", "ScheduleExpression"]])]
  propertyTypes := [
    ("AWS::S3::Bucket.RoutingRuleCondition", [["HttpErrorCodeReturnedEquals", "KeyPrefixEquals"]])]

/-- data/AdditionalSpecs/OnlyOne.json:1-105 -/
def onlyOneTables : TypeTables (List (List String)) where
  resourceTypes := [
    ("AWS::AutoScaling::AutoScalingGroup", [["InstanceId", "LaunchConfigurationName", "LaunchTemplate", "MixedInstancesPolicy"]]),
    ("AWS::CloudWatch::Alarm", [["MetricName", "Metrics"]]),
    ("AWS::CodePipeline::Pipeline", [["ArtifactStore", "ArtifactStores"]]),
    ("AWS::Route53::RecordSet", [["HostedZoneId", "HostedZoneName"]]),
    ("AWS::Route53::RecordSetGroup", [["HostedZoneId", "HostedZoneName"]]),
    ("AWS::ElasticLoadBalancingV2::LoadBalancer", [["SubnetMappings", "Subnets"]])]
  propertyTypes := [
    ("AWS::AutoScaling::LaunchConfiguration.BlockDeviceMapping", [["VirtualName", "Ebs", "NoDevice"]]),
    ("AWS::AutoScaling::AutoScalingGroup.LaunchTemplateSpecification", [["LaunchTemplateId", "LaunchTemplateName"]]),
    ("AWS::CloudFront::Distribution.Origin", [["CustomOriginConfig", "S3OriginConfig"]]),
    ("AWS::CloudFront::Distribution.ViewerCertificate", [["AcmCertificateArn", "CloudFrontDefaultCertificate", "IamCertificateId"]]),
    ("AWS::EC2::Instance.BlockDeviceMapping", [["VirtualName", "Ebs", "NoDevice"]]),
    ("AWS::EC2::SpotFleet.BlockDeviceMapping", [["VirtualName", "Ebs", "NoDevice"]]),
    ("AWS::EC2::SpotFleet.SpotFleetRequestConfigData", [["LaunchSpecifications", "LaunchTemplateConfigs"]]),
    ("AWS::OpsWorks::Instance.BlockDeviceMapping", [["VirtualName", "Ebs", "NoDevice"]]),
    ("AWS::EC2::SecurityGroup.Egress", [["CidrIp", "CidrIpv6", "DestinationSecurityGroupId", "DestinationPrefixListId"]])]

/-- data/AdditionalSpecs/Exclusive.json:1-124 -/
def exclusiveTables : TypeTables (List (String × List String)) where
  resourceTypes := [
    ("AWS::ApplicationAutoScaling::ScalingPolicy", [("ScalingTargetId", ["ResourceId", "ScalableDimension", "ServiceNamespace"])]),
    ("AWS::CloudWatch::Alarm", [("Metrics", ["Dimensions", "Period", "Namespace", "Statistic", "ExtendedStatistic", "Unit"]), ("Statistic", ["ExtendedStatistic"]), ("Threshold", ["ThresholdMetricId"])]),
    ("AWS::ServiceDiscovery::Service", [("HealthCheckConfig", ["HealthCheckCustomConfig"])]),
    ("AWS::EC2::Instance", [("NetworkInterfaces", ["SubnetId"])]),
    ("AWS::EC2::SecurityGroupIngress", [("CidrIp", ["SourceSecurityGroupName", "SourceSecurityGroupId", "CidrIpv6"]), ("CidrIpv6", ["SourceSecurityGroupName", "SourceSecurityGroupId"]), ("GroupId", ["GroupName"]), ("SourceSecurityGroupId", ["SourceSecurityGroupName"])]),
    ("AWS::RDS::DBCluster", [("SnapshotIdentifier", ["MasterUsername", "MasterUserPassword"])]),
    ("AWS::RDS::DBInstance", [("DBClusterIdentifier", ["StorageEncrypted"]), ("SourceDBInstanceIdentifier", ["CharacterSetName", "MasterUsername", "MasterUserPassword", "StorageEncrypted"])])]
  propertyTypes := [
    ("AWS::AutoScaling::LaunchConfiguration.BlockDeviceMapping", [("VirtualName", ["Ebs"])]),
    ("AWS::CloudFront::Distribution.ViewerCertificate", [("CloudFrontDefaultCertificate", ["SslSupportMethod"])]),
    ("AWS::EC2::Instance.BlockDeviceMapping", [("VirtualName", ["Ebs"])]),
    ("AWS::EC2::LaunchTemplate.BlockDeviceMapping", [("VirtualName", ["Ebs"])]),
    ("AWS::EC2::SecurityGroup.Ingress", [("CidrIp", ["SourceSecurityGroupName", "SourceSecurityGroupId", "CidrIpv6"]), ("CidrIpv6", ["SourceSecurityGroupName", "SourceSecurityGroupId"]), ("SourceSecurityGroupId", ["SourceSecurityGroupName"])]),
    ("AWS::EC2::SpotFleet.BlockDeviceMapping", [("VirtualName", ["Ebs"])]),
    ("AWS::OpsWorks::Instance.BlockDeviceMapping", [("VirtualName", ["Ebs"])]),
    ("AWS::S3::Bucket.WebsiteConfiguration", [("RedirectAllRequestsTo", ["ErrorDocument", "IndexDocument", "RoutingRules"])])]

/-- data/AdditionalSpecs/Inclusive.json:1-59 -/
def inclusiveTables : TypeTables (List (String × List String)) where
  resourceTypes := [
    ("AWS::ApplicationAutoScaling::ScalingPolicy", [("ResourceId", ["ScalableDimension", "ServiceNamespace"]), ("ScalableDimension", ["ResourceId", "ServiceNamespace"]), ("ServiceNamespace", ["ResourceId", "ScalableDimension"])]),
    ("AWS::RDS::DBCluster", [("MasterUsername", ["MasterUserPassword"]), ("MasterUserPassword", ["MasterUsername"])]),
    ("AWS::RDS::DBInstance", [("MasterUsername", ["MasterUserPassword"]), ("MasterUserPassword", ["MasterUsername"])]),
    ("AWS::OpsWorks::Stack", [("VpcId", ["DefaultSubnetId"])]),
    ("AWS::EC2::SecurityGroup", [("SecurityGroupEgress", ["VpcId"])])]
  propertyTypes := [
    ("AWS::CloudFront::Distribution.CustomErrorResponse", [("ResponseCode", ["ResponsePagePath"])]),
    ("AWS::CloudFront::Distribution.ViewerCertificate", [("AcmCertificateArn", ["SslSupportMethod"]), ("IamCertificateId", ["SslSupportMethod"])])]

end CfnLint
