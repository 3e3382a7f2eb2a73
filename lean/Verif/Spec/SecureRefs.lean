import Verif.Spec.PrimType
/-
References to secure parameters and the places where they may not stand.
-/
namespace CfnLint.Spec

/-- the characters of the names of parameters -/
def NameChar (c : Char) : Prop :=
  ('a' ≤ c ∧ c ≤ 'z') ∨ ('A' ≤ c ∧ c ≤ 'Z') ∨ ('0' ≤ c ∧ c ≤ '9') ∨ c ∈ ['_', '.', '-', '/']

/-- a reference: a name and a version -/
def SecureRef (digit : Char → Bool) (l : List Char) : Prop :=
  ∃ n v, n ≠ [] ∧ (∀ c ∈ n, NameChar c) ∧ v ≠ [] ∧ (∀ c ∈ v, digit c = true) ∧
    l = "{{resolve:ssm-secure:".toList ++ (n ++ ':' :: (v ++ "}}".toList))

/-- the text has a reference -/
def HasSecureRef (digit : Char → Bool) (s : String) : Prop := ∃ a r b, SecureRef digit r ∧ s.toList = a ++ (r ++ b)

/-- the text is a line, perhaps with a line break at its end -/
def IsLine (s : String) : Prop := ∃ l, '\n' ∉ l ∧ (s.toList = l ∨ s.toList = l ++ ['\n'])

/-- the places of a value of a property where a text `T` may not stand: the value itself, an entry of a map, the text of an `Fn::Sub` -/
inductive TextFault (T : String → Prop) (d : PropRow) : Val → Path → Prop
  | value {s} : d.type ≠ some "Map" → T s → TextFault T d (.str s) []
  | entry {kvs k s} : d.type = some "Map" → Known (.dict kvs) → (k, .str s) ∈ kvs → T s → TextFault T d (.dict kvs) [k]
  | sub {s} : T s → TextFault T d (.dict [(.str "Fn::Sub", .str s)]) [.str "Fn::Sub"]
  | subList {s xs} : T s → TextFault T d (.dict [(.str "Fn::Sub", .list (.str s :: xs))]) [.str "Fn::Sub", .int 0]

/-- the one property of a type that takes references -/
def TakesSecure (specType prop : String) : Prop :=
  (specType, prop) ∈ [("AWS::DirectoryService::MicrosoftAD", "Password"), ("AWS::DirectoryService::SimpleAD", "Password"),
    ("AWS::ElastiCache::ReplicationGroup", "AuthToken"), ("AWS::IAM::User.LoginProfile", "Password"),
    ("AWS::KinesisFirehose::DeliveryStream.RedshiftDestinationConfiguration", "Password"), ("AWS::OpsWorks::App.Source", "Password"),
    ("AWS::OpsWorks::Stack.RdsDbInstance", "DbPassword"), ("AWS::OpsWorks::Stack.Source", "Password"),
    ("AWS::RDS::DBCluster", "MasterUserPassword"), ("AWS::RDS::DBInstance", "MasterUserPassword"),
    ("AWS::Redshift::Cluster", "MasterUserPassword")]

/-- the faults of the properties of an object, with their places -/
def PropTextFault (T : String → Prop) (specType : String) (rows : List (String × PropRow)) (kvs : List (Key × Val)) (p : Path) : Prop :=
  ∃ prop d ty v q u r, (prop, d) ∈ rows ∧ ¬ TakesSecure specType prop ∧ PrimOf d ty ∧ (.str prop, v) ∈ kvs ∧ PropValue v q u ∧
    TextFault T d u r ∧ p = .str prop :: (q ++ r)

end CfnLint.Spec
