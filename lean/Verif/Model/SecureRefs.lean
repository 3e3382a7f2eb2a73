import Verif.Model.PrimType
import Verif.Model.Regex
/-
Model of rule E1027 (rules/functions/DynamicReferenceSecureString.py) and of REGEX_DYN_REF_SSM_SECURE (helpers.py:79). A finding is its
path; the message is not modelled. Which characters `\d` takes is a parameter (in Python 3 it takes the digits of all scripts).
-/
namespace CfnLint
open Rx

/-- `a+` -/
def rxSome (a : Rx) : Rx := .seq a (.star a)

/-- the characters of names: letters, digits, underscore, dot, minus and stroke -/
def isParamChar (c : Char) : Bool :=
  (decide ('a' ≤ c) && decide (c ≤ 'z')) || (decide ('A' ≤ c) && decide (c ≤ 'Z')) || (decide ('0' ≤ c) && decide (c ≤ '9')) ||
    c == '_' || c == '.' || c == '-' || c == '/'

/-- `.` -/
def rxAny : Rx := .set (fun c => decide (c ≠ '\n'))

/-- REGEX_DYN_REF_SSM_SECURE, helpers.py:79 -/
def regexSecure (digit : Char → Bool) : Rx :=
  .seq (.star rxAny) (.seq (word "{{resolve:ssm-secure:".toList) (.seq (rxSome (.set isParamChar)) (.seq (chr ':')
    (.seq (rxSome (.set digit)) (.seq (word "}}".toList) (.star rxAny))))))

/-- `check_dyn_ref_value`, DynamicReferenceSecureString.py:52-62 -/
def secureCheck (digit : Char → Bool) (v : Val) (p : Path) : List Path :=
  match v with
  | .str s => if (regexSecure digit).matchesAll s then [p] else []
  | _ => []

/-- `check_value`, DynamicReferenceSecureString.py:64-76; `map` says that the item type is `Map` -/
def secureValue (digit : Char → Bool) (map : Bool) (v : Val) (p : Path) : List Path :=
  if map then
    match v with
    | .dict kvs => kvs.flatMap (fun kv => if isDictVal kv.2 then [] else secureCheck digit kv.2 (p ++ [kv.1]))
    | _ => []
  else secureCheck digit v p

/-- `check_sub`, DynamicReferenceSecureString.py:80-89; `value[0]` of an empty list raises -/
def secureSub (digit : Char → Bool) (v : Val) (p : Path) : PyM (List Path) :=
  match v with
  | .list [] => .error (.indexError "list index out of range")
  | .list (x :: _) => .ok (secureCheck digit x (p ++ [.int 0]))
  | v => .ok (secureCheck digit v p)

/-- `exceptions`, DynamicReferenceSecureString.py:28-40 -/
def secureExceptions : List (String × String) :=
  [("AWS::DirectoryService::MicrosoftAD", "Password"),
   ("AWS::DirectoryService::SimpleAD", "Password"),
   ("AWS::ElastiCache::ReplicationGroup", "AuthToken"),
   ("AWS::IAM::User.LoginProfile", "Password"),
   ("AWS::KinesisFirehose::DeliveryStream.RedshiftDestinationConfiguration", "Password"),
   ("AWS::OpsWorks::App.Source", "Password"),
   ("AWS::OpsWorks::Stack.RdsDbInstance", "DbPassword"),
   ("AWS::OpsWorks::Stack.Source", "Password"),
   ("AWS::RDS::DBCluster", "MasterUserPassword"),
   ("AWS::RDS::DBInstance", "MasterUserPassword"),
   ("AWS::Redshift::Cluster", "MasterUserPassword")]

/-- the checks handed to `check_value`, DynamicReferenceSecureString.py:111-112 -/
def secureChecks (digit : Char → Bool) (d : PropRow) : Checks Path :=
  { value := some (fun v p => .ok (secureValue digit (decide (d.type = some "Map")) v p)), sub := some (secureSub digit) }

/-- `check`, DynamicReferenceSecureString.py:91-118 -/
def secureRule (digit : Char → Bool) (fuel : Nat) (specType : String) (rows : List (String × PropRow)) (obj : Val) (path : Path) :
    PyM (List Path) :=
  declaredIn rows (fun prop d =>
    if dlookup specType secureExceptions = some prop then .ok []
    else
      match declaredPrim d with
      | some ty => if ty = "" then .ok [] else checkValue fuel (secureChecks digit d) obj prop path
      | none => .ok []) obj

end CfnLint
