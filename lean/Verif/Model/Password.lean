import Verif.Model.SecureRefs
import Verif.Model.CondGrammar
import Verif.Model.Interface
/-
Model of W2501 (rules/resources/properties/Password.py), of W2506 (rules/resources/properties/ImageId.py), and of REGEX_DYN_REF and REGEX_DYN_REF_SSM
(helpers.py:77-78). A finding is its path with what was found.
-/
namespace CfnLint
open Rx

/-- REGEX_DYN_REF, helpers.py:77 -/
def regexDynRef : Rx :=
  .seq (.star rxAny) (.seq (word "{{resolve:".toList) (.seq (rxSome rxAny) (.seq (word "}}".toList) (.star rxAny))))

/-- REGEX_DYN_REF_SSM, helpers.py:78 -/
def regexSsm (digit : Char → Bool) : Rx :=
  .seq (.star rxAny) (.seq (word "{{resolve:ssm:".toList) (.seq (rxSome (.set isParamChar)) (.seq (chr ':')
    (.seq (rxSome (.set digit)) (.seq (word "}}".toList) (.star rxAny))))))

/-- what is found of a password -/
inductive PwFault where
  /-- a dynamic reference that is not secure -/
  | insecure
  /-- a text -/
  | fixed
  /-- an object with several entries, or none -/
  | map
  /-- a parameter that is shown, and the property -/
  | shown (property : String)
deriving DecidableEq

/-- `password_properties`, Password.py:24-25 -/
def passwordProperties : List String :=
  ["AccountPassword", "AdminPassword", "ADDomainJoinPassword", "CrossRealmTrustPrincipalPassword", "KdcAdminPassword", "Password", "DbPassword",
   "MasterUserPassword", "PasswordParam"]

/-- the filter of the trees, Password.py:33-36; the value is the last element of its tree -/
def inProperties (x : Path × Val) : Bool :=
  (x.1.map Key.toVal ++ [x.2])[0]? == some (.str "Resources") && (x.1.map Key.toVal ++ [x.2])[2]? == some (.str "Properties")

/-- `param['NoEcho']` of a value in which `NoEcho` is -/
def noEchoItem : Val → PyM Val
  | .dict kvs =>
    match dlookup (Key.str "NoEcho") kvs with
    | some v => .ok v
    | none => .error (.keyError "NoEcho")
  | _ => .error (.typeError "indices must be integers")

/-- whether a parameter is shown, Password.py:55-61 -/
def isShown (param : Val) : PyM Bool :=
  match pyIn "NoEcho" param with
  | .error e => .error e
  | .ok false => .ok true
  | .ok true =>
    match noEchoItem param with
    | .error e => .error e
    | .ok v => .ok (!v.truthy)

/-- one value, Password.py:39-71. The findings about parameters come last in the code; the order of findings is not kept here. -/
def passwordOne (digit : Char → Bool) (params : List (Key × Val)) (property : String) (x : Path × Val) : PyM (List (Path × PwFault)) :=
  match x.2 with
  | .str s =>
    if regexDynRef.matchesAll s then .ok (if (regexSsm digit).matchesAll s then [(x.1, .insecure)] else [])
    else .ok [(x.1, .fixed)]
  | .dict [(k, v)] =>
    if k = .str "Ref" then
      match toKey v with
      | none => .ok []
      | some name =>
        match dlookup name params with
        | none => .ok []
        | some param =>
          match isShown param with
          | .error e => .error e
          | .ok b => .ok (if b then [([.str "Parameters", name], .shown property)] else [])
    else .ok []
  | .dict _ => .ok [(x.1, .map)]
  | _ => .ok []

/-- the parameters of a template, as `get_parameter_names` and `cfn.template['Parameters']` show them -/
def parametersOf (t : Val) : PyM (List (Key × Val)) :=
  match t.getD "Parameters" (.dict []) with
  | .error e => .error e
  | .ok (.dict ps) => .ok ps
  | .ok _ => .ok []

/-- `match`, Password.py:20-72 -/
def passwordRule (digit : Char → Bool) (t globals : Val) : PyM (List (Path × PwFault)) :=
  match parametersOf t with
  | .error e => .error e
  | .ok params => collectM (fun property =>
      collectM (passwordOne digit params property) ((searchDeepKeys property t globals).filter inProperties)) passwordProperties

/-- one value, ImageId.py:33-48 -/
def imageOne (rx : String → String → PyM Bool) (tab : RefTable) (x : Path × Val) : PyM (List Path) :=
  match x.2 with
  | .dict [(k, v)] =>
    if k = .str "Ref" then
      match regexGet rx tab v with
      | .error e => .error e
      | .ok none => .ok []
      | .ok (some (ty, _)) =>
        .ok (if ty == .str "AWS::EC2::Image::Id" || ty == .str "AWS::SSM::Parameter::Value<AWS::EC2::Image::Id>" then [] else [[.str "Parameters", pathKey v]])
    else .ok []
  | .dict _ => .ok [x.1]
  | _ => .ok []

/-- `match`, ImageId.py:18-50 -/
def imageIdRule (rx : String → String → PyM Bool) (t globals : Val) : PyM (List Path) :=
  match validRefs t with
  | .error e => .error e
  | .ok tab => collectM (imageOne rx tab) ((searchDeepKeys "ImageId" t globals).filter (fun x => x.1[0]? == some (.str "Resources")))

end CfnLint
