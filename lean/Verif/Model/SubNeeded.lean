import Verif.Model.Sub
import Verif.Model.CondGrammar
/-
Model of E1029 (rules/functions/SubNeeded.py). A finding is its path; the messages are not modelled. The option `custom_excludes` is a
parameter: whether a variable matches it.
-/
namespace CfnLint

/-- `[A-Za-z0-9_:\.]`, SubNeeded.py:64 -/
def isVarChar (c : Char) : Bool :=
  let n := c.toNat
  (65 ≤ n && n ≤ 90) || (97 ≤ n && n ≤ 122) || (48 ≤ n && n ≤ 57) || c == '_' || c == ':' || c == '.'

/-- a match of `\$\{[A-Za-z0-9_:\.]+\}` at the front: what is between the braces, and what follows. A closing brace is none of the
characters, so the longest run is the only one to try. -/
def varMatch : List Char → Option (List Char × List Char)
  | '$' :: '{' :: r =>
    match r.takeWhile isVarChar, r.dropWhile isVarChar with
    | c :: x, '}' :: rest => some (c :: x, rest)
    | _, _ => none
  | _ => none

/-- `re.findall`, SubNeeded.py:82; the counter is at least the length of the text -/
def varScan : Nat → List Char → List String
  | 0, _ => []
  | _ + 1, [] => []
  | n + 1, c :: r =>
    match varMatch (c :: r) with
    | some (body, rest) => String.ofList body :: varScan n rest
    | none => varScan n r

/-- the variables of a text, without `${` and `}` -/
def embedded (s : String) : List String := varScan s.toList.length s.toList

mutual
/-- `_match_values`, SubNeeded.py:66-85; the variable is kept beside the path -/
def varPaths : Val → Path → List (Path × String)
  | .dict kvs, p => varPathsD kvs p
  | .list xs, p => varPathsL xs 0 p
  | .str s, p => (embedded s).map (fun x => (p, x))
  | _, _ => []
def varPathsD : List (Key × Val) → Path → List (Path × String)
  | [], _ => []
  | (k, v) :: kvs, p => varPaths v (p ++ [k]) ++ varPathsD kvs p
def varPathsL : List Val → Nat → Path → List (Path × String)
  | [], _, _ => []
  | v :: xs, i, p => varPaths v (p ++ [.int i]) ++ varPathsL xs (i + 1) p
end

/-- `excludes`, SubNeeded.py:21-24 -/
def subExcludes : List String :=
  ["UserData", "ZipFile", "Condition", "AWS::CloudFormation::Init", "CloudWatchAlarmDefinition", "TopicRulePayload", "BuildSpec",
    "RequestMappingTemplate", "LogFormat", "TemplateBody", "ResponseMappingTemplate", "RouteSelectionExpression"]

/-- `api_excludes`, SubNeeded.py:25 -/
def apiExcludes : List String := ["Uri", "Body", "ConnectionId"]

/-- `resource_excludes`, SubNeeded.py:34-47, without `${` and `}` -/
def resourceExcludes : List String :=
  ["aws:CurrentTime", "aws:EpochTime", "aws:TokenIssueTime", "aws:principaltype", "aws:SecureTransport", "aws:SourceIp", "aws:UserAgent",
    "aws:userid", "aws:username", "ec2:SourceInstanceARN", "iot:Connection.Thing.ThingName", "iot:Connection.Thing.ThingTypeName",
    "iot:Connection.Thing.IsAttached", "iot:ClientId", "transfer:HomeBucket", "transfer:HomeDirectory", "transfer:HomeFolder",
    "transfer:UserName", "redshift:DbUser", "cognito-identity.amazonaws.com:aud", "cognito-identity.amazonaws.com:sub",
    "cognito-identity.amazonaws.com:amr"]

/-- `condition_excludes`, SubNeeded.py:50-52 -/
def conditionExcludes : List String := ["redshift:DbUser"]

/-- `reduce(lambda c, k: c.get(k, {}), path, template)`, SubNeeded.py:141 -/
def getChain : Val → Path → PyM Val
  | v, [] => .ok v
  | .dict kvs, k :: ks => getChain ((dlookup k kvs).getD (.dict [])) ks
  | v, _ :: _ => .error (attrErr v "get")

/-- the path with the first `DefinitionString` replaced, SubNeeded.py:136-138; the list is changed in place, so that this is the path
of the finding too -/
def swapDef : Path → Path
  | [] => []
  | k :: p => if k = .str "DefinitionString" then .str "DefinitionSubstitutions" :: p else k :: swapDef p

/-- the keys up to and with the replaced one, SubNeeded.py:139 -/
def uptoDef : Path → Path
  | [] => []
  | k :: p => if k = .str "DefinitionString" then [.str "DefinitionSubstitutions"] else k :: uptoDef p

/-- `found_sub`, SubNeeded.py:153-160; the variable at the end of the path is none of these keys -/
def foundSub (p : Path) (x : String) : Bool :=
  p.any (fun k =>
    if isKeyIn k apiExcludes then "stageVariables.".toList.isPrefixOf x.toList
    else k == .str "Fn::Sub" || isKeyIn k subExcludes)

/-- the body of the loop, SubNeeded.py:117-168. Variables do not begin with an exclamation mark, so that the check for literals
(SubNeeded.py:150) never applies. -/
def subNeededOne (custom : String → Bool) (t : Val) (f : Path × String) : PyM (List Path) :=
  let p := f.1
  let x := f.2
  if p.head? = some (.str "Parameters") then .ok []
  else if (p.contains (.str "Resource") || p.contains (.str "NotResource")) && resourceExcludes.contains x then .ok []
  else if p.contains (.str "Condition") && conditionExcludes.contains x then .ok []
  else
    let rest : PyM (List Path) := .ok (if custom x || foundSub (swapDef p) x then [] else [swapDef p])
    if p.contains (.str "DefinitionString") then
      match getChain t (uptoDef p ++ [.str x]) with
      | .error e => .error e
      | .ok v => if v.truthy then .ok [] else rest
    else rest

/-- `match`, SubNeeded.py:110-170, with `match_values`, SubNeeded.py:87-95 -/
def subNeeded (custom : String → Bool) (t : Val) : PyM (List Path) :=
  match t.getD "Globals" (.dict []) with
  | .error e => .error e
  | .ok g => collectM (subNeededOne custom t) (varPaths t [] ++ varPaths g [])

end CfnLint
