import Verif.Model.ResProps
import Verif.Model.Refs
import Verif.Model.Regex
import Verif.Model.SecureRefs
import Verif.Model.Config
/-
Model of E3013 (rules/resources/cloudfront/Aliases.py) and of E3042 (rules/resources/ecs/TaskDefinitionEssentialContainer.py). A finding is its path with what was
found. The message of E3013 is formatted twice, the second time with the alias in it (Aliases.py:39 and 44); whether that fails is modelled.
-/
namespace CfnLint
open Rx

/-- `[a-z0-9]` -/
def lowDigit (c : Char) : Bool := (decide ('a' ≤ c) && decide (c ≤ 'z')) || (decide ('0' ≤ c) && decide (c ≤ '9'))

/-- `[a-z0-9-]` -/
def lowDigitDash (c : Char) : Bool := lowDigit c || decide (c = '-')

/-- `[a-z0-9-]{0,61}[a-z0-9]`, Aliases.py:25 -/
def labelEnd : Rx := .seq (atMost 61 (.set lowDigitDash)) (.set lowDigit)

/-- `valid_domain`, Aliases.py:24-25 -/
def aliasRx : Rx :=
  .seq (rxSome (.seq (.set (fun c => lowDigit c || decide (c = '*'))) (.seq (opt labelEnd) (chr '.')))) (.seq (.set lowDigit) labelEnd)

/-- the second `str.format` of a message, which has one argument: whether it fails. `used` says that the argument was used, the third argument is the field that is
being read. A name of a field that is a number, has an attribute, an index, a conversion or a format is taken for any other name. -/
def formatAgain : Bool → Option (List Char) → List Char → PyM Unit
  | _, none, [] => .ok ()
  | _, some _, [] => .error (.valueError "expected '}' before end of string")
  | u, none, '{' :: '{' :: r => formatAgain u none r
  | u, none, '}' :: '}' :: r => formatAgain u none r
  | _, none, '}' :: _ => .error (.valueError "Single '}' encountered in format string")
  | u, none, '{' :: r => formatAgain u (some []) r
  | u, none, _ :: r => formatAgain u none r
  | u, some acc, '}' :: r =>
    match acc with
    | [] => if u then .error (.indexError "Replacement index 1 out of range for positional args tuple") else formatAgain true none r
    | acc => .error (.keyError (String.ofList acc.reverse))
  | u, some acc, c :: r => formatAgain u (some (c :: acc)) r

/-- what is found of an alias -/
inductive AliasFault where
  /-- a `*` that is not the first part -/
  | wildcard
  /-- no name of a domain -/
  | invalid
deriving DecidableEq

/-- one alias, Aliases.py:33-44 -/
def aliasCheck (path : Path) (v : Val) : PyM (List (Path × AliasFault)) :=
  match v with
  | .str s =>
    if s ∈ functionNames then .ok []
    else if ['*'] ∈ (splitOn '.' s.toList).tail then
      match formatAgain false none s.toList with
      | .error e => .error e
      | .ok _ => .ok ((path, .wildcard) :: (if aliasRx.matchesAll s then [] else [(path, .invalid)]))
    else if aliasRx.matchesAll s then .ok []
    else
      match formatAgain false none s.toList with
      | .error e => .error e
      | .ok _ => .ok [(path, .invalid)]
  | _ => .ok []

/-- one configuration, Aliases.py:30-44 -/
def aliasesOf (r : Path × Val) : PyM (List (Path × AliasFault)) :=
  match r.2.getD "Aliases" .none with
  | .error e => .error e
  | .ok a =>
    if a.truthy then
      match iterOf a with
      | .error e => .error e
      | .ok xs => collectM (aliasCheck (r.1 ++ [.str "Aliases"])) xs
    else .ok []

/-- `match`, Aliases.py:19-46 -/
def aliasRule (fuel : Nat) (t : Val) : PyM (List (Path × AliasFault)) :=
  match resourceProperties fuel "AWS::CloudFront::Distribution" ["DistributionConfig"] t with
  | .error e => .error e
  | .ok rs => collectM aliasesOf rs

/-- whether a container is essential, TaskDefinitionEssentialContainer.py:30-37 -/
def isEssential (c : Val) : PyM Bool :=
  match pyIn "Essential" c with
  | .error e => .error e
  | .ok false => .ok true
  | .ok true =>
    match c.subscript (.str "Essential") with
    | .error e => .error e
    | .ok v => .ok v.truthy

/-- the loop over containers, TaskDefinitionEssentialContainer.py:27-37: all are looked at -/
def hasEssential : List Val → PyM Bool
  | [] => .ok false
  | c :: cs =>
    match isEssential c with
    | .error e => .error e
    | .ok b =>
      match hasEssential cs with
      | .error e => .error e
      | .ok b' => .ok (b || b')

/-- one definition, TaskDefinitionEssentialContainer.py:25-42 -/
def essentialOf (r : Path × Val) : PyM (List Path) :=
  match iterOf r.2 with
  | .error e => .error e
  | .ok cs =>
    match hasEssential cs with
    | .error e => .error e
    | .ok b => .ok (if b then [] else [r.1])

/-- `match`, TaskDefinitionEssentialContainer.py:17-44 -/
def essentialRule (fuel : Nat) (t : Val) : PyM (List Path) :=
  match resourceProperties fuel "AWS::ECS::TaskDefinition" ["ContainerDefinitions"] t with
  | .error e => .error e
  | .ok rs => collectM essentialOf rs

end CfnLint
