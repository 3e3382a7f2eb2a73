import Verif.Model.Py
/-
Model of the limit rules: `src/cfnlint/rules/common.py` and the rules in `rules/{mappings,outputs,
parameters,resources,templates}/{Limit,ApproachingLimit}*.py`.

`cfn.template` is a template value. The float product `LIMITS['threshold'] * limit` is computed as IEEE
double arithmetic does it: the double nearest to 0.9 times the limit, rounded to 53 significant bits.
-/
namespace CfnLint

/-- `RuleMatch(path, message)`, rules/__init__.py:423-440; a path element can be any template value -/
structure LimitMatch where
  path : List Val
  message : String
deriving DecidableEq, Repr

/-- round to 53 significant bits, half to even (IEEE 754 binary64 significand) -/
def roundBits (n : Nat) : Nat :=
  let b := Nat.log2 n + 1
  if b ≤ 53 then n
  else
    let s := b - 53
    let q := n / 2 ^ s
    let r := n % 2 ^ s
    (if 2 ^ (s - 1) < r ∨ (r = 2 ^ (s - 1) ∧ q % 2 = 1) then q + 1 else q) * 2 ^ s

/-- `LIMITS['threshold'] * limit < size`, helpers.py:133: the double 0.9 is 8106479329266893 / 2^53 -/
def aboveThreshold (limit : Nat) (size : Int) : Bool :=
  decide ((roundBits (8106479329266893 * limit) : Int) < size * 2 ^ 53)

/-- `LIMITS['threshold'] * limit < size <= limit` -/
def approaching (limit : Nat) (size : Int) : Bool :=
  aboveThreshold limit size && decide (size ≤ limit)

/-- `size > limit` -/
def exceeds (limit : Nat) (size : Int) : Bool := decide ((limit : Int) < size)

/-- the four sections of a template that have limits -/
inductive Sect where
  | mappings | outputs | parameters | resources
deriving DecidableEq, Repr

/-- the key of the section -/
def Sect.key : Sect → String
  | .mappings => "Mappings" | .outputs => "Outputs" | .parameters => "Parameters"
  | .resources => "Resources"

/-- `section[:-1]` -/
def Sect.single : Sect → String
  | .mappings => "Mapping" | .outputs => "Output" | .parameters => "Parameter"
  | .resources => "Resource"

/-- `LIMITS[section]['name']`, helpers.py:109-128 -/
def nameMax : Sect → Nat
  | .mappings => 255 | .outputs => 255 | .parameters => 255 | .resources => 255

/-- `LIMITS[section]['number']`, helpers.py:109-128 -/
def numberMax : Sect → Nat
  | .mappings => 200 | .outputs => 200 | .parameters => 200 | .resources => 500

/-- `LIMITS['Mappings']['attributes']`, helpers.py:112 -/
def attributesMax : Nat := 200
/-- `LIMITS['Outputs']['description']`, helpers.py:118 -/
def outputDescriptionMax : Nat := 1024
/-- `LIMITS['Parameters']['value']`, helpers.py:123 -/
def valueMax : Nat := 4096
/-- `LIMITS['template']['body']`, helpers.py:130 -/
def bodyMax : Nat := 1000000
/-- `LIMITS['template']['description']`, helpers.py:131 -/
def descriptionMax : Nat := 1024

/-- `len(v)` -/
def pyLen : Val → PyM Nat
  | .str s => .ok s.toList.length
  | .list xs => .ok xs.length
  | .dict kvs => .ok kvs.length
  | _ => .error (.typeError "object has no len()")

/-- `for x in v`: the keys of a dict, the elements of a list, the characters of a string -/
def iterOf : Val → PyM (List Val)
  | .dict kvs => .ok (kvs.map (fun kv => kv.1.toVal))
  | .list xs => .ok xs
  | .str s => .ok (s.toList.map (fun c => .str (String.ofList [c])))
  | _ => .error (.typeError "object is not iterable")

/-- `v.items()` -/
def pyItems : Val → PyM (List (Key × Val))
  | .dict kvs => .ok kvs
  | v => .error (attrErr v "items")

/-- the message of a rule: `'<what> ({0}<unit>) <verb> the limit ({1}<unit>)'` -/
def limitText (what verb unit : String) (size : Int) (limit : Nat) : String :=
  what ++ " (" ++ toString size ++ unit ++ ") " ++ verb ++ " the limit (" ++ toString limit ++ unit ++ ")"

/-- a rule that appends matches for one item at a time -/
def gatherAll {α : Type} (f : α → PyM (List LimitMatch)) : List α → PyM (List LimitMatch)
  | [] => .ok []
  | x :: xs =>
    match f x with
    | .error e => .error e
    | .ok ms =>
      match gatherAll f xs with
      | .error e => .error e
      | .ok rest => .ok (ms ++ rest)

/-- loop body of `name_limit` (common.py:36-40) -/
def nameOver (s : Sect) (name : Val) : PyM (List LimitMatch) :=
  match pyLen name with
  | .error e => .error e
  | .ok n =>
    .ok (if exceeds (nameMax s) n then
      [⟨[.str s.key, name],
        limitText ("The length of " ++ s.single ++ " name") "exceeds" "" n (nameMax s)⟩] else [])

/-- `name_limit`, common.py:33-40 -/
def nameLimit (template : Val) (s : Sect) : PyM (List LimitMatch) :=
  match template.getD s.key (.dict []) with
  | .error e => .error e
  | .ok v =>
    match iterOf v with
    | .error e => .error e
    | .ok names => gatherAll (nameOver s) names

/-- loop body of `approaching_name_limit` (common.py:13-17) -/
def nameNear (s : Sect) (name : Val) : PyM (List LimitMatch) :=
  match pyLen name with
  | .error e => .error e
  | .ok n =>
    .ok (if approaching (nameMax s) n then
      [⟨[.str s.key, name],
        limitText ("The length of " ++ s.single ++ " name") "is approaching" "" n (nameMax s)⟩] else [])

/-- `approaching_name_limit`, common.py:11-17 -/
def approachingNameLimit (template : Val) (s : Sect) : PyM (List LimitMatch) :=
  match template.getD s.key (.dict []) with
  | .error e => .error e
  | .ok v =>
    match iterOf v with
    | .error e => .error e
    | .ok names => gatherAll (nameNear s) names

/-- the entries kept by `get_resources()` with no type, template.py:75-79: dicts whose `Type` is not null -/
def isTyped (kv : Key × Val) : Bool :=
  match kv.2 with
  | .dict props => ((dlookup (Key.str "Type") props).getD .none) != .none
  | _ => false

/-- `get_resources()`, template.py:63-81, with the default `resource_type=[]` -/
def getResources (template : Val) : PyM (List (Key × Val)) :=
  match template.getD "Resources" (.dict []) with
  | .error e => .error e
  | .ok (.dict kvs) => .ok (kvs.filter isTyped)
  | .ok _ => .ok []

/-- `len(cfn.get_resources() if section == 'Resources' else cfn.template.get(section, {}))`,
common.py:23 and 46 -/
def sectionCount (template : Val) (s : Sect) : PyM Nat :=
  if s = .resources then
    match getResources template with
    | .error e => .error e
    | .ok kvs => .ok kvs.length
  else
    match template.getD s.key (.dict []) with
    | .error e => .error e
    | .ok v => pyLen v

/-- `number_limit`, common.py:43-49 -/
def numberLimit (template : Val) (s : Sect) : PyM (List LimitMatch) :=
  match sectionCount template s with
  | .error e => .error e
  | .ok n =>
    .ok (if exceeds (numberMax s) n then
      [⟨[.str s.key], limitText ("The number of " ++ s.key) "exceeds" "" n (numberMax s)⟩] else [])

/-- `approaching_number_limit`, common.py:20-26 -/
def approachingNumberLimit (template : Val) (s : Sect) : PyM (List LimitMatch) :=
  match sectionCount template s with
  | .error e => .error e
  | .ok n =>
    .ok (if approaching (numberMax s) n then
      [⟨[.str s.key], limitText ("The number of " ++ s.key) "is approaching" "" n (numberMax s)⟩] else [])

/-- the two ways a size is tested: `test limit size` and the words of the message -/
structure Test where
  test : Nat → Int → Bool
  verb : String

/-- the `Limit*` rules -/
def overTest : Test := ⟨exceeds, "exceeds"⟩
/-- the `ApproachingLimit*` rules -/
def nearTest : Test := ⟨approaching, "is approaching"⟩

/-- a match when the test holds -/
def Test.report (t : Test) (path : List Val) (what unit : String) (limit : Nat) (size : Int) :
    List LimitMatch :=
  if t.test limit size then [⟨path, limitText what t.verb unit size limit⟩] else []

/-- one attribute of a mapping, mappings/LimitAttributes.py and ApproachingLimitAttributes.py:
`for mapping_attribute_name, mapping_attribute in mapping.items()` -/
def mappingAttribute (t : Test) (name : Key) (kv : Key × Val) : PyM (List LimitMatch) :=
  match pyLen kv.2 with
  | .error e => .error e
  | .ok n =>
    .ok (t.report [.str "Mappings", name.toVal, kv.1.toVal] "The amount of mapping attributes" ""
      attributesMax n)

/-- the attributes of one mapping -/
def mappingAttributes (t : Test) (kv : Key × Val) : PyM (List LimitMatch) :=
  match pyItems kv.2 with
  | .error e => .error e
  | .ok attrs => gatherAll (mappingAttribute t kv.1) attrs

/-- mappings/LimitAttributes.py and ApproachingLimitAttributes.py `match` -/
def attributeLimit (t : Test) (template : Val) : PyM (List LimitMatch) :=
  match template.getD "Mappings" (.dict []) with
  | .error e => .error e
  | .ok v =>
    match pyItems v with
    | .error e => .error e
    | .ok ms => gatherAll (mappingAttributes t) ms

/-- the description of one output -/
def outputDescription (t : Test) (kv : Key × Val) : PyM (List LimitMatch) :=
  match kv.2.getD "Description" .none with
  | .error e => .error e
  | .ok d =>
    if d.truthy then
      match pyLen d with
      | .error e => .error e
      | .ok n =>
        .ok (t.report [.str "Outputs", kv.1.toVal, .str "Description"] "The length of output description" ""
          outputDescriptionMax n)
    else .ok []

/-- outputs/LimitDescription.py and ApproachingLimitDescription.py `match` -/
def outputDescriptionLimit (t : Test) (template : Val) : PyM (List LimitMatch) :=
  match template.getD "Outputs" (.dict []) with
  | .error e => .error e
  | .ok v =>
    match pyItems v with
    | .error e => .error e
    | .ok outs => gatherAll (outputDescription t) outs

/-- templates/LimitDescription.py and ApproachingLimitDescription.py `match` -/
def templateDescriptionLimit (t : Test) (template : Val) : PyM (List LimitMatch) :=
  match template.getD "Description" (.str "") with
  | .error e => .error e
  | .ok d =>
    match pyLen d with
    | .error e => .error e
    | .ok n => .ok (t.report [.str "Description"] "The template description" " bytes" descriptionMax n)

/-- templates/LimitSize.py and ApproachingLimitSize.py `match`; `size` is `os.stat(cfn.filename).st_size`
when the file name is set and names a file -/
def templateSizeLimit (t : Test) (size : Option Nat) : List LimitMatch :=
  match size with
  | some n => t.report [.str "Template"] "The template file size" " bytes" bodyMax n
  | none => []

/-- the default value of a parameter -/
def defaultMatches (t : Test) (name : Key) (v : Val) : List LimitMatch :=
  match v with
  | .str s =>
    t.report [.str "Parameters", name.toVal, .str "Default"] "The length of parameter default value" ""
      valueMax s.toList.length
  | _ => []

/-- the number a `MaxLength` stands for: a string is converted with `int`, 0 if that fails; a boolean is an
integer; other values are skipped -/
def maxLengthValue : Val → Option Int
  | .str s => some ((pyIntStr s).getD 0)
  | .int i => some i
  | .bool b => some (if b then 1 else 0)
  | _ => none

/-- the maximum length of a parameter -/
def maxLengthMatches (t : Test) (name : Key) (v : Val) : List LimitMatch :=
  match maxLengthValue v with
  | some n => t.report [.str "Parameters", name.toVal, .str "MaxLength"] "The MaxLength of parameter" "" valueMax n
  | none => []

/-- an allowed value of a parameter -/
def allowedMatches (t : Test) (name : Key) (v : Val) : List LimitMatch :=
  match v with
  | .str s =>
    t.report [.str "Parameters", name.toVal, .str "AllowedValues"] "The length of parameter allowed value" ""
      valueMax s.toList.length
  | _ => []

/-- one parameter -/
def parameterValue (t : Test) (kv : Key × Val) : PyM (List LimitMatch) :=
  match kv.2 with
  | .dict props =>
    match iterOf ((dlookup (Key.str "AllowedValues") props).getD (.list [])) with
    | .error e => .error e
    | .ok vs =>
      .ok (defaultMatches t kv.1 ((dlookup (Key.str "Default") props).getD .none) ++
        maxLengthMatches t kv.1 ((dlookup (Key.str "MaxLength") props).getD (.int 0)) ++
        vs.flatMap (allowedMatches t kv.1))
  | v => .error (attrErr v "get")

/-- parameters/LimitValue.py and ApproachingLimitValue.py `match`; `get_parameters`, template.py:83-89 -/
def valueLimit (t : Test) (template : Val) : PyM (List LimitMatch) :=
  match template.getD "Parameters" (.dict []) with
  | .error e => .error e
  | .ok v =>
    match pyItems (if v.truthy then v else .dict []) with
    | .error e => .error e
    | .ok ps => gatherAll (parameterValue t) ps

end CfnLint
