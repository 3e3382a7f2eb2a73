import Verif.Model.Py
/-
Model of `src/cfnlint/rules/__init__.py`: rule enablement, rule options, the rule collection,
`Match`, and `run_check`.
-/
namespace CfnLint

/-- The immutable identity of a rule: class attributes `id` and `experimental`
(rules/__init__.py:17-24). -/
structure RuleInfo where
  id : String
  experimental : Bool := false
deriving DecidableEq, Repr, Inhabited

/-- `self.id.startswith(x)` where `x` may be any configured value; `str.startswith` raises
`TypeError` on a non-string (rules/__init__.py:68,74,79). -/
def startsWithV (s : String) : Val → PyM Bool
  | .str p => .ok (startsWith s p)
  | _ => .error (.typeError "startswith first arg must be str or a tuple of str")

/-- The include loop, rules/__init__.py:66-69 (never breaks, so every element is evaluated). -/
def includeLoop (id : String) (acc : Bool) : List Val → PyM Bool
  | [] => .ok acc
  | x :: xs =>
    match startsWithV id x with
    | .error e => .error e
    | .ok b => includeLoop id (if b then true else acc) xs

/-- The mandatory loop, rules/__init__.py:73-75: `some true` means "return True". -/
def mandatoryLoop (id : String) : List Val → PyM Bool
  | [] => .ok false
  | x :: xs =>
    match startsWithV id x with
    | .error e => .error e
    | .ok b => if b then .ok true else mandatoryLoop id xs

/-- The ignore loop, rules/__init__.py:78-80: `true` means "return False".
`self.id.startswith(x) and x`. -/
def ignoreLoop (id : String) : List Val → PyM Bool
  | [] => .ok false
  | x :: xs =>
    match startsWithV id x with
    | .error e => .error e
    | .ok b => if b && x.truthy then .ok true else ignoreLoop id xs

/-- `CloudFormationLintRule.is_enabled`, rules/__init__.py:54-83. -/
def isEnabled (r : RuleInfo) (includeExperimental : Bool) (ignore incl mandatory : List Val) :
    PyM Bool :=
  if r.experimental && !includeExperimental then .ok false
  else
    match includeLoop r.id false incl with
    | .error e => .error e
    | .ok false => .ok false
    | .ok true =>
      match mandatoryLoop r.id mandatory with
      | .error e => .error e
      | .ok true => .ok true
      | .ok false =>
        match ignoreLoop r.id ignore with
        | .error e => .error e
        | .ok true => .ok false
        | .ok false => .ok true

/-- Severity levels, rules/__init__.py:38-45. -/
inductive Severity where
  | informational | error | warning | unknown
deriving DecidableEq, Repr, Inhabited

/-- `self.id[0].upper()` looked up in `levels`, rules/__init__.py:38-45. An empty id raises
`IndexError`.  `Char.toUpper` agrees with `str.upper` on the ASCII letters the table can match. -/
def severity (r : RuleInfo) : PyM Severity :=
  match r.id.toList with
  | [] => .error (.indexError "string index out of range")
  | c :: _ =>
    if c.toUpper = 'I' then .ok .informational
    else if c.toUpper = 'E' then .ok .error
    else if c.toUpper = 'W' then .ok .warning
    else .ok .unknown

/-! ### Rule options -/

/-- The `'type'` entry of a rule option definition (rules/__init__.py:97-101). -/
inductive CfgType where
  | boolean | string | integer | other
deriving DecidableEq, Repr, Inhabited

/-- One entry of `config_definition`: `{'default': .., 'type': ..}`. -/
structure CfgDef where
  type : CfgType
  default : Val
deriving DecidableEq, Repr, Inhabited

/-- `bool_compare(value, True)`, helpers.py:390-399: strings are lower-cased and compared with
`'true'`; other values are compared by identity with `True`. -/
def boolCompareTrue : Val → Bool
  | .str s => lower s == "true"
  | .bool b => b
  | _ => false

/-- `str(value)` for scalar values. `str` of floats is their repr; of containers is not modelled
(returned as an opaque placeholder). -/
def pyStr : Val → String
  | .none => "None"
  | .bool true => "True"
  | .bool false => "False"
  | .int i => toString i
  | .flt r => r
  | .str s => s
  | .list _ => "<list>"
  | .dict _ => "<dict>"

/-- `int(value)`: ints and bools convert, decimal strings parse, everything else raises.
Floats, which `int` truncates, are not modelled: they raise here. -/
def pyInt : Val → PyM Int
  | .int i => .ok i
  | .bool b => .ok (if b then 1 else 0)
  | .str s =>
    match pyIntStr s with
    | some i => .ok i
    | none => .error (.valueError "invalid literal for int()")
  | _ => .error (.typeError "int() argument")

/-- A rule instance: identity plus the mutable `config` map (rules/__init__.py:28-32). -/
structure RuleObj where
  info : RuleInfo
  defs : List (String × CfgDef) := []
  config : List (String × Val) := []
deriving DecidableEq, Repr, Inhabited

/-- rules/__init__.py:88-91: set every defined option to its default. -/
def setDefaults (defs : List (String × CfgDef)) (config : List (String × Val)) :
    List (String × Val) :=
  defs.foldl (fun c d => dset d.1 d.2.default c) config

/-- rules/__init__.py:97-101: the converted value; `none` when the type is not one of the three
known ones (no assignment happens). -/
def convertOption (d : CfgDef) (value : Val) : PyM (Option Val) :=
  match d.type with
  | .boolean => .ok (some (.bool (boolCompareTrue value)))
  | .string => .ok (some (.str (pyStr value)))
  | .integer => (pyInt value).map (fun i => some (.int i))
  | .other => .ok none

/-- rules/__init__.py:94-101: the loop over the supplied options. -/
def applyOptions (defs : List (String × CfgDef)) :
    List (Key × Val) → List (String × Val) → PyM (List (String × Val))
  | [], c => .ok c
  | (.str k, v) :: rest, c =>
    match dlookup k defs with
    | none => applyOptions defs rest c
    | some d =>
      match convertOption d v with
      | .error e => .error e
      | .ok none => applyOptions defs rest c
      | .ok (some v') => applyOptions defs rest (dset k v' c)
  | (.int _, _) :: rest, c => applyOptions defs rest c

/-- `CloudFormationLintRule.configure`, rules/__init__.py:85-101. -/
def RuleObj.configure (r : RuleObj) (configs : Val) : PyM RuleObj :=
  let c := setDefaults r.defs r.config
  match configs with
  | .dict kvs => (applyOptions r.defs kvs c).map (fun c' => { r with config := c' })
  | _ => .ok { r with config := c }

/-! ### The collection -/

/-- The arguments of `RulesCollection.configure` (rules/__init__.py:187). -/
structure Cfg where
  ignore : List Val := []
  incl : List Val := []
  /-- `configure_rules`: rule id ↦ options. -/
  configureRules : List (String × Val) := []
  includeExperimental : Bool := false
  mandatory : List Val := []
deriving DecidableEq, Repr, Inhabited

/-- The loop of rules/__init__.py:200-202 adding the default include entries. -/
def addDefaults (incl : List Val) : List Val :=
  ["W", "E"].foldl (fun acc d => if Val.str d ∈ acc then acc else acc ++ [.str d]) incl

/-- `RulesCollection`: rule objects live in a heap (`objs`, indexed by identity) because
`all_rules` and `rules` share references to them. -/
structure Coll where
  objs : List RuleObj
  all : List Nat := []
  rules : List Nat := []
  cfg : Cfg := {}
deriving DecidableEq, Repr, Inhabited

/-- `is_rule_enabled`, rules/__init__.py:234-237 (uses the stored configuration). -/
def isRuleEnabled (cfg : Cfg) (r : RuleInfo) : PyM Bool :=
  isEnabled r cfg.includeExperimental cfg.ignore cfg.incl cfg.mandatory

/-- `__register`, rules/__init__.py:207-212. -/
def Coll.register' (c : Coll) (i : Nat) : PyM Coll :=
  match c.objs[i]? with
  | none => .error (.other "not an object")
  | some r =>
    match isRuleEnabled c.cfg r.info with
    | .error e => .error e
    | .ok false => .ok c
    | .ok true =>
      match dlookup r.info.id c.cfg.configureRules with
      | none => .ok { c with rules := c.rules ++ [i] }
      | some opts =>
        match r.configure opts with
        | .error e => .error e
        | .ok r' => .ok { c with rules := c.rules ++ [i], objs := c.objs.set i r' }

/-- the loop `for rule in ...: self.__register(rule)` -/
def Coll.registerAll : Coll → List Nat → PyM Coll
  | c, [] => .ok c
  | c, i :: is =>
    match c.register' i with
    | .error e => .error e
    | .ok c' => c'.registerAll is

/-- `configure`, rules/__init__.py:187-205. -/
def Coll.configure (c : Coll) (cfg : Cfg) : PyM Coll :=
  Coll.registerAll { c with rules := [], cfg := { cfg with incl := addDefaults cfg.incl } } c.all

/-- `register`, rules/__init__.py:214-217. -/
def Coll.register (c : Coll) (i : Nat) : PyM Coll :=
  Coll.register' { c with all := c.all ++ [i] } i

/-- `extend`, rules/__init__.py:225-228. -/
def Coll.extend : Coll → List Nat → PyM Coll
  | c, [] => .ok c
  | c, i :: is =>
    match c.register i with
    | .error e => .error e
    | .ok c' => c'.extend is

/-- The public mutators of the collection. -/
inductive CollOp where
  | register (i : Nat)
  | extend (is : List Nat)
  | configure (cfg : Cfg)
deriving Repr, DecidableEq

def Coll.step (c : Coll) : CollOp → PyM Coll
  | .register i => c.register i
  | .extend is => c.extend is
  | .configure cfg => c.configure cfg

/-- A history of operations; an exception aborts the history. -/
def Coll.runOps : Coll → List CollOp → PyM Coll
  | c, [] => .ok c
  | c, op :: ops =>
    match c.step op with
    | .error e => .error e
    | .ok c' => c'.runOps ops

/-- `RulesCollection.__init__`, rules/__init__.py:175-185, over a heap of rule objects. -/
def Coll.init (objs : List RuleObj) (cfg : Cfg) : PyM Coll :=
  Coll.configure { objs := objs } cfg

/-! ### Matches and run_check -/

/-- `Match`, rules/__init__.py:443-460. -/
structure Match where
  line : Int
  col : Int
  lineEnd : Int
  colEnd : Int
  filename : String
  rule : RuleInfo
  message : String
deriving DecidableEq, Repr, Inhabited

/-- What `Match.__eq__` compares, rules/__init__.py:468-476. -/
def Match.key (m : Match) : Int × Int × String × String := (m.line, m.col, m.rule.id, m.message)

/-- `Match.__eq__`. -/
def Match.eqv (a b : Match) : Bool := a.key == b.key

def parseErrorRule : RuleInfo := { id := "E0000" }
def transformErrorRule : RuleInfo := { id := "E0001" }
def ruleErrorRule : RuleInfo := { id := "E0002" }

/-- `str(err)` used in the E0002 message (non-debug mode). -/
def PyErr.text : PyErr → String
  | .templateAttributeError m => m
  | .attributeError m => m
  | .typeError m => m
  | .keyError m => m
  | .indexError m => m
  | .valueError m => m
  | .recursionError => "maximum recursion depth exceeded"
  | .other m => m

/-- The E0002 finding, rules/__init__.py:253-257. -/
def ruleErrorMatch (filename ruleId : String) (e : PyErr) : Match :=
  { line := 1, col := 1, lineEnd := 1, colEnd := 1, filename := filename, rule := ruleErrorRule,
    message := "Unknown exception while processing rule " ++ ruleId ++ ": " ++ e.text }

/-- `run_check`, rules/__init__.py:239-257.  `none` is Python's implicit `return None`, which happens
when the check raises and E0002 is not enabled.  Evaluating the enablement of E0002 can itself raise. -/
def runCheck (cfg : Cfg) (filename ruleId : String) (check : PyM (List Match)) :
    PyM (Option (List Match)) :=
  match check with
  | .ok ms => .ok (some ms)
  | .error (.templateAttributeError _) => .ok (some [])
  | .error e =>
    match isRuleEnabled cfg ruleErrorRule with
    | .error e' => .error e'
    | .ok true => .ok (some [ruleErrorMatch filename ruleId e])
    | .ok false => .ok none

/-- `matches.extend(self.run_check(..))` for a sequence of checks (rules/__init__.py:384-408);
`list.extend(None)` raises `TypeError`. -/
def runChecksSeq (cfg : Cfg) (filename : String) :
    List (String × PyM (List Match)) → List Match → PyM (List Match)
  | [], acc => .ok acc
  | (rid, chk) :: rest, acc =>
    match runCheck cfg filename rid chk with
    | .error e => .error e
    | .ok none => .error (.typeError "'NoneType' object is not iterable")
    | .ok (some ms) => runChecksSeq cfg filename rest (acc ++ ms)

end CfnLint
