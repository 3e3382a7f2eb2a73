import Verif.Model.Core
/-
Model of the command: `get_args_filenames` (core.py:118-162) with the listing of the rules
(`RulesCollection.__repr__`, rules/__init__.py:230-232), `main` (__main__.py:14-52) and the two ways it is
started, the console script of setup.py:60-64 and `python -m cfnlint` (__main__.py:55-59). Parsing of the
command line, the maintenance commands and the text of the output are not modelled.
-/
namespace CfnLint

/-- The configuration of the collection made for `--list-rules`, core.py:143-149: five positional
arguments, so the mandatory checks arrive as `include_experimental` and there are no mandatory checks. -/
def listingCfg (args : Sources) : PyM Cfg := do
  let ign ← args.ignoreChecks.orEmpty
  let inc ← args.includeChecks
  let cr ← asRuleConfig args.configureRules
  .ok { ignore := ign, incl := inc, configureRules := cr,
        includeExperimental := args.mandatoryChecks.truthy, mandatory := [] }

/-- The identities of the active rules of a collection, in the order of `self.rules`. -/
def Coll.infos (c : Coll) : List RuleInfo := c.rules.filterMap (fun i => c.objs[i]?.map RuleObj.info)

/-- The comparison of `key=lambda x: x.id`, rules/__init__.py:232. -/
def idLe (a b : RuleInfo) : Bool := decide (a.id ≤ b.id)

/-- `print(rules)`, core.py:150 with rules/__init__.py:230-232: the rules in the order printed. -/
def listRules (objs : List RuleObj) (args : Sources) : PyM (List RuleInfo) :=
  match listingCfg args with
  | .error e => .error e
  | .ok cfg =>
    match getRules objs cfg with
    | .error e => .error e
    | .ok c => .ok (c.infos.mergeSort idLe)

/-- The options of the command that are looked at before any template is read. -/
structure Command where
  updateSpecs : Bool := false
  updateDocumentation : Bool := false
  updateIamPolicies : Bool := false
  listRules : Bool := false
  stdinIsTty : Bool := true
  templates : List String := []
deriving DecidableEq, Repr

/-- What `get_args_filenames` does: it leaves the process with a status, having possibly listed rules, or
it returns the files to lint (`none` is the standard input). -/
inductive Start where
  | exited (status : Nat) (listed : Option (List RuleInfo))
  | lint (files : List (Option String))
deriving DecidableEq, Repr

/-- `get_args_filenames`, core.py:118-162, after the configuration was read; `maintain` stands for the
maintenance command that was asked for. -/
def getArgsFilenames (objs : List RuleObj) (args : Sources) (c : Command) (maintain : PyM Unit) :
    PyM Start :=
  if c.updateSpecs || c.updateDocumentation || c.updateIamPolicies then
    match maintain with
    | .error e => .error e
    | .ok () => .ok (.exited 0 none)
  else if c.listRules then
    match listRules objs args with
    | .error e => .error e
    | .ok l => .ok (.exited 0 (some l))
  else if !c.stdinIsTty && c.templates.isEmpty then .ok (.lint [none])
  else if c.templates.isEmpty then .ok (.exited 1 none)
  else .ok (.lint (c.templates.map some))

/-- `main`, __main__.py:23-52, once the files are known: `linted` is the outcome of the loop over the
templates, `print` the output of the findings, which may raise. A `CfnLintExitException` gives the status
it carries; every other exception leaves `main`. -/
def mainStatus (linted : RunM (List (List Match))) (print : List Match → PyM Unit) : PyM Nat :=
  match linted with
  | .error (.exit code) => .ok code
  | .error (.py e) => .error e
  | .ok mss =>
    match print mss.flatten with
    | .error e => .error e
    | .ok () => getExitCode mss.flatten

/-- How the program was started. -/
inductive Launch where
  /-- the installed script `cfn-lint`, setup.py:60-64 -/
  | script
  /-- `python -m cfnlint`, __main__.py:55-59 -/
  | modul
deriving DecidableEq, Repr

/-- The status of the process. An exception that leaves the program ends it with status 1; started as a
module, `ValueError` and `TypeError` are logged and the program ends normally. -/
def processStatus : Launch → PyM Nat → Nat
  | _, .ok code => code
  | .modul, .error (.valueError _) => 0
  | .modul, .error (.typeError _) => 0
  | _, .error _ => 1

/-- The whole run over decoded templates. -/
def runCommand (launch : Launch) (objs : List RuleObj) (args : Sources)
    (check : Val → Option Coll → RunM (List Match)) (print : List Match → PyM Unit)
    (ds : List Decoded) : Nat :=
  processStatus launch (mainStatus (lintAll objs args check {} ds) print)

end CfnLint
